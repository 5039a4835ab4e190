import Verif.Spec.FM2
import Verif.Props.Reuse
import Verif.Props.FMMTerm
import Verif.Lemmas.Connected
/-!
# C32, C33, C34: Fast Marching Square
-/
set_option linter.unusedSectionVars false
set_option linter.unusedVariables false
namespace FMV
open Arith Spec Shape
variable {F : Type} [Arith F]
namespace FM2

theorem clean2 (g : Grid F) : g.cleanGrid.cleanGrid = g.cleanGrid := by
  cases hc : g.clean <;> simp [Grid.cleanGrid, hc]

theorem clean_map (g : Grid F) : SameMap g g.cleanGrid := by
  unfold Grid.cleanGrid
  split
  · exact SameMap.refl _
  · exact ⟨rfl, rfl, rfl, fun _ => rfl, fun _ => rfl⟩

theorem setClean_map (g : Grid F) (b : Bool) : SameMap g (g.setClean b) := ⟨rfl, rfl, rfl, fun _ => rfl, fun _ => rfl⟩

/-- the inner solver before the first wave -/
structure Inner0 (d : Bool) (s : FMV.Obj F) : Prop where
  kind : s.kind = .fmm d .none
  heur : s.heur = .none
  heap : s.heap = []
  ready : s.ready = false

theorem setup_ok {o o1 : Obj F} {g g1 : Grid F} (h : o.setup g = .ok (g1, o1)) :
    o.sanityChecks g = 0 ∧ o.pts.length ≤ 1 ∧ o.sources ≠ [] ∧ (o.star ≠ none → o.goal ≠ noGoal) ∧ g1 = g.setClean false ∧ o1 = { o with ready := true } := by
  unfold Obj.setup at h
  split at h
  · cases h
  split at h
  · cases h
  split at h
  · cases h
  split at h
  · cases h
  next h1 h2 h3 h4 =>
    injection h with h
    injection h with ha hb
    refine ⟨by simpa using h1, by omega, h3, fun hs hg => h4 ⟨hs, hg⟩, ha.symm, hb.symm⟩

theorem conf_inner (star : Option Heur) (mx : F) (d : Bool) (gl : Nat) (j : Junk F) (g : Grid F) (pts : List Nat) (goal : Nat) :
    Inner0 d (configuredFM2 star mx d gl j g pts goal).2.inner ∧ (configuredFM2 star mx d gl j g pts goal).2.sources = g.occupied ∧
    (configuredFM2 star mx d gl j g pts goal).2.maxDist = mx ∧ (configuredFM2 star mx d gl j g pts goal).2.star = star ∧
    (configuredFM2 star mx d gl j g pts goal).2.pts = pts ∧ (configuredFM2 star mx d gl j g pts goal).2.goal = goal ∧
    (configuredFM2 star mx d gl j g pts goal).2.ready = false ∧
    (configuredFM2 star mx d gl j g pts goal).1 = g.cleanGrid := by
  cases star <;>
  exact ⟨⟨rfl, rfl, rfl, rfl⟩, rfl, rfl, rfl, rfl, rfl, rfl, clean2 g⟩

/-- configuration of the first wave -/
def waveCfg (d : Bool) : FMM.Cfg F := { dup := d, heur := .none, hdist := fun _ => zero, goal := noGoal }

/-- the first wave is a run of FMM without goal and heuristics from the obstacles -/
theorem velmap_run {pop : FMM.St F → Nat → Prop} {o : Obj F} {d : Bool} {g G : Grid F} {s : FMV.Obj F} (hi : Inner0 d o.inner) (h : o.VelMap pop g G s) :
    ∃ n st, FMM.Steps (FMV.Obj.FMMStep pop (waveCfg d)) n (FMM.init (waveCfg d) (g.setClean false) [] o.sources) st ∧ FMM.Done st ∧
      G = rescale o.maxDist st.g ∧ s.kind = .fmm d .none ∧ s.heur = .none ∧ s.heap = st.heap ∧ s.ready = true ∧
      ValidProblem (g.setClean true) o.sources noGoal := by
  obtain ⟨g1, hc, rfl⟩ := h
  rcases hc with ⟨hr, _⟩ | ⟨_, ga, oa, hs, hr⟩
  · rw [show (o.inner.setPoints o.sources noGoal).ready = o.inner.ready from rfl, hi.ready] at hr; cases hr
  · obtain ⟨h0, rfl, rfl⟩ := Life.setup_spec hs
    have hk : (o.inner.setPoints o.sources noGoal).kind = .fmm d .none := hi.kind
    obtain ⟨oo, e1, e2, e3, e4, e5⟩ := Life.fmm_setup (g.setClean true) hk
    rw [e1] at hr
    unfold FMV.Obj.runs at hr
    rw [e2] at hr
    dsimp only at hr
    obtain ⟨n, st, r1, r2, r3, r4⟩ := hr
    have ec : oo.fmmCfg ((g.setClean true).setClean false) d = waveCfg d := by
      rw [e5]
      simp [waveCfg, FMV.Obj.setPoints]
    rw [ec, e3, e4] at r1
    rw [show (o.inner.setPoints o.sources noGoal).heap = [] from hi.heap] at r1
    refine ⟨n, st, r1, r2, by rw [r3], ?_, ?_, by rw [r4], ?_, (Life.sanity_iff _ _).1 h0⟩
    · rw [r4]
    · rw [r4]
      have : oo.heur = .none := by rw [← e1]; simp [FMV.Obj.setupKind, hi.kind, FMV.Obj.setHeuristics, FMV.Obj.setPoints, hi.heur]
      exact this
    · rw [r4]
      show oo.ready = true
      rw [← e1, Life.setupKind_ready]

/-- conversely -/
theorem velmap_exists {pop : FMM.St F → Nat → Prop} {o : Obj F} {d : Bool} {g : Grid F} (hi : Inner0 d o.inner)
    (hv : ValidProblem (g.setClean true) o.sources noGoal) {n : Nat} {st : FMM.St F}
    (r1 : FMM.Steps (FMV.Obj.FMMStep pop (waveCfg d)) n (FMM.init (waveCfg d) (g.setClean false) [] o.sources) st) (r2 : FMM.Done st) :
    ∃ s, o.VelMap pop g (rescale o.maxDist st.g) s := by
  have hk : (o.inner.setPoints o.sources noGoal).kind = .fmm d .none := hi.kind
  obtain ⟨oo, e1, e2, e3, e4, e5⟩ := Life.fmm_setup (g.setClean true) hk
  have ec : oo.fmmCfg ((g.setClean true).setClean false) d = waveCfg d := by
    rw [e5]
    simp [waveCfg, FMV.Obj.setPoints]
  refine ⟨{ oo with heap := st.heap }, st.g, Or.inr ⟨hi.ready, (g.setClean true).setClean false, oo, ?_, ?_⟩, rfl⟩
  · unfold FMV.Obj.setup
    rw [if_pos ((Life.sanity_iff _ _).2 hv), e1]
  · unfold FMV.Obj.runs
    rw [e2]
    refine ⟨n, st, ?_, r2, rfl, rfl⟩
    rw [ec, e3, e4, show (o.inner.setPoints o.sources noGoal).heap = [] from hi.heap]
    exact r1

theorem stepMin_iff {cfg : FMM.Cfg F} {s s' : FMM.St F} : FMV.Obj.FMMStep FMM.IsTop cfg s s' ↔ FMM.StepMin cfg s s' := by
  constructor
  · rintro ⟨h1, x, _, h2, h3⟩; exact ⟨h1, x, h2, h3⟩
  · rintro ⟨h1, x, h2, h3⟩; exact ⟨h1, x, h2.1, h2, h3⟩


section exact
open XR FMM
variable {dims : List Nat} {g : Grid XR} {h : ℝ} {v : Nat → ℝ}

theorem input (M : FM2Map dims g h v) {g' : Grid XR} (hm : SameMap g g') : XInput dims g' h v g.occupied where
  fits := ⟨M.dims2, fun x hx => lt_of_lt_of_le (by norm_num) (M.two x hx), Nat.lt_succ_of_le M.cells⟩
  two := M.two
  shape := hm.shape.trans M.shape
  inside := fun i hi => ((M.listed i).1 hi).1
  hpos := M.hpos
  leaf := hm.leaf.trans M.leaf
  speed := fun i hi ho => by
    rw [SameMap.vel_eq hm]
    exact M.speed i hi (by rw [← SameMap.occ_eq hm]; exact ho)

theorem fresh (M : FM2Map dims g h v) : Fresh g.cleanGrid := by
  unfold Grid.cleanGrid
  split
  · next hc => exact ⟨fun i => (M.clean hc i).1, fun i => (M.clean hc i).2.1, fun i => (M.clean hc i).2.2⟩
  · exact ⟨fun _ => rfl, fun _ => rfl, fun _ => rfl⟩

theorem apart (M : FM2Map dims g h v) {g' : Grid XR} (hm : SameMap g g') : StartsApart dims g' g.occupied := by
  intro i hi j _ ho
  rw [SameMap.occ_eq hm, ((M.listed i).1 hi).2] at ho
  cases ho

theorem sol (M : FM2Map dims g h v) {g' : Grid XR} (hm : SameMap g g') {U : Nat → WithTop ℝ} (hU : (obstacleWave dims g h v).IsSolution U) :
    (input M hm).problem.IsSolution U := by
  intro i hi
  obtain ⟨h1, h2, h3⟩ := hU i hi
  have e : i ∈ g.occupied ↔ g.occ i = true := ⟨fun h => ((M.listed i).1 h).2, fun h => (M.listed i).2 ⟨hi, h⟩⟩
  have e2 : g'.occ i = g.occ i := SameMap.occ_eq hm i
  refine ⟨fun hs => h1 (e.1 hs), fun hs ho => absurd (e.2 (by rw [← e2]; exact ho)) hs, ?_⟩
  intro hs ho m hm'
  exact h3 (fun h => hs (e.2 h)) (fun h => hs (e.2 h)) m hm'

/-- the arrival times after the first wave -/
theorem wave_times (M : FM2Map dims g h v) {U : Nat → WithTop ℝ} (hU : (obstacleWave dims g h v).IsSolution U) {d : Bool} {n : Nat} {st : St XR}
    (hs : Steps (StepMin (waveCfg d)) n (FMM.init (waveCfg d) (g.cleanGrid.setClean false) [] g.occupied) st) (hd : Done st) :
    st.heap = [] ∧ SameMap g st.g ∧ (∀ i, ¬ i < dims.prod → st.g.value i = pinf ∧ st.g.state i = .opn) ∧ (∀ i, (st.g.cells i).hValue = fin 0) ∧
    ∃ t : Nat → ℝ, (∀ i, i < dims.prod → st.g.value i = fin (t i) ∧ 0 ≤ t i ∧ (g.occ i = true → t i = 0) ∧ (g.occ i = false → 0 < t i) ∧
      U i ≤ (t i : WithTop ℝ) ∧ (t i : WithTop ℝ) ≤ U i + ((dims.prod * (2 * eps) : ℝ) : WithTop ℝ)) ∧
      ∃ mx, mx < dims.prod ∧ (∀ i, i < dims.prod → t i ≤ t mx) ∧ 0 < t mx ∧ st.g.getMaxValue = fin (t mx) := by
  have hm : SameMap g (g.cleanGrid.setClean false) := (clean_map g).trans (setClean_map _ _)
  have X := input M hm
  have hfr : Fresh (g.cleanGrid.setClean false) := ⟨(fresh M).value, (fresh M).state, (fresh M).hValue⟩
  have ha := apart M hm
  have hU' := sol M hm hU
  have hemp := C14_no_goal_ends_empty (waveCfg d) dims _ _ ⟨X.fits, X.shape, X.inside⟩ (by
    show dims.prod ≤ noGoal
    have := X.fits.lt; unfold noGoal; omega) n st (hs.mono (fun _ _ => StepMin.any)) hd
  have I := XInput.FInv.reach X (ha.nonAdj X) hfr rfl hs
  have hmap : SameMap g st.g := hm.trans I.map
  have hocc : ∀ i, (g.cleanGrid.setClean false).occ i = g.occ i := SameMap.occ_eq hm
  refine ⟨hemp, hmap, ?_, ?_, ?_⟩
  · intro i hi
    have h1 : st.g.state i = .opn := by
      cases hst : st.g.state i with
      | frozen => exact absurd (I.ain.fzN i hst) hi
      | narrow => have := (I.ain.nar i hst).1; rw [hemp] at this; cases this
      | opn => rfl
    refine ⟨?_, h1⟩
    have h2 := I.ain.opn i h1 (fun hp => hi (X.inside i hp))
    have h3 := (I.good i).ofT_toT
    unfold tv at h2
    rw [h2] at h3
    rw [← h3]; rfl
  · exact I.hz
  · have hC := C16_FMM_final X hfr ha U hU' (waveCfg d) rfl n st hs hemp
    have hfin := sol_finite X hU' (fun i hi ho => (M.listed i).2 ⟨hi, by rw [← hocc]; exact ho⟩) (by
      obtain ⟨i, hi, ho⟩ := M.obstacle
      exact List.ne_nil_of_mem ((M.listed i).2 ⟨hi, ho⟩))
    have hval : ∀ i, ∃ t : ℝ, i < dims.prod → st.g.value i = fin t := by
      intro i
      by_cases hi : i < dims.prod
      · obtain ⟨c1, c2, c3⟩ := hC i hi
        rcases c1 with c1 | ⟨r, _, c1⟩
        · exfalso
          rw [c1] at c3
          have : U i + ((dims.prod * (2 * eps) : ℝ) : WithTop ℝ) ≠ ⊤ := by
            rw [WithTop.add_ne_top]; exact ⟨hfin i hi, WithTop.coe_ne_top⟩
          exact this (top_le_iff.1 c3)
        · exact ⟨r, fun _ => c1⟩
      · exact ⟨0, fun h => absurd h hi⟩
    choose t ht using hval
    have hall : ∀ i, i < dims.prod → st.g.value i = fin (t i) ∧ 0 ≤ t i ∧ (g.occ i = true → t i = 0) ∧ (g.occ i = false → 0 < t i) ∧
      U i ≤ (t i : WithTop ℝ) ∧ (t i : WithTop ℝ) ≤ U i + ((dims.prod * (2 * eps) : ℝ) : WithTop ℝ) := by
      intro i hi
      obtain ⟨c1, c2, c3⟩ := hC i hi
      rw [ht i hi] at c1 c2 c3
      refine ⟨ht i hi, ?_, ?_, ?_, c2, c3⟩
      · rcases c1 with c1 | ⟨r, h0, c1⟩
        · cases c1
        · injection c1 with c1; rw [c1]; exact h0
      · intro ho
        have := C10_FMM_partial X hfr ha (waveCfg d) rfl n st hs i ((M.listed i).2 ⟨hi, ho⟩)
        rw [ht i hi] at this
        injection this
      · intro ho
        have hp := sol_pos X hU' hi (by rw [hocc]; exact ho) (fun hp => by rw [((M.listed i).1 hp).2] at ho; cases ho)
        have : ((0:ℝ) : WithTop ℝ) < ((t i : ℝ) : WithTop ℝ) := lt_of_lt_of_le hp c2
        exact_mod_cast this
    refine ⟨t, hall, ?_⟩
    obtain ⟨f, hf, hfo⟩ := M.free
    obtain ⟨mx, hmx, hmax⟩ := Finset.exists_max_image (Finset.range dims.prod) t ⟨f, by simpa using hf⟩
    rw [Finset.mem_range] at hmx
    have hmax' : ∀ i, i < dims.prod → t i ≤ t mx := fun i hi => hmax i (by simpa using hi)
    have hpos : 0 < t mx := lt_of_lt_of_le ((hall f hf).2.2.2.1 hfo) (hmax' f hf)
    refine ⟨mx, hmx, hmax', hpos, ?_⟩
    have hsz : st.g.size = dims.prod := by
      show st.g.shape.ncells = _
      rw [hmap.shape, M.shape]; exact mk'_ncells (X.fits.mono (by norm_num))
    obtain ⟨g1, g2, g3⟩ := C06_getMaxValue XR.ltLaws st.g
    have hup := g2 mx (by rw [hsz]; exact hmx) (by rw [(hall mx hmx).1]; rfl)
    rw [(hall mx hmx).1] at hup
    rcases g1 with g1 | ⟨i, hi, _, g1⟩
    · rw [g1] at hup
      have : ¬ (0 < t mx) := by simpa [Arith.lt, XR.lt, Arith.zero] using hup
      exact absurd hpos this
    · rw [hsz] at hi
      rw [(hall i hi).1] at g1
      rw [g1] at hup ⊢
      have h2 : ¬ (t i < t mx) := by simpa [Arith.lt, XR.lt] using hup
      have := hmax' i hi
      rw [le_antisymm this (not_lt.1 h2)]


/-- the velocity formula in exact arithmetic -/
theorem velocity_eq {D hh T t : ℝ} (hh0 : 0 < hh) (hT : 0 < T) (hD : D = -1 ∨ 0 < D) :
    velocity (fin D) (fin hh) (fin T) (fin t) = fin (if D = -1 then t / T else min 1 (t / T / (D / hh))) := by
  have e1 : Arith.div (fin t) (fin T) = fin (t / T) := by show XR.div _ _ = _; simp [XR.div, hT.ne']
  have e2 : Arith.div (fin D) (fin hh) = fin (D / hh) := by show XR.div _ _ = _; simp [XR.div, hh0.ne']
  unfold velocity
  simp only [e1, e2]
  by_cases hD1 : D = -1
  · subst hD1
    have : Arith.eq (fin (-1)) (Arith.neg (Arith.one : XR)) = true := by show XR.eq _ (XR.neg (fin 1)) = _; simp [XR.eq, XR.neg]
    rw [this]; simp
  · have hD0 : 0 < D := hD.resolve_left hD1
    have : Arith.eq (fin D) (Arith.neg (Arith.one : XR)) = false := by show XR.eq _ (XR.neg (fin 1)) = _; simp [XR.eq, XR.neg, hD1]
    rw [this, if_neg hD1]
    have hq : 0 < D / hh := by positivity
    have e3 : Arith.lt (fin (t / T)) (fin (D / hh)) = decide (t / T < D / hh) := rfl
    have e4 : Arith.div (fin (t / T)) (fin (D / hh)) = fin (t / T / (D / hh)) := by show XR.div _ _ = _; simp [XR.div, hq.ne']
    rw [e3, e4]
    by_cases hlt : t / T < D / hh
    · simp only [hlt, decide_true, if_true, Bool.not_false]
      rw [min_eq_right]
      exact le_of_lt ((div_lt_one hq).2 hlt)
    · simp only [hlt, decide_false, Bool.not_false, if_true]
      rw [min_eq_left ((one_le_div hq).2 (not_lt.1 hlt))]
      rfl

/-- what the velocity phase does -/
theorem velmap_spec (M : FM2Map dims g h v) {U : Nat → WithTop ℝ} (hU : (obstacleWave dims g h v).IsSolution U) {D : ℝ} (hD : D = -1 ∨ 0 < D)
    {star : Option Heur} {d : Bool} {gl : Nat} {j : Junk XR} {pts : List Nat} {goal : Nat} {g1 G : Grid XR} {o1 : Obj XR} {s : FMV.Obj XR}
    (hset : (configuredFM2 star (fin D) d gl j g pts goal).2.setup (configuredFM2 star (fin D) d gl j g pts goal).1 = .ok (g1, o1))
    (hv : o1.VelMap FMM.IsTop g1 G s) :
    ∃ (t : Nat → ℝ) (mx : Nat), (∀ i, i < dims.prod → 0 ≤ t i ∧ (g.occ i = true → t i = 0) ∧ (g.occ i = false → 0 < t i) ∧
        U i ≤ (t i : WithTop ℝ) ∧ (t i : WithTop ℝ) ≤ U i + ((dims.prod * (2 * eps) : ℝ) : WithTop ℝ)) ∧
      mx < dims.prod ∧ (∀ i, i < dims.prod → t i ≤ t mx) ∧ 0 < t mx ∧
      (∀ i, i < dims.prod → G.vel i = fin (if D = -1 then t i / t mx else min 1 (t i / t mx / (D / h)))) ∧
      (∀ i, G.value i = pinf ∧ G.state i = .opn ∧ (G.cells i).hValue = fin 0) ∧ G.clean = true ∧ G.shape = g.shape ∧ G.leaf = g.leaf ∧
      s.kind = .fmm d .none ∧ s.heur = .none ∧ s.heap = [] ∧ s.ready = true := by
  obtain ⟨c1, c2, c3, c4, c5, c6, c7, c8⟩ := conf_inner star (fin D) d gl j g pts goal
  obtain ⟨_, _, _, _, rfl, rfl⟩ := setup_ok hset
  obtain ⟨n, st, r1, r2, rfl, k1, k2, k3, k4, _⟩ := velmap_run (d := d) (o := { (configuredFM2 star (fin D) d gl j g pts goal).2 with ready := true }) c1 hv
  dsimp only at r1
  rw [c8, c2] at r1
  obtain ⟨w1, w2, w3, w4, t, w5, mx, w6, w7, w8, w9⟩ := wave_times (d := d) (n := n) (st := st) M hU
    (r1.mono (fun _ _ h => stepMin_iff.1 h)) r2
  have hsz : st.g.shape.ncells = dims.prod := by
    rw [w2.shape, M.shape]; exact mk'_ncells ((input M w2).fits.mono (by norm_num))
  have hN0 : dims.prod ≠ 0 := by have := w6; omega
  refine ⟨t, mx, fun i hi => (w5 i hi).2, w6, w7, w8, ?_, ?_, ?_, w2.shape, w2.leaf, k1, k2, by rw [k3, w1], k4⟩
  · intro i hi
    show (if i < st.g.shape.ncells then _ else st.g.cells i).occupancy = _
    rw [hsz, if_pos hi]
    show velocity _ st.g.leaf st.g.getMaxValue (st.g.value i) = _
    dsimp only
    rw [c3, w2.leaf, M.leaf, w9, (w5 i hi).1]
    exact velocity_eq M.hpos w8 hD
  · intro i
    by_cases hi : i < dims.prod
    · have : (rescale (configuredFM2 star (fin D) d gl j g pts goal).2.maxDist st.g).cells i =
        { st.g.cells i with occupancy := velocity (configuredFM2 star (fin D) d gl j g pts goal).2.maxDist st.g.leaf st.g.getMaxValue (st.g.cells i).value, value := inf, state := .opn } := by
        show (if i < st.g.shape.ncells then _ else st.g.cells i) = _
        rw [hsz, if_pos hi]
      unfold Grid.value Grid.state
      dsimp only
      rw [this]
      exact ⟨rfl, rfl, w4 i⟩
    · have : (rescale (configuredFM2 star (fin D) d gl j g pts goal).2.maxDist st.g).cells i = st.g.cells i := by
        show (if i < st.g.shape.ncells then _ else st.g.cells i) = _
        rw [hsz, if_neg hi]
      unfold Grid.value Grid.state
      dsimp only
      rw [this]
      exact ⟨(w3 i hi).1, (w3 i hi).2, w4 i⟩
  · show (if st.g.shape.ncells = 0 then _ else true) = true
    rw [hsz, if_neg hN0]

/-- **C32**: when the velocity phase of FM2 or FM2* ends, every velocity is a number in [0,1], 0 in the obstacles and positive in the free cells;
without saturation (`maxDistance = -1`) some cell has velocity exactly 1; and the second wave finds all times infinite, all cells OPEN and the
grid marked clean. -/
theorem _root_.FMV.C32_velocities (M : FM2Map dims g h v) {D : ℝ} (hD : D = -1 ∨ 0 < D)
    (star : Option Heur) (d : Bool) (gl : Nat) (j : Junk XR) (pts : List Nat) (goal : Nat) (g1 G : Grid XR) (o1 : Obj XR) (s : FMV.Obj XR)
    (hset : (configuredFM2 star (fin D) d gl j g pts goal).2.setup (configuredFM2 star (fin D) d gl j g pts goal).1 = .ok (g1, o1))
    (hv : o1.VelMap FMM.IsTop g1 G s) :
    (∃ r : Nat → ℝ, (∀ i, i < dims.prod → G.vel i = fin (r i) ∧ 0 ≤ r i ∧ r i ≤ 1 ∧ (g.occ i = true → r i = 0) ∧ (g.occ i = false → 0 < r i)) ∧
      (D = -1 → ∃ i, i < dims.prod ∧ r i = 1)) ∧
    (∀ i, G.value i = pinf ∧ G.state i = .opn) ∧ G.clean = true := by
  obtain ⟨U, hU, _⟩ := C17_unique_solution (obstacleWave dims g h v) ⟨M.dims2, fun x hx => lt_of_lt_of_le (by norm_num) (M.two x hx), M.cells, M.hpos,
    fun i hi ho => (input M (SameMap.refl g)).vpos hi (by simpa [obstacleWave] using ho)⟩
  obtain ⟨t, mx, a1, a2, a3, a4, a5, a6, a7, _⟩ := velmap_spec M hU hD hset hv
  refine ⟨⟨_, fun i hi => ⟨a5 i hi, ?_⟩, ?_⟩, fun i => ⟨(a6 i).1, (a6 i).2.1⟩, a7⟩
  · obtain ⟨b1, b2, b3, _⟩ := a1 i hi
    have h1 : 0 ≤ t i / t mx := by positivity
    by_cases hD1 : D = -1
    · simp only [hD1, if_true]
      exact ⟨h1, (div_le_one a4).2 (a3 i hi), fun ho => by rw [b2 ho, zero_div], fun ho => div_pos (b3 ho) a4⟩
    · have hD0 := hD.resolve_left hD1
      have hh := M.hpos
      have hq : 0 < D / h := by positivity
      simp only [hD1, if_false]
      refine ⟨le_min zero_le_one (by positivity), min_le_left _ _, fun ho => ?_, fun ho => lt_min one_pos (div_pos (div_pos (b3 ho) a4) hq)⟩
      rw [b2 ho]; simp
  · intro hD1
    exact ⟨mx, a2, by simp only [hD1, if_true]; exact div_self a4.ne'⟩

/-- **C32**, what the velocities are: arrival times `t` of the wave from the obstacles, exact up to twice the comparison margin per cell, divided by
the largest of them. -/
theorem _root_.FMV.C32_velocities_are_times (M : FM2Map dims g h v) (U : Nat → WithTop ℝ) (hU : (obstacleWave dims g h v).IsSolution U)
    (star : Option Heur) (d : Bool) (gl : Nat) (j : Junk XR) (pts : List Nat) (goal : Nat) (g1 G : Grid XR) (o1 : Obj XR) (s : FMV.Obj XR)
    (hset : (configuredFM2 star (fin (-1)) d gl j g pts goal).2.setup (configuredFM2 star (fin (-1)) d gl j g pts goal).1 = .ok (g1, o1))
    (hv : o1.VelMap FMM.IsTop g1 G s) :
    ∃ (t : Nat → ℝ) (tmax : ℝ), (∀ i, i < dims.prod → U i ≤ (t i : WithTop ℝ) ∧ (t i : WithTop ℝ) ≤ U i + ((dims.prod * (2 * eps) : ℝ) : WithTop ℝ)) ∧
      (∀ i, i < dims.prod → t i ≤ tmax) ∧ (∃ i, i < dims.prod ∧ t i = tmax) ∧ 0 < tmax ∧ ∀ i, i < dims.prod → G.vel i = fin (t i / tmax) := by
  obtain ⟨t, mx, a1, a2, a3, a4, a5, _⟩ := velmap_spec M hU (Or.inl rfl) hset hv
  exact ⟨t, t mx, fun i hi => (a1 i hi).2.2.2, a3, ⟨mx, a2, rfl⟩, a4, fun i hi => by rw [a5 i hi, if_pos rfl]⟩


/-- the solver object after the velocity phase, before the second wave -/
theorem second_spec {d : Bool} {o : Obj F} {g : Grid F} {s : FMV.Obj F} (hk : s.kind = .fmm d .none) (hr : s.ready = true) :
    (o.second g s).kind = .fmm d .none ∧ (o.second g s).ready = true ∧ (o.second g s).pts = [o.goal] ∧ (o.second g s).goal = o.pts.headD 0 ∧
    (o.second g s).heap = s.heap ∧ (o.star = none → (o.second g s).heur = s.heur) := by
  unfold Obj.second
  split
  · next h => exact ⟨hk, hr, rfl, rfl, rfl, fun _ => rfl⟩
  · next hh h =>
    rw [h]
    unfold FMV.Obj.setHeuristics
    split
    · exact ⟨hk, hr, rfl, rfl, rfl, by simp⟩
    · exact ⟨hk, hr, rfl, rfl, rfl, by simp⟩

/-- **C34**: `setup()` of FM2 / FM2* succeeds exactly on the problems that the base class accepts and that have one initial point, a non-empty obstacle
list and, for FM2*, a goal; otherwise the program ends.  `compute()` on an object that is not set up calls `setup()`, so it returns on no other problem. -/
theorem _root_.FMV.C34_gate (star : Option Heur) (mx : F) (d : Bool) (gl : Nat) (j : Junk F) (g : Grid F) (pts : List Nat) (goal : Nat) :
    ((∃ r, (configuredFM2 star mx d gl j g pts goal).2.setup (configuredFM2 star mx d gl j g pts goal).1 = .ok r) ↔
      ValidProblem g.cleanGrid pts goal ∧ pts.length = 1 ∧ g.occupied ≠ [] ∧ (star ≠ none → goal ≠ noGoal)) ∧
    ∀ (pop : FMM.St F → Nat → Prop) (G : Grid F) (o' : Obj F),
      (configuredFM2 star mx d gl j g pts goal).2.Computes pop (configuredFM2 star mx d gl j g pts goal).1 G o' →
      ValidProblem g.cleanGrid pts goal ∧ pts.length = 1 ∧ g.occupied ≠ [] ∧ (star ≠ none → goal ≠ noGoal) := by
  obtain ⟨c1, c2, c3, c4, c5, c6, c7, c8⟩ := conf_inner star mx d gl j g pts goal
  generalize configuredFM2 star mx d gl j g pts goal = c at *
  have hsan : c.2.sanityChecks c.1 = 0 ↔ ValidProblem g.cleanGrid pts goal := by
    unfold Obj.sanityChecks
    rw [Life.sanity_iff, c5, c6, c8]
  have key : ∀ r, c.2.setup c.1 = .ok r → ValidProblem g.cleanGrid pts goal ∧ pts.length = 1 ∧ g.occupied ≠ [] ∧ (star ≠ none → goal ≠ noGoal) := by
    intro r hr
    obtain ⟨s1, s2, s3, s4, _⟩ := setup_ok (g1 := r.1) (o1 := r.2) hr
    have hv := hsan.1 s1
    rw [c5] at s2
    have : pts.length ≠ 0 := fun h => hv.some (List.length_eq_zero_iff.1 h)
    exact ⟨hv, by omega, by rw [← c2]; exact s3, by rw [← c4, ← c6]; exact s4⟩
  refine ⟨⟨fun ⟨r, hr⟩ => key r hr, ?_⟩, ?_⟩
  · rintro ⟨h1, h2, h3, h4⟩
    refine ⟨(c.1.setClean false, { c.2 with ready := true }), ?_⟩
    unfold Obj.setup
    rw [if_neg (by simpa using hsan.2 h1), if_neg (by rw [c5]; omega), if_neg (by rw [c2]; exact h3), if_neg (by rw [c4, c6]; rintro ⟨ha, hb⟩; exact h4 ha hb)]
  · rintro pop G o' (⟨hr, _⟩ | ⟨_, g1, o1, hs, _⟩)
    · rw [c7] at hr; cases hr
    · exact key _ hs

/-- **C34**: when `compute()` returns, the velocity phase has run, and after it a wave from the goal alone, on the grid with the new velocities, which
stops when it reaches the initial point. -/
theorem _root_.FMV.C34_second_wave_partial (pop : FMM.St F → Nat → Prop) (star : Option Heur) (mx : F) (d : Bool) (gl : Nat) (j : Junk F) (g : Grid F)
    (start goal : Nat) (G : Grid F) (o' : Obj F)
    (hc : (configuredFM2 star mx d gl j g [start] goal).2.Computes pop (configuredFM2 star mx d gl j g [start] goal).1 G o') :
    ∃ g1 o1 gv s, (configuredFM2 star mx d gl j g [start] goal).2.setup (configuredFM2 star mx d gl j g [start] goal).1 = .ok (g1, o1) ∧ o1.VelMap pop g1 gv s ∧
      ∃ (cfg : FMM.Cfg F) (n : Nat) (st : FMM.St F), cfg.dup = d ∧ cfg.goal = start ∧ (star = none → cfg.heur = .none) ∧
        FMM.Steps (FMV.Obj.FMMStep pop cfg) n (FMM.init cfg gv s.heap [goal]) st ∧ (st.stop = true ∨ st.heap = []) ∧
        (st.stop = true → st.g.state start = .frozen) ∧ G = st.g.setClean false := by
  obtain ⟨c1, c2, c3, c4, c5, c6, c7, c8⟩ := conf_inner star mx d gl j g [start] goal
  generalize configuredFM2 star mx d gl j g [start] goal = c at *
  rcases hc with ⟨hr, _⟩ | ⟨_, g1, o1, hs, hr⟩
  · rw [c7] at hr; cases hr
  obtain ⟨gv, s, g2, s2, hv, hw, rfl, _⟩ := hr
  refine ⟨g1, o1, gv, s, hs, hv, ?_⟩
  obtain ⟨_, _, _, _, rfl, rfl⟩ := setup_ok hs
  obtain ⟨n1, st1, _, _, _, k1, k2, k3, k4, _⟩ := velmap_run (d := d) (o := { c.2 with ready := true }) c1 hv
  obtain ⟨e1, e2, e3, e4, e5, e6⟩ := second_spec (o := { c.2 with ready := true }) (g := gv) k1 k4
  generalize Obj.second ({ c.2 with ready := true } : Obj F) gv s = oo at *
  rcases hw with ⟨_, hw⟩ | ⟨hw, _⟩
  · unfold FMV.Obj.runs at hw
    rw [e1] at hw
    dsimp only at hw e3 e4
    obtain ⟨n, st, r1, r2, r3, _⟩ := hw
    rw [e3, c6, e5] at r1
    have hg : (oo.fmmCfg gv d).goal = start := by show oo.goal = start; rw [e4, c5]; rfl
    refine ⟨oo.fmmCfg gv d, n, st, rfl, hg, fun hn => ?_, r1, r2, ?_, by rw [r3]⟩
    · show oo.heur = _
      rw [e6 (by rw [← hn, ← c4]), k2]
    · refine FMM.Steps.inv (I := fun t : FMM.St F => t.stop = true → t.g.state start = .frozen) ?_ r1 ?_
      · rintro u t h ⟨_, x, _, _, rfl⟩ hst
        rw [FMM.expand_frozen_iff]
        rw [FMM.expand_eq] at hst
        dsimp only at hst
        split at hst
        · next hx => exact Or.inr (by rw [hx, hg])
        · exact Or.inl (h hst)
      · rw [FMM.init_stop]; simp
  · rw [e2] at hw; cases hw


theorem valid_first (M : FM2Map dims g h v) (h2 : 2 ≤ g.occupied.length) {g' : Grid XR} (hm : SameMap g g') :
    ValidProblem (g'.setClean true) g.occupied noGoal where
  clean := rfl
  some := fun h => by rw [h] at h2; simp at h2
  start := fun p hp => by rw [hp] at h2; simp at h2
  free := fun h => absurd rfl h
  apart := fun hn => by
    have := ((M.listed _).1 hn).1
    have h2 := M.cells
    unfold noGoal at this; omega

/-- the velocity phase ends, for maps with at least two listed obstacles -/
theorem velmap_returns (M : FM2Map dims g h v) (h2 : 2 ≤ g.occupied.length) (star : Option Heur) (D : XR) (d : Bool) (gl : Nat) (j : Junk XR) (pts : List Nat)
    (goal : Nat) (g1 : Grid XR) (o1 : Obj XR)
    (hset : (configuredFM2 star D d gl j g pts goal).2.setup (configuredFM2 star D d gl j g pts goal).1 = .ok (g1, o1)) :
    ∃ G s, o1.VelMap FMM.IsTop g1 G s := by
  obtain ⟨c1, c2, c3, c4, c5, c6, c7, c8⟩ := conf_inner star D d gl j g pts goal
  generalize configuredFM2 star D d gl j g pts goal = c at *
  obtain ⟨_, _, _, _, rfl, rfl⟩ := setup_ok hset
  have hm : SameMap g (g.cleanGrid.setClean false) := (clean_map g).trans (setClean_map _ _)
  obtain ⟨U, hU, _⟩ := C17_unique_solution (obstacleWave dims g h v) ⟨M.dims2, fun x hx => lt_of_lt_of_le (by norm_num) (M.two x hx), M.cells, M.hpos,
    fun i hi ho => (input M (SameMap.refl g)).vpos hi (by simpa [obstacleWave] using ho)⟩
  obtain ⟨_, n, st, r1, r2, _⟩ := C47_SFMM_exact (input M hm) ⟨(fresh M).value, (fresh M).state, (fresh M).hValue⟩ (apart M hm) U (sol M hm hU)
    (waveCfg d) rfl (by
      show dims.prod ≤ noGoal
      have := M.cells; unfold noGoal; omega)
  have := velmap_exists (pop := FMM.IsTop) (d := d) (o := { c.2 with ready := true }) (g := c.1.setClean false) c1 (by
      dsimp only; rw [c2]
      have := valid_first M h2 hm
      rw [c8]; exact this) (n := n) (st := st) (by
      dsimp only; rw [c2, c8]
      exact r1.mono (fun _ _ h => stepMin_iff.2 h)) (Or.inr r2)
  obtain ⟨s, hs⟩ := this
  exact ⟨_, s, hs⟩

/-- **C32**, non-vacuity, and **C34**, converse of the gate: on a map with at least two obstacles, for a well-posed problem with points inside the grid,
`compute()` of FM2 and FM2* (with a heap without duplicates) returns. -/
theorem _root_.FMV.C34_returns (M : FM2Map dims g h v) (h2 : 2 ≤ g.occupied.length) (star : Option Heur) {D : ℝ} (hD : D = -1 ∨ 0 < D) (gl : Nat)
    (j : Junk XR) (start goal : Nat) (hv : ValidProblem g.cleanGrid [start] goal) (hg : goal < dims.prod) :
    ∃ G o', (configuredFM2 star (fin D) false gl j g [start] goal).2.Computes FMM.IsTop (configuredFM2 star (fin D) false gl j g [start] goal).1 G o' := by
  obtain ⟨⟨g1, o1⟩, hset⟩ := (C34_gate star (fin D) false gl j g [start] goal).1.2 ⟨hv, rfl, fun h => by rw [h] at h2; simp at h2, fun _ h => by
    have := M.cells; rw [h] at hg; unfold noGoal at hg; omega⟩
  obtain ⟨gv, s, hvm⟩ := velmap_returns M h2 star (fin D) false gl j [start] goal g1 o1 hset
  obtain ⟨U, hU, _⟩ := C17_unique_solution (obstacleWave dims g h v) ⟨M.dims2, fun x hx => lt_of_lt_of_le (by norm_num) (M.two x hx), M.cells, M.hpos,
    fun i hi ho => (input M (SameMap.refl g)).vpos hi (by simpa [obstacleWave] using ho)⟩
  obtain ⟨t, mx, a1, a2, a3, a4, a5, a6, a7, a8, a9, k1, k2, k3, k4⟩ := velmap_spec M hU hD hset hvm
  obtain ⟨c1, c2, c3, c4, c5, c6, c7, c8⟩ := conf_inner star (fin D) false gl j g [start] goal
  generalize configuredFM2 star (fin D) false gl j g [start] goal = c at *
  have ho1 : o1 = { c.2 with ready := true } := (setup_ok hset).2.2.2.2.2
  obtain ⟨e1, e2, e3, e4, e5, e6⟩ := second_spec (o := o1) (g := gv) k1 k4
  obtain ⟨G, o', hr⟩ := Life.fmm_returns FMM.IsTop (fun s hs => by
      obtain ⟨x, hx, hmin⟩ := FMM.exists_min XR.ltLaws (fun x => (s.g.cells x).total) s.heap hs
      exact ⟨x, hx, hx, hmin⟩) e1 (by rw [e5, k3]) (dims := dims) (g := gv)
    ⟨(input M (SameMap.refl g)).fits, a8.trans M.shape, by
      rw [e3, ho1]; intro i hi
      rw [List.mem_singleton.1 hi]
      show c.2.goal < _
      rw [c6]; exact hg⟩
  exact ⟨G.setClean false, { o1 with inner := o' }, Or.inr ⟨c7, g1, o1, hset, gv, s, G, o', hvm, Or.inl ⟨e2, hr⟩, rfl, rfl⟩⟩

/-- **C34**, refuted where the obstacle list has exactly one element: although `setup()` accepts the problem, the underlying solver refuses its single
initial point because it is occupied, and the program ends (fm/solver.hpp:217). -/
theorem _root_.FMV.C34_refuted_single_obstacle (M : FM2Map dims g h v) (b : Nat) (hb : g.occupied = [b]) (star : Option Heur) (D : XR) (d : Bool) (gl : Nat)
    (j : Junk XR) (start goal : Nat) (hv : ValidProblem g.cleanGrid [start] goal) (hg : goal < dims.prod) :
    ∃ g1 o1, (configuredFM2 star D d gl j g [start] goal).2.setup (configuredFM2 star D d gl j g [start] goal).1 = .ok (g1, o1) ∧
      (o1.inner.setPoints o1.sources noGoal).setup (g1.setClean true) = .error 4 ∧
      ∀ pop, ¬ ∃ G o', (configuredFM2 star D d gl j g [start] goal).2.Computes pop (configuredFM2 star D d gl j g [start] goal).1 G o' := by
  obtain ⟨⟨g1, o1⟩, hset⟩ := (C34_gate star D d gl j g [start] goal).1.2 ⟨hv, rfl, fun h => by rw [h] at hb; simp at hb, fun _ h => by
    have := M.cells; rw [h] at hg; unfold noGoal at hg; omega⟩
  refine ⟨g1, o1, hset, ?_⟩
  obtain ⟨c1, c2, c3, c4, c5, c6, c7, c8⟩ := conf_inner star D d gl j g [start] goal
  generalize configuredFM2 star D d gl j g [start] goal = c at *
  have hocc : g.occ b = true := ((M.listed b).1 (by rw [hb]; simp)).2
  obtain ⟨_, _, _, _, rfl, rfl⟩ := setup_ok hset
  have hm : SameMap g ((c.1.setClean false).setClean true) := by
    rw [c8]; exact (clean_map g).trans ((setClean_map _ _).trans (setClean_map _ _))
  have herr : (({ c.2 with ready := true } : Obj XR).inner.setPoints ({ c.2 with ready := true } : Obj XR).sources noGoal).sanityChecks ((c.1.setClean false).setClean true) = 4 := by
    unfold FMV.Obj.sanityChecks FMV.Obj.setPoints
    dsimp only
    rw [c2, hb, SameMap.occ_eq hm]
    simp [hocc, Grid.setClean]
  refine ⟨?_, ?_⟩
  · unfold FMV.Obj.setup
    rw [herr, if_neg (by norm_num)]
  · rintro pop ⟨G, o', ⟨hr, _⟩ | ⟨_, g1, o1, hs, hr⟩⟩
    · rw [c7] at hr; cases hr
    · obtain ⟨gv, s, g2, s2, hvm, _⟩ := hr
      obtain ⟨_, _, _, _, rfl, rfl⟩ := setup_ok hs
      obtain ⟨_, _, _, _, _, _, _, _, _, hvp⟩ := velmap_run (d := d) (o := { c.2 with ready := true }) c1 hvm
      have := (Life.sanity_iff (({ c.2 with ready := true } : Obj XR).inner.setPoints ({ c.2 with ready := true } : Obj XR).sources noGoal) _).2 hvp
      rw [herr] at this
      cases this

/-- **C34**, refuted for FM2 without a goal: nothing checks that a goal was given, and the second wave is started in the cell with index 4294967295,
which is outside of every grid. -/
theorem _root_.FMV.C34_refuted_no_goal (M : FM2Map dims g h v) (h2 : 2 ≤ g.occupied.length) (D : XR) (d : Bool) (gl : Nat)
    (j : Junk XR) (start : Nat) (hs : start < dims.prod) (hfree : g.occ start = false) :
    ∃ g1 o1 gv s, (configuredFM2 none D d gl j g [start] noGoal).2.setup (configuredFM2 none D d gl j g [start] noGoal).1 = .ok (g1, o1) ∧
      o1.VelMap FMM.IsTop g1 gv s ∧ (o1.second gv s).ready = true ∧ (o1.second gv s).pts = [4294967295] ∧ gv.size ≤ 4294967295 := by
  have hcl : g.cleanGrid.clean = true := by
    cases hc : g.clean <;> simp [Grid.cleanGrid, hc]
  obtain ⟨⟨g1, o1⟩, hset⟩ := (C34_gate none D d gl j g [start] noGoal).1.2 ⟨⟨hcl, by simp, fun p hp => by
      obtain rfl : start = p := by simpa using hp
      rw [SameMap.occ_eq (clean_map g)]; exact hfree, fun h => absurd rfl h, by
      have := M.cells
      unfold noGoal; simp; omega⟩, rfl, fun h => by rw [h] at h2; simp at h2, fun h => absurd rfl h⟩
  obtain ⟨gv, s, hvm⟩ := velmap_returns M h2 none D d gl j [start] noGoal g1 o1 hset
  refine ⟨g1, o1, gv, s, hset, hvm, ?_⟩
  obtain ⟨c1, c2, c3, c4, c5, c6, c7, c8⟩ := conf_inner none D d gl j g [start] noGoal
  generalize configuredFM2 none D d gl j g [start] noGoal = c at *
  obtain ⟨_, _, _, _, rfl, rfl⟩ := setup_ok hset
  obtain ⟨n, st, r1, _, rfl, k1, _, _, k4, _⟩ := velmap_run (d := d) (o := { c.2 with ready := true }) c1 hvm
  obtain ⟨_, e2, e3, _⟩ := second_spec (o := { c.2 with ready := true }) (g := rescale ({ c.2 with ready := true } : Obj XR).maxDist st.g) k1 k4
  refine ⟨e2, by rw [e3]; show [c.2.goal] = _; rw [c6]; rfl, ?_⟩
  have hmap : SameMap (c.1.setClean false |>.setClean false) st.g := by
    exact C20_FMM _ _ _ _ _ _ (r1.mono (fun _ _ h => (stepMin_iff.1 h).any))
  have : (rescale ({ c.2 with ready := true } : Obj XR).maxDist st.g).size = dims.prod := by
    show st.g.shape.ncells = _
    rw [hmap.shape]
    show c.1.shape.ncells = _
    rw [c8, (clean_map g).shape, M.shape]; exact mk'_ncells ((input M (SameMap.refl g)).fits.mono (by norm_num))
  rw [this]
  have := M.cells
  omega


/-- **C34**: the result of FM2.  The second wave solves the eikonal problem whose speeds are the computed velocities `r`, with the goal as the only source:
the arrival time at the initial point, where the wave stops, and at the cells frozen until then, is exact up to twice the comparison margin per cell. -/
theorem _root_.FMV.C34_arrival_time_partial (M : FM2Map dims g h v) {D : ℝ} (hD : D = -1 ∨ 0 < D) (d : Bool) (gl : Nat) (j : Junk XR) (start goal : Nat)
    (hst : start < dims.prod) (hgo : goal < dims.prod) (G : Grid XR) (o' : Obj XR)
    (hc : (configuredFM2 none (fin D) d gl j g [start] goal).2.Computes FMM.IsTop (configuredFM2 none (fin D) d gl j g [start] goal).1 G o') :
    ∃ r : Nat → ℝ, (∀ i, i < dims.prod → G.vel i = fin (r i) ∧ 0 ≤ r i ∧ r i ≤ 1) ∧
      ∀ U2 : Nat → WithTop ℝ, (⟨dims, h, r, fun i => r i < eps, fun i => i = goal⟩ : Problem).IsSolution U2 →
        (U2 start ≤ toT (G.value start) ∧ toT (G.value start) ≤ U2 start + ((dims.prod * (2 * eps) : ℝ) : WithTop ℝ)) ∧
        ∀ i, G.state i = .frozen → U2 i ≤ toT (G.value i) ∧ toT (G.value i) ≤ U2 i + ((dims.prod * (2 * eps) : ℝ) : WithTop ℝ) := by
  obtain ⟨g1, o1, gv, s, hset, hvm, cfg, n, st, q1, q2, q3, q4, q5, q6, rfl⟩ := C34_second_wave_partial _ _ _ _ _ _ _ _ _ _ _ hc
  obtain ⟨⟨r, hr, _⟩, _⟩ := C32_velocities M hD none d gl j [start] goal g1 gv o1 s hset hvm
  obtain ⟨U, hU, _⟩ := C17_unique_solution (obstacleWave dims g h v) ⟨M.dims2, fun x hx => lt_of_lt_of_le (by norm_num) (M.two x hx), M.cells, M.hpos,
    fun i hi ho => (input M (SameMap.refl g)).vpos hi (by simpa [obstacleWave] using ho)⟩
  obtain ⟨t, mx, a1, a2, a3, a4, a5, a6, a7, a8, a9, k1, k2, k3, k4⟩ := velmap_spec M hU hD hset hvm
  rw [k3] at q4
  have hmap := C20_FMM cfg gv [] [goal] n st (q4.mono (fun _ _ h => (stepMin_iff.1 h).any))
  have X : XInput dims gv h r [goal] :=
    ⟨(input M (SameMap.refl g)).fits, M.two, a8.trans M.shape, by intro i hi; rw [List.mem_singleton.1 hi]; exact hgo, M.hpos, a9.trans M.leaf,
     fun i hi _ => (hr i hi).1⟩
  have hfr : Fresh gv := ⟨fun i => (a6 i).1, fun i => (a6 i).2.1, fun i => (a6 i).2.2⟩
  have ha : StartsApart dims gv [goal] := by
    intro i hi k hk _ hadj
    rw [List.mem_singleton.1 hi, List.mem_singleton.1 hk] at hadj
    exact nbrs_irrefl X.fits hgo ((axisAdjacent_iff X.fits hgo).2 ⟨hgo, hadj⟩)
  have hsteps : Steps (StepMin cfg) n (FMM.init cfg gv [] [goal]) st := q4.mono (fun _ _ h => stepMin_iff.1 h)
  refine ⟨r, fun i hi => ⟨?_, (hr i hi).2.1, (hr i hi).2.2.1⟩, ?_⟩
  · show st.g.vel i = _
    rw [SameMap.vel_eq hmap]; exact (hr i hi).1
  · intro U2 hU2
    have hU2' : X.problem.IsSolution U2 := by
      intro i hi
      obtain ⟨h1, h2, h3⟩ := hU2 i hi
      have e : gv.occ i = true ↔ r i < eps := by
        have := (hr i hi).1
        unfold Grid.vel at this
        unfold Grid.occ Cell.isOccupied
        rw [this]
        show XR.lt (fin (r i)) (fin eps) = true ↔ _
        simp [XR.lt]
      refine ⟨fun hs => h1 (List.mem_singleton.1 hs), fun hs ho => h2 (fun h => hs (List.mem_singleton.2 h)) (e.1 ho), fun hs ho m hm => ?_⟩
      exact h3 (fun h => hs (List.mem_singleton.2 h)) (fun h => ho (e.2 h)) m hm
    have hfz := C16_FMM_frozen X hfr ha U2 hU2' cfg (q3 rfl) n st hsteps
    refine ⟨?_, hfz⟩
    rcases q5 with q5 | q5
    · exact hfz start (q6 q5)
    · exact (C16_FMM_final X hfr ha U2 hU2' cfg (q3 rfl) n st hsteps q5 start hst).2

/-- **C33** (partial): with a saturation distance `D > 0` the velocity of a cell is `min 1 (t / tmax / (D / h))`, where `t` is its (almost exact) arrival time
from the obstacles, `tmax` the largest one and `h` the leaf size: proportional to the time up to the threshold `t = tmax * D / h`, and 1 from there on.
Missing from the English property: the threshold is not the distance `D` (see `C33_refuted`). -/
theorem _root_.FMV.C33_formula_partial (M : FM2Map dims g h v) (U : Nat → WithTop ℝ) (hU : (obstacleWave dims g h v).IsSolution U) {D : ℝ} (hD : 0 < D)
    (star : Option Heur) (d : Bool) (gl : Nat) (j : Junk XR) (pts : List Nat) (goal : Nat) (g1 G : Grid XR) (o1 : Obj XR) (s : FMV.Obj XR)
    (hset : (configuredFM2 star (fin D) d gl j g pts goal).2.setup (configuredFM2 star (fin D) d gl j g pts goal).1 = .ok (g1, o1))
    (hv : o1.VelMap FMM.IsTop g1 G s) :
    ∃ (t : Nat → ℝ) (tmax : ℝ), (∀ i, i < dims.prod → U i ≤ (t i : WithTop ℝ) ∧ (t i : WithTop ℝ) ≤ U i + ((dims.prod * (2 * eps) : ℝ) : WithTop ℝ)) ∧
      (∀ i, i < dims.prod → t i ≤ tmax) ∧ (∃ i, i < dims.prod ∧ t i = tmax) ∧ 0 < tmax ∧
      ∀ i, i < dims.prod → G.vel i = fin (min 1 (t i / tmax / (D / h))) := by
  obtain ⟨t, mx, a1, a2, a3, a4, a5, _⟩ := velmap_spec M hU (Or.inr hD) hset hv
  exact ⟨t, t mx, fun i hi => (a1 i hi).2.2.2, a3, ⟨mx, a2, rfl⟩, a4, fun i hi => by rw [a5 i hi, if_neg (by linarith)]⟩

/-- **C33**, refuted: if the saturation distance is larger than the leaf size, no cell at all gets full speed, however far it is from the obstacles:
every velocity is at most `h / D`. -/
theorem _root_.FMV.C33_refuted (M : FM2Map dims g h v) {D : ℝ} (hD : h < D)
    (star : Option Heur) (d : Bool) (gl : Nat) (j : Junk XR) (pts : List Nat) (goal : Nat) (g1 G : Grid XR) (o1 : Obj XR) (s : FMV.Obj XR)
    (hset : (configuredFM2 star (fin D) d gl j g pts goal).2.setup (configuredFM2 star (fin D) d gl j g pts goal).1 = .ok (g1, o1))
    (hv : o1.VelMap FMM.IsTop g1 G s) (i : Nat) (hi : i < dims.prod) : ∃ r, G.vel i = fin r ∧ r ≤ h / D ∧ r < 1 := by
  have hh := M.hpos
  have hD0 : 0 < D := lt_trans hh hD
  obtain ⟨U, hU, _⟩ := C17_unique_solution (obstacleWave dims g h v) ⟨M.dims2, fun x hx => lt_of_lt_of_le (by norm_num) (M.two x hx), M.cells, M.hpos,
    fun i hi ho => (input M (SameMap.refl g)).vpos hi (by simpa [obstacleWave] using ho)⟩
  obtain ⟨t, tm, _, a2, _, a4, a5⟩ := C33_formula_partial M U hU hD0 star d gl j pts goal g1 G o1 s hset hv
  have h1 : t i / tm / (D / h) ≤ h / D := by
    rw [div_le_iff₀ (by positivity), div_mul_div_cancel₀ hD0.ne', div_self hh.ne']
    exact (div_le_one a4).2 (a2 i hi)
  exact ⟨_, a5 i hi, le_trans (min_le_right _ _) h1, lt_of_le_of_lt (le_trans (min_le_right _ _) h1) ((div_lt_one hD0).2 hD)⟩

/-- A room of 5 x 2 cells of size and speed 1 with obstacles in the cells `obs`. -/
noncomputable def room (obs : List Nat) : Grid XR :=
  { Grid.create [5,2] (fin 1) (0,0) with
    cells := fun i => { (Cell.default : Cell XR) with index := i, occupancy := if i ∈ obs then fin 0 else fin 1 }, occupied := obs }

theorem room_occ (obs : List Nat) (i : Nat) : (room obs).occ i = true ↔ i ∈ obs := by
  have h1 : (Arith.lt (fin 0) (Arith.margin : XR)) = true := by
    show XR.lt (fin 0) (fin eps) = true
    simp [XR.lt, eps_pos]
  have h2 : (Arith.lt (fin 1) (Arith.margin : XR)) = false := by
    show XR.lt (fin 1) (fin eps) = false
    simp [XR.lt, eps]; norm_num
  unfold room Grid.occ Cell.isOccupied
  dsimp only
  split
  · next h => simp [h, h1]
  · next h => simp [h, h2]

theorem room_map (obs : List Nat) (h1 : ∀ i ∈ obs, i < 10) (h2 : obs ≠ []) (h3 : ∃ i, i < 10 ∧ i ∉ obs) : FM2Map [5,2] (room obs) 1 (fun _ => 1) where
  dims2 := by decide
  two := by decide
  cells := by decide
  shape := rfl
  hpos := one_pos
  leaf := rfl
  speed := by
    intro i _ ho
    have h1 : ¬ (i ∈ obs) := fun h => by rw [(room_occ obs i).2 h] at ho; cases ho
    unfold room Grid.vel
    dsimp only
    rw [if_neg h1]
  clean := fun _ i => ⟨rfl, rfl, rfl⟩
  listed := by
    intro i
    rw [room_occ]
    exact ⟨fun h => ⟨h1 i h, h⟩, fun h => h.2⟩
  obstacle := by
    obtain ⟨i, hi⟩ := List.exists_mem_of_ne_nil _ h2
    exact ⟨i, h1 i hi, (room_occ obs i).2 hi⟩
  free := by
    obtain ⟨i, hi, hn⟩ := h3
    refine ⟨i, hi, ?_⟩
    cases h : (room obs).occ i with
    | false => rfl
    | true => exact absurd ((room_occ obs i).1 h) hn

theorem room_valid (obs : List Nat) {a b : Nat} (ha : a ∉ obs) (hb : b ∉ obs) (hab : b ≠ a) : ValidProblem (room obs).cleanGrid [a] b where
  clean := rfl
  some := by simp
  start := by
    intro p hp
    obtain rfl : a = p := by simpa using hp
    rw [SameMap.occ_eq (clean_map _)]
    cases h : (room obs).occ a with
    | false => rfl
    | true => exact absurd ((room_occ obs a).1 h) ha
  free := by
    intro _
    rw [SameMap.occ_eq (clean_map _)]
    cases h : (room obs).occ b with
    | false => rfl
    | true => exact absurd ((room_occ obs b).1 h) hb
  apart := by simpa using hab

/-- A corridor with a wall in its first column. -/
noncomputable def corridor : Grid XR := room [0, 5]

theorem corridor_map : FM2Map [5,2] corridor 1 (fun _ => 1) := room_map [0,5] (by decide) (by decide) ⟨1, by decide, by decide⟩
theorem corridor_valid : ValidProblem corridor.cleanGrid [1] 4 := room_valid [0,5] (by decide) (by decide) (by decide)

/-- **C33**, a concrete failure: in the corridor of unit cells with a wall in its first column and saturation distance 2, FM2 runs, the cell at the far
end is 4 columns away from every obstacle, and its velocity is at most 1/2. -/
theorem _root_.FMV.C33_refuted_corridor (gl : Nat) (j : Junk XR) :
    ∃ g1 o1 G s, (configuredFM2 none (fin 2) false gl j corridor [1] 4).2.setup (configuredFM2 none (fin 2) false gl j corridor [1] 4).1 = .ok (g1, o1) ∧
      o1.VelMap FMM.IsTop g1 G s ∧ (∀ b ∈ corridor.occupied, ((Shape.mk' [5,2]).idx2coord b).headD 0 + 4 ≤ ((Shape.mk' [5,2]).idx2coord 4).headD 0) ∧
      ∃ r, G.vel 4 = fin r ∧ r ≤ 1 / 2 := by
  obtain ⟨⟨g1, o1⟩, hset⟩ := (C34_gate none (fin 2) false gl j corridor [1] 4).1.2 ⟨corridor_valid, rfl, by simp [corridor, room], by simp⟩
  obtain ⟨G, s, hv⟩ := velmap_returns corridor_map (by simp [corridor, room]) none (fin 2) false gl j [1] 4 g1 o1 hset
  refine ⟨g1, o1, G, s, hset, hv, ?_, ?_⟩
  · intro b hb
    have hb : b = 0 ∨ b = 5 := by simpa [corridor, room] using hb
    rcases hb with rfl | rfl <;> decide
  · obtain ⟨r, h1, h2, _⟩ := C33_refuted corridor_map (by norm_num) none false gl j [1] 4 g1 G o1 s hset hv 4 (by decide)
    exact ⟨r, h1, h2⟩

/-- non-vacuity of C32 and C34: FM2 and FM2* run to the end in the corridor -/
example (star : Option Heur) (gl : Nat) (j : Junk XR) : ∃ G o', (configuredFM2 star (fin (-1)) false gl j corridor [1] 4).2.Computes FMM.IsTop
    (configuredFM2 star (fin (-1)) false gl j corridor [1] 4).1 G o' :=
  C34_returns corridor_map (by simp [corridor, room]) star (Or.inl rfl) gl j 1 4 corridor_valid (by decide)

/-- non-vacuity of `C34_refuted_single_obstacle` -/
example (gl : Nat) (j : Junk XR) (pop : FMM.St XR → Nat → Prop) : ¬ ∃ G o', (configuredFM2 none (fin (-1)) false gl j (room [2]) [1] 4).2.Computes pop
    (configuredFM2 none (fin (-1)) false gl j (room [2]) [1] 4).1 G o' := by
  obtain ⟨_, _, _, _, h⟩ := C34_refuted_single_obstacle (room_map [2] (by decide) (by decide) ⟨1, by decide, by decide⟩) 2 rfl none (fin (-1)) false gl j 1 4
    (room_valid [2] (by decide) (by decide) (by decide)) (by decide)
  exact h pop

/-- non-vacuity of `C34_refuted_no_goal` -/
example (gl : Nat) (j : Junk XR) : ∃ g1 o1 gv s,
    (configuredFM2 none (fin (-1)) true gl j corridor [1] noGoal).2.setup (configuredFM2 none (fin (-1)) true gl j corridor [1] noGoal).1 = .ok (g1, o1) ∧
      o1.VelMap FMM.IsTop g1 gv s ∧ (o1.second gv s).ready = true ∧ (o1.second gv s).pts = [4294967295] ∧ gv.size ≤ 4294967295 :=
  C34_refuted_no_goal corridor_map (by simp [corridor, room]) _ _ _ _ 1 (by decide) (by
    cases h : corridor.occ 1 with
    | false => rfl
    | true => exact absurd ((room_occ [0,5] 1).1 h) (by decide))

end exact
end FM2
end FMV
