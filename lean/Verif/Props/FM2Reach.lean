import Verif.Props.Clearance
import Verif.Props.Walk
/-!
# C90: FM2 reaches the start exactly when it can be reached
-/
set_option linter.unusedSectionVars false
set_option linter.unusedVariables false
namespace FMV
open Spec Shape XR FMM
variable {dims : List Nat} {g : Grid XR} {h : ℝ} {v : Nat → ℝ}

namespace FMM

/-- one starting point: OPEN cells have time `+inf`, all others a number -/
structure OneInv (dims : List Nat) (g : Grid XR) (s : St XR) : Prop where
  map : SameMap g s.g
  good : GoodG s.g
  heap : ∀ x ∈ s.heap, x < dims.prod ∧ s.g.state x ≠ .opn
  opn : ∀ k, s.g.state k = .opn → tv s.g k = ⊤
  fin : ∀ k, s.g.state k ≠ .opn → tv s.g k ≠ ⊤

theorem OneInv.keep {p : Nat} (X : XInput dims g h v [p]) {cfg : Cfg XR} {s : St XR} (I : OneInv dims g s) {x j : Nat} (hx : x < dims.prod) (hxf : s.g.state x = .frozen)
    (hj : j ∈ (Shape.mk' dims).nbrs x) : OneInv dims g (relax cfg eikS s j) := by
  have hjN := FMM.nbr_lt X.fits hx hj
  obtain ⟨a1, a2, _⟩ := tv_relax_pos X (cfg := cfg) I.map I.good hjN
  have hocc : s.g.occ j = g.occ j := SameMap.occ_eq I.map j
  rcases relax_cases cfg eikS s j with ⟨hsk, e⟩ | ⟨ho, hn, hb, e⟩ | ⟨ho, hn, hb, e⟩ | ⟨ho, hn, e⟩
  · rw [e]; exact I
  · have hv : ∀ k, tv (relax cfg eikS s j).g k = if k = j then toT (eikS s.g j).1 else tv s.g k := by
      intro k; rw [e]; unfold tv; rw [Grid.value_setValue]; split
      · rfl
      · rw [applyHeur_value]; rfl
    have hst : ∀ k, (relax cfg eikS s j).g.state k = s.g.state k := by
      intro k; rw [e]; simp [applyHeur_state]
    have hfin : toT (eikS s.g j).1 ≠ ⊤ := by
      intro hc
      have hb' := hb
      rw [X.eik_eq I.map I.good hjN (by rw [← hocc]; exact ho)] at hb' hc
      rw [toT_ofT] at hc
      have : s.g.value j = ofT (tv s.g j) := (I.good j).ofT_toT.symm
      rw [this, better_ofT, hc] at hb'
      exact absurd hb' (by simp)
    refine ⟨a1, a2, ?_, ?_, ?_⟩
    · intro y hy
      rw [hst]
      rw [e] at hy
      dsimp only at hy
      split at hy
      · rcases List.mem_cons.1 hy with rfl | hy
        · exact ⟨hjN, by rw [hn]; simp⟩
        · exact I.heap y hy
      · exact I.heap y hy
    · intro k hk
      rw [hst] at hk
      rw [hv]; split
      · next hkj => rw [hkj, hn] at hk; cases hk
      · exact I.opn k hk
    · intro k hk
      rw [hst] at hk
      rw [hv]; split
      · exact hfin
      · exact I.fin k hk
  · have hv : ∀ k, tv (relax cfg eikS s j).g k = tv s.g k := by
      intro k; rw [e]; unfold tv; rw [applyHeur_value]; rfl
    have hst : ∀ k, (relax cfg eikS s j).g.state k = s.g.state k := by
      intro k; rw [e]; simp [applyHeur_state]
    refine ⟨a1, a2, ?_, fun k hk => by rw [hst] at hk; rw [hv]; exact I.opn k hk, fun k hk => by rw [hst] at hk; rw [hv]; exact I.fin k hk⟩
    intro y hy; rw [e] at hy; rw [hst]; exact I.heap y hy
  · have hv : ∀ k, tv (relax cfg eikS s j).g k = if k = j then toT (eikS s.g j).1 else tv s.g k := by
      intro k; rw [e]; unfold tv; rw [Grid.value_setValue]; split
      · rfl
      · rw [Grid.value_setState, applyHeur_value]; rfl
    have hst : ∀ k, (relax cfg eikS s j).g.state k = if k = j then .narrow else s.g.state k := by
      intro k; rw [e]; simp [applyHeur_state, Grid.state_setState]
    have hfin : toT (eikS s.g j).1 ≠ ⊤ := by
      have hoj : g.occ j = false := by rw [← hocc]; exact ho
      rw [X.eik_eq I.map I.good hjN hoj, toT_ofT]
      intro hc
      obtain ⟨m, hm, hle⟩ := XInput.mins_le (T := tv s.g) (nbrs_symm X.fits hx hj)
      have hxt := I.fin x (by rw [hxf]; simp)
      rcases (upd_eq_top_iff (X.cpos hjN hoj)).1 hc m hm with h1 | h1
      · rw [h1] at hle; exact hxt (top_le_iff.1 hle)
      · rw [I.opn j hn] at h1
        exact hxt (top_le_iff.1 (le_trans h1 hle))
    refine ⟨a1, a2, ?_, ?_, ?_⟩
    · intro y hy
      rw [hst]
      rw [e] at hy
      dsimp only at hy
      rcases List.mem_cons.1 hy with rfl | hy
      · exact ⟨hjN, by simp⟩
      · refine ⟨(I.heap y hy).1, ?_⟩
        split
        · simp
        · exact (I.heap y hy).2
    · intro k hk
      rw [hst] at hk
      rw [hv]
      by_cases hkj : k = j
      · simp [hkj] at hk
      · rw [if_neg hkj] at hk ⊢; exact I.opn k hk
    · intro k hk
      rw [hst] at hk
      rw [hv]
      by_cases hkj : k = j
      · rw [if_pos hkj]; exact hfin
      · rw [if_neg hkj] at hk ⊢; exact I.fin k hk

/-- FMM and SFMM, with or without heuristic, from one starting point: every FROZEN cell has a finite time -/
theorem frozen_finite {p : Nat} (X : XInput dims g h v [p]) (hfr : Fresh g) {cfg : Cfg XR} {n : Nat} {s : St XR} (hs : Steps (StepLib cfg) n (FMM.init cfg g [] [p]) s) {i : Nat}
    (hi : s.g.state i = .frozen) : ∃ t : ℝ, 0 ≤ t ∧ s.g.value i = fin t := by
  have key : (s = FMM.init cfg g [] [p]) ∨ OneInv dims g s := by
    refine Steps.inv (r := StepLib cfg) (I := fun s => s = FMM.init cfg g [] [p] ∨ OneInv dims g s) ?_ hs (Or.inl rfl)
    rintro s t I ⟨_, x, hx, rfl⟩
    right
    have P : OneInv dims g (popped s x) ∧ x < dims.prod := by
      rcases I with rfl | I
      · rw [init_heap] at hx
        obtain rfl : x = p := by simpa using hx
        have hxN := X.inside x (by simp)
        have hst : ∀ k, (popped (FMM.init cfg g [] [x]) x).g.state k = if k = x then .frozen else .opn := by
          intro k; simp only [popped, Grid.state_setState, init_state, hfr.state]
        have hv : ∀ k, (popped (FMM.init cfg g [] [x]) x).g.value k = if k = x then fin 0 else pinf := by
          intro k
          simp only [popped, Grid.value_setState, init_value, hfr.value, List.mem_singleton]; rfl
        refine ⟨⟨(init_sameMap _ _ _ _).trans (popped_sameMap _ _), ?_, ?_, ?_, ?_⟩, hxN⟩
        · intro k; rw [hv]; split
          · exact Or.inr ⟨0, le_refl _, rfl⟩
          · exact Or.inl rfl
        · intro y hy; simp [popped, init_heap] at hy
        · intro k hk; rw [hst] at hk; unfold tv; rw [hv]
          split at hk
          · cases hk
          · next hne => rw [if_neg hne]; rfl
        · intro k hk; rw [hst] at hk; unfold tv; rw [hv]
          split at hk
          · next he => rw [if_pos he]; simp
          · exact absurd rfl hk
      · have hst : ∀ k, (popped s x).g.state k = if k = x then .frozen else s.g.state k := by
          intro k; simp only [popped, Grid.state_setState]
        have hv : ∀ k, tv (popped s x).g k = tv s.g k := by intro k; unfold tv; simp only [popped, Grid.value_setState]
        refine ⟨⟨I.map.trans (popped_sameMap s x), ?_, ?_, ?_, ?_⟩, (I.heap x hx).1⟩
        · intro k; simp only [popped, Grid.value_setState]; exact I.good k
        · intro y hy
          have := I.heap y (List.mem_of_mem_erase hy)
          refine ⟨this.1, ?_⟩
          rw [hst]; split
          · simp
          · exact this.2
        · intro k hk; rw [hst] at hk; rw [hv]
          split at hk
          · cases hk
          · exact I.opn k hk
        · intro k hk; rw [hst] at hk; rw [hv]
          split at hk
          · next he => rw [he]; exact I.fin x (I.heap x hx).2
          · exact I.fin k hk
    have hsh : s.g.shape = Shape.mk' dims := by
      rcases I with rfl | I
      · exact (init_sameMap _ _ _ _).shape.trans X.shape
      · exact I.map.shape.trans X.shape
    have := expand_inv (I := fun t : St XR => OneInv dims g t ∧ t.g.state x = .frozen) cfg eikS s x
      (fun t b h => ⟨⟨h.1.map, h.1.good, h.1.heap, h.1.opn, h.1.fin⟩, h.2⟩) ⟨P.1, by simp [popped, Grid.state_setState]⟩ (fun t j hj J => by
        refine ⟨J.1.keep X P.2 J.2 (by rw [← hsh]; exact hj), ?_⟩
        have hf := J.2
        unfold Grid.state at *
        rw [relax_cells_protected (Or.inl hf)]; exact hf)
    exact this.1
  rcases key with rfl | I
  · rw [init_state, hfr.state] at hi; cases hi
  · have h1 := I.fin i (by rw [hi]; simp)
    rcases I.good i with h2 | ⟨t, h2, h3⟩
    · unfold tv at h1; rw [h2] at h1; simp at h1
    · exact ⟨t, h2, h3⟩

end FMM

theorem one_le_sqD {i p : Nat} (hi : i < dims.prod) (hp : p < dims.prod) (hne : i ≠ p) : 1 ≤ sqD dims i p := by
  have : ∃ k, k < dims.length ∧ digit dims i k ≠ digit dims p k := by
    by_contra hcon
    push Not at hcon
    exact hne (digit_ext hi hp hcon)
  obtain ⟨k, hk, hkn⟩ := this
  have h1 : 1 ≤ |dk dims i p k| := by
    unfold dk
    rcases lt_or_gt_of_ne hkn with h | h
    · have : (digit dims i k : ℝ) + 1 ≤ digit dims p k := by exact_mod_cast h
      rw [abs_of_nonpos (by linarith)]; linarith
    · have : (digit dims p k : ℝ) + 1 ≤ digit dims i k := by exact_mod_cast h
      rw [abs_of_nonneg (by linarith)]; linarith
  have h2 := dk_sq_le (i := i) (p := p) hk
  rw [← sq_abs] at h2
  nlinarith

theorem one_le_euclid (hf : Fits dims (2^31+1)) {i p : Nat} (hi : i < dims.prod) (hp : p < dims.prod) (hne : i ≠ p) :
    1 ≤ euclid ((Shape.mk' dims).idx2coord i) ((Shape.mk' dims).idx2coord p) := by
  rw [euclid_eq hf hi hp, Real.one_le_sqrt]
  exact one_le_sqD hi hp hne

theorem pieceBound_mono (D : Nat) {a b : ℝ} (ha : 0 ≤ a) (hab : a ≤ b) : pieceBound D a ≤ pieceBound D b := by
  unfold pieceBound
  have h1 := Real.sqrt_nonneg (D : ℝ)
  have h2 : Real.log (1 + a) ≤ Real.log (1 + b) := Real.log_le_log (by linarith) (by linarith)
  have := mul_le_mul_of_nonneg_left h2 (show 0 ≤ 1 + 2 * Real.sqrt (D : ℝ) by linarith)
  linarith

theorem euclid_nonneg (a b : List Nat) : 0 ≤ euclid a b := Real.sqrt_nonneg _

/-- **C90**, obstacles: when the velocity phase of FM2 or FM2* ends, the cells that the second wave regards as obstacles (speed below `COMP_MARGIN`) are exactly the obstacles of the map,
provided that no cell is more than `S` cells away from all obstacles and that the speeds of the free cells, between `vlo` and `vhi`, and the saturation distance do not differ too much (`hsmall`). -/
theorem C90_same_obstacles_partial (M : FM2Map dims g h v) {vlo vhi S κ : ℝ} (hlo : 0 < vlo) (hv : ∀ i, i < dims.prod → g.occ i = false → vlo ≤ v i ∧ v i ≤ vhi)
    {D : ℝ} (hD : D = -1 ∨ 0 < D) (hκ1 : 1 ≤ κ) (hκ : D / h ≤ κ)
    (hS : ∀ i, i < dims.prod → ∃ p ∈ g.occupied, euclid ((Shape.mk' dims).idx2coord i) ((Shape.mk' dims).idx2coord p) ≤ S)
    (hsmall : eps * κ * (Real.sqrt dims.length * vhi / h) * (h / vlo * pieceBound dims.length S + dims.prod * (2 * eps)) ≤ 1)
    (star : Option Heur) (d : Bool) (gl : Nat) (j : Junk XR) (pts : List Nat) (goal : Nat) (g1 G : Grid XR) (o1 : FM2.Obj XR) (s : FMV.Obj XR)
    (hset : (configuredFM2 star (fin D) d gl j g pts goal).2.setup (configuredFM2 star (fin D) d gl j g pts goal).1 = .ok (g1, o1))
    (hrun : o1.VelMap FMM.IsTop g1 G s) (i : Nat) (hi : i < dims.prod) : G.occ i = g.occ i := by
  have he : (0:ℝ) < eps := by unfold eps; norm_num
  have he1 : eps ≤ 1 := by unfold eps; norm_num
  have hh := M.hpos
  cases ho : g.occ i with
  | true =>
    obtain ⟨⟨r, hr, _⟩, _⟩ := C32_velocities M hD star d gl j pts goal g1 G o1 s hset hrun
    obtain ⟨h1, _, _, h2, _⟩ := hr i hi
    unfold Grid.vel at h1
    unfold Grid.occ Cell.isOccupied
    rw [h1, h2 ho]
    show XR.lt (fin 0) (fin eps) = true
    simp [XR.lt, he]
  | false =>
    obtain ⟨T, r, hT, hr, ⟨m, hm, hm1⟩, e, up, low⟩ := C89_speed_follows_clearance M hlo hv hD star d gl j pts goal g1 G o1 s hset hrun
    have hhi : 0 < vhi := lt_of_lt_of_le hlo (le_trans (hv i hi ho).1 (hv i hi ho).2)
    obtain ⟨p, hp, hpS⟩ := hS m hm
    have hTle := up m hm p hp
    rw [hm1, one_mul] at hTle
    have hTle : T ≤ h / vlo * pieceBound dims.length S + dims.prod * (2 * eps) := by
      refine le_trans hTle ?_
      have := mul_le_mul_of_nonneg_left (pieceBound_mono dims.length (euclid_nonneg _ _) hpS) (div_pos hh hlo).le
      linarith
    obtain ⟨q, hq, hqle⟩ := low i hi
    obtain ⟨hqN, hqo⟩ := (M.listed q).1 hq
    have h1 := one_le_euclid (FM2.input M (SameMap.refl g)).fits hi hqN (fun he => by rw [he, hqo] at ho; cases ho)
    have h2 : h / vhi ≤ Real.sqrt dims.length * (r i * T) := le_trans (by have := mul_le_mul_of_nonneg_left h1 (div_pos hh hhi).le; linarith) hqle
    -- eps * κ ≤ r i
    have hsq : 0 < Real.sqrt (dims.length : ℝ) := Real.sqrt_pos.2 (by exact_mod_cast lt_of_lt_of_le (by norm_num) M.dims2)
    have h3 : eps * κ * (Real.sqrt dims.length * vhi / h) * T ≤ 1 := le_trans (mul_le_mul_of_nonneg_left hTle (by positivity)) hsmall
    have h4 : 1 ≤ r i * ((Real.sqrt dims.length * vhi / h) * T) := by
      have := mul_le_mul_of_nonneg_left h2 (div_pos hhi hh).le
      have e1 : vhi / h * (h / vhi) = 1 := by field_simp
      have e2 : vhi / h * (Real.sqrt dims.length * (r i * T)) = r i * ((Real.sqrt dims.length * vhi / h) * T) := by ring
      rw [e1, e2] at this; exact this
    have h5 : eps * κ ≤ r i := by
      have hpos : 0 < (Real.sqrt dims.length * vhi / h) * T := by positivity
      have : eps * κ * ((Real.sqrt dims.length * vhi / h) * T) ≤ r i * ((Real.sqrt dims.length * vhi / h) * T) := by
        have e3 : eps * κ * ((Real.sqrt dims.length * vhi / h) * T) = eps * κ * (Real.sqrt dims.length * vhi / h) * T := by ring
        rw [e3]; linarith
      exact le_of_mul_le_mul_right this hpos
    have hx := e i hi
    unfold Grid.vel at hx
    unfold Grid.occ Cell.isOccupied
    rw [hx]
    show XR.lt (fin _) (fin eps) = false
    have : eps ≤ if D = -1 then r i else min 1 (r i / (D / h)) := by
      split
      · nlinarith
      · next hD1 =>
        have hD0 := hD.resolve_left hD1
        have hq : 0 < D / h := by positivity
        refine le_min he1 ((le_div_iff₀ hq).2 ?_)
        exact le_trans (mul_le_mul_of_nonneg_left hκ he.le) h5
    simp [XR.lt, this]

/-- the same free cells, the same connected cells -/
theorem reachable_congr {dims : List Nat} {coords : Nat → List Nat} {f f' init init' : Nat → Prop} (hf : ∀ i, i < dims.prod → f i → f' i) (hi : ∀ i, init i → init' i) {i : Nat}
    (h : Reachable dims coords f init i) : Reachable dims coords f' init' i := by
  induction h with
  | start h1 h2 => exact .start (hi _ h1) h2
  | move _ h2 h3 h4 ih => exact .move ih h2 (hf _ h2 h3) h4

theorem walk_reachable {pts : List Nat} {p i : Nat} {b : ℝ} (hp : p ∈ pts) (hpN : p < dims.prod) (w : Walk dims g h v p i b) : FMM.reach dims g pts i := by
  induction w with
  | stay => exact .start hp hpN
  | step _ h1 h2 h3 ih => exact .move ih h1 h3 h2

/-- **C90**: when `compute()` of FM2 or FM2* returns, the start has a finite arrival time (and is FROZEN) exactly when start and goal are connected through free cells of the given map, under the
condition of `C90_same_obstacles_partial`. -/
theorem C90_reaches_partial (M : FM2Map dims g h v) {vlo vhi S κ : ℝ} (hlo : 0 < vlo) (hv : ∀ i, i < dims.prod → g.occ i = false → vlo ≤ v i ∧ v i ≤ vhi)
    {D : ℝ} (hD : D = -1 ∨ 0 < D) (hκ1 : 1 ≤ κ) (hκ : D / h ≤ κ)
    (hS : ∀ i, i < dims.prod → ∃ p ∈ g.occupied, euclid ((Shape.mk' dims).idx2coord i) ((Shape.mk' dims).idx2coord p) ≤ S)
    (hsmall : eps * κ * (Real.sqrt dims.length * vhi / h) * (h / vlo * pieceBound dims.length S + dims.prod * (2 * eps)) ≤ 1)
    (star : Option Heur) (d : Bool) (gl : Nat) (j : Junk XR) (start goal : Nat) (hst : start < dims.prod) (hgo : goal < dims.prod) (G : Grid XR) (o' : FM2.Obj XR)
    (hc : (configuredFM2 star (fin D) d gl j g [start] goal).2.Computes FMM.IsTop (configuredFM2 star (fin D) d gl j g [start] goal).1 G o') :
    ((∃ t : ℝ, 0 ≤ t ∧ G.value start = fin t) ↔ Reachable dims (Shape.mk' dims).idx2coord (fun i => g.occ i = false) (fun i => i = goal) start) ∧
    (G.state start = .frozen ↔ Reachable dims (Shape.mk' dims).idx2coord (fun i => g.occ i = false) (fun i => i = goal) start) := by
  obtain ⟨g1, o1, gv, s, hset, hvm, cfg, n, st, q1, q2, q3, q4, q5, q6, rfl⟩ := C34_second_wave_partial _ _ _ _ _ _ _ _ _ _ _ hc
  obtain ⟨⟨r, hr, _⟩, _⟩ := C32_velocities M hD star d gl j [start] goal g1 gv o1 s hset hvm
  obtain ⟨U, hU, _⟩ := C17_unique_solution (obstacleWave dims g h v) (obstacleWave_wellPosed M)
  obtain ⟨t, mx, a1, a2, a3, a4, a5, a6, a7, a8, a9, k1, k2, k3, k4⟩ := FM2.velmap_spec M hU hD hset hvm
  have hocc := C90_same_obstacles_partial M hlo hv hD hκ1 hκ hS hsmall star d gl j [start] goal g1 gv o1 s hset hvm
  rw [k3] at q4
  have X : XInput dims gv h r [goal] :=
    ⟨(FM2.input M (SameMap.refl g)).fits, M.two, a8.trans M.shape, by intro i hi; rw [List.mem_singleton.1 hi]; exact hgo, M.hpos, a9.trans M.leaf,
     fun i hi _ => (hr i hi).1⟩
  have hfr : Fresh gv := ⟨fun i => (a6 i).1, fun i => (a6 i).2.1, fun i => (a6 i).2.2⟩
  have hsteps : Steps (StepMin cfg) n (FMM.init cfg gv [] [goal]) st := q4.mono (fun _ _ h => FM2.stepMin_iff.1 h)
  have hlib : Steps (StepLib cfg) n (FMM.init cfg gv [] [goal]) st := hsteps.mono (fun _ _ => StepMin.lib)
  have hany : Steps (StepAny cfg) n (FMM.init cfg gv [] [goal]) st := hsteps.mono (fun _ _ => StepMin.any)
  have hin : Input dims gv [goal] := ⟨X.fits, X.shape, X.inside⟩
  have hre : ∀ i, FMM.reach dims gv [goal] i ↔ Reachable dims (Shape.mk' dims).idx2coord (fun i => g.occ i = false) (fun i => i = goal) i := by
    intro i
    constructor
    · exact reachable_congr (fun k hk hf => by rw [← hocc k hk]; exact hf) (fun k hk => List.mem_singleton.1 hk)
    · exact reachable_congr (fun k hk hf => by rw [hocc k hk]; exact hf) (fun k hk => List.mem_singleton.2 hk)
  have hfz : st.g.state start = .frozen ↔ FMM.reach dims gv [goal] start := by
    refine ⟨C14_only_reachable cfg dims gv [goal] hin hfr.state n st hany start, fun hr' => ?_⟩
    rcases q5 with q5 | q5
    · exact q6 q5
    · exact (C14_frozen_iff_reachable cfg dims gv [goal] hin hfr.state n st hany q5 start).2 hr'
  rw [← hre]
  refine ⟨⟨?_, fun hr' => ?_⟩, hfz⟩
  · rintro ⟨t', _, ht'⟩
    obtain ⟨U2, hU2, _⟩ := C17_unique_solution X.problem X.wellPosed
    have h1 := (C18_FMM X hfr U2 hU2 cfg n st hlib start hst).2
    have ht'' : st.g.value start = fin t' := ht'
    rw [ht''] at h1
    obtain ⟨w, hw⟩ := WithTop.ne_top_iff_exists.1 (ne_top_of_le_ne_top WithTop.coe_ne_top h1)
    obtain ⟨p, hp, b, hwalk, _⟩ := exact_walk X hU2 hst hw.symm
    exact walk_reachable hp (X.inside p hp) hwalk
  · exact frozen_finite X hfr hlib (hfz.2 hr')

theorem sum_lt_prod : ∀ (dims : List Nat), (∀ x ∈ dims, 0 < x) → ∑ k ∈ Finset.range dims.length, (dims.getD k 0 - 1) + 1 ≤ dims.prod := by
  intro dims
  induction dims with
  | nil => intro _; simp
  | cons x l ih =>
    intro hx
    have h1 := ih (fun y hy => hx y (by simp [hy]))
    have hx0 := hx x (by simp)
    rw [List.length_cons, Finset.sum_range_succ']
    simp only [List.getD_cons_succ, List.getD_cons_zero, List.prod_cons]
    obtain ⟨y, rfl⟩ : ∃ y, x = y + 1 := ⟨x - 1, by omega⟩
    have h2 : 1 ≤ l.prod := le_trans (by omega) h1
    rw [Nat.add_mul, one_mul]
    have h3 : y * 1 ≤ y * l.prod := Nat.mul_le_mul_left _ h2
    omega

/-- two cells are less than the number of cells of the grid apart -/
theorem euclid_le_prod (hf : Fits dims (2^31+1)) {i p : Nat} (hi : i < dims.prod) (hp : p < dims.prod) :
    euclid ((Shape.mk' dims).idx2coord i) ((Shape.mk' dims).idx2coord p) ≤ dims.prod := by
  rw [euclid_eq hf hi hp]
  refine Real.sqrt_le_iff.2 ⟨by positivity, ?_⟩
  have h0 : ∀ k ∈ Finset.range dims.length, |dk dims i p k| ≤ ((dims.getD k 0 - 1 : Nat) : ℝ) := by
    intro k hk
    have hk := Finset.mem_range.1 hk
    have a := digit_lt hf.pos hk i
    have b := digit_lt hf.pos hk p
    have a' : (digit dims i k : ℝ) ≤ ((dims.getD k 0 - 1 : Nat) : ℝ) := by exact_mod_cast (by omega)
    have b' : (digit dims p k : ℝ) ≤ ((dims.getD k 0 - 1 : Nat) : ℝ) := by exact_mod_cast (by omega)
    have a0 : (0:ℝ) ≤ digit dims i k := Nat.cast_nonneg _
    have b0 : (0:ℝ) ≤ digit dims p k := Nat.cast_nonneg _
    unfold dk
    rw [abs_le]; constructor <;> linarith
  have h1 : sqD dims i p ≤ (∑ k ∈ Finset.range dims.length, |dk dims i p k|)^2 := by
    unfold sqD
    calc ∑ k ∈ Finset.range dims.length, (dk dims i p k)^2 = ∑ k ∈ Finset.range dims.length, |dk dims i p k|^2 := by simp [sq_abs]
      _ ≤ _ := Finset.sum_sq_le_sq_sum_of_nonneg (fun k _ => abs_nonneg _)
  have h2 : ∑ k ∈ Finset.range dims.length, |dk dims i p k| ≤ dims.prod := by
    refine le_trans (Finset.sum_le_sum h0) ?_
    have := sum_lt_prod dims hf.pos
    have h3 : ∑ k ∈ Finset.range dims.length, (dims.getD k 0 - 1) ≤ dims.prod := by omega
    exact_mod_cast h3
  have h3 : 0 ≤ ∑ k ∈ Finset.range dims.length, |dk dims i p k| := Finset.sum_nonneg (fun _ _ => abs_nonneg _)
  calc sqD dims i p ≤ _ := h1
    _ ≤ _ := by gcongr

/-- **C90** for the usual maps: two or three dimensions, one speed in all free cells, at least `2 * COMP_MARGIN` to cross a cell, no saturation (or a saturation distance of at most one cell): on every
such map, whatever its size, FM2 and FM2* give the start a finite arrival time exactly when start and goal are connected through free cells. -/
theorem C90_uniform_partial (M : FM2Map dims g h v) (h3 : dims.length ≤ 3) {v0 : ℝ} (hv : ∀ i, i < dims.prod → g.occ i = false → v i = v0) (hcross : 2 * eps ≤ h / v0)
    {D : ℝ} (hD : D = -1 ∨ 0 < D) (hDh : D ≤ h) (star : Option Heur) (d : Bool) (gl : Nat) (j : Junk XR) (start goal : Nat) (hst : start < dims.prod) (hgo : goal < dims.prod)
    (G : Grid XR) (o' : FM2.Obj XR)
    (hc : (configuredFM2 star (fin D) d gl j g [start] goal).2.Computes FMM.IsTop (configuredFM2 star (fin D) d gl j g [start] goal).1 G o') :
    ((∃ t : ℝ, 0 ≤ t ∧ G.value start = fin t) ↔ Reachable dims (Shape.mk' dims).idx2coord (fun i => g.occ i = false) (fun i => i = goal) start) ∧
    (G.state start = .frozen ↔ Reachable dims (Shape.mk' dims).idx2coord (fun i => g.occ i = false) (fun i => i = goal) start) := by
  have X := FM2.input M (SameMap.refl g)
  obtain ⟨f, hf1, hf2⟩ := M.free
  have h0 : 0 < v0 := by rw [← hv f hf1 hf2]; exact X.vpos hf1 hf2
  have hh := M.hpos
  obtain ⟨p, hp, hpo⟩ := M.obstacle
  have hpm := (M.listed p).2 ⟨hp, hpo⟩
  refine C90_reaches_partial M (S := dims.prod) (κ := 1) h0 (fun i hi ho => ⟨(hv i hi ho).ge, (hv i hi ho).le⟩) hD le_rfl ((div_le_one hh).2 hDh)
    (fun i hi => ⟨p, hpm, euclid_le_prod X.fits hi hp⟩) ?_ star d gl j start goal hst hgo G o' hc
  set N : ℝ := (dims.prod : ℝ) with hN
  have hN0 : 0 ≤ N := Nat.cast_nonneg _
  have hN1 : N ≤ 2^31 := by rw [hN]; exact_mod_cast M.cells
  set z := Real.sqrt (dims.length : ℝ) with hz
  have hz0 : 0 ≤ z := Real.sqrt_nonneg _
  have hz2 : z * z = dims.length := Real.mul_self_sqrt (Nat.cast_nonneg _)
  have hl : (dims.length : ℝ) ≤ 3 := by exact_mod_cast h3
  have hz3 : z ≤ 2 := by nlinarith
  have hlog : Real.log (1 + N) ≤ N := by have := Real.log_le_sub_one_of_pos (show 0 < 1 + N by linarith); linarith
  have hpb : pieceBound dims.length N ≤ (2 + 2 * z) * N := by
    unfold pieceBound
    have := mul_le_mul_of_nonneg_left hlog (show 0 ≤ 1 + 2 * z by linarith)
    rw [← hz]; nlinarith
  have he : (0:ℝ) < eps := by unfold eps; norm_num
  have e1 : eps * 1 * (z * v0 / h) * (h / v0 * pieceBound dims.length N + N * (2 * eps)) ≤ eps * 1 * (z * v0 / h) * (h / v0 * ((3 + 2 * z) * N)) := by
    refine mul_le_mul_of_nonneg_left ?_ (by positivity)
    have h5 := mul_le_mul_of_nonneg_left hpb (div_pos hh h0).le
    have h6 := mul_le_mul_of_nonneg_left hcross hN0
    nlinarith
  refine le_trans e1 ?_
  have e2 : eps * 1 * (z * v0 / h) * (h / v0 * ((3 + 2 * z) * N)) = eps * N * (3 * z + 2 * (z * z)) := by field_simp
  rw [e2, hz2]
  have e3 : eps * N ≤ eps * 2^31 := mul_le_mul_of_nonneg_left hN1 he.le
  have e4 : 3 * z + 2 * (dims.length : ℝ) ≤ 12 := by linarith
  have e5 : 0 ≤ 3 * z + 2 * (dims.length : ℝ) := by positivity
  calc eps * N * (3 * z + 2 * (dims.length : ℝ)) ≤ eps * 2^31 * 12 := mul_le_mul e3 e4 e5 (by positivity)
    _ ≤ 1 := by unfold eps; norm_num

/-- non-vacuity: FM2 and FM2* in the corridor of C33, where the start 1 and the goal 4 are connected -/
example (star : Option Heur) (gl : Nat) (j : Junk XR) : ∃ G o', (configuredFM2 star (fin (-1)) false gl j FM2.corridor [1] 4).2.Computes FMM.IsTop
    (configuredFM2 star (fin (-1)) false gl j FM2.corridor [1] 4).1 G o' ∧ ∃ t : ℝ, 0 ≤ t ∧ G.value 1 = fin t := by
  obtain ⟨G, o', hc⟩ := C34_returns FM2.corridor_map (by simp [FM2.corridor, FM2.room]) star (Or.inl rfl) gl j 1 4 FM2.corridor_valid (by decide)
  refine ⟨G, o', hc, ((C90_uniform_partial FM2.corridor_map (by decide) (v0 := 1) (fun _ _ _ => rfl) (by unfold eps; norm_num) (Or.inl rfl) (by norm_num) star false gl j 1 4
    (by decide) (by decide) G o' hc).1).2 ?_⟩
  have hfree : ∀ k, k ∉ ([0,5] : List Nat) → FM2.corridor.occ k = false := by
    intro k hk
    cases hx : FM2.corridor.occ k with
    | false => rfl
    | true => exact absurd ((FM2.room_occ [0,5] k).1 hx) hk
  have f : Fits [5,2] (2^31+1) := ⟨by decide, by decide, by decide⟩
  have adj : ∀ i k, i < 10 → k ∈ (Shape.mk' [5,2]).nbrs i → AxisAdjacent ((Shape.mk' [5,2]).idx2coord i) ((Shape.mk' [5,2]).idx2coord k) :=
    fun i k hi hk => ((FMM.axisAdjacent_iff f (i := i) hi).1 hk).2
  have r4 : Reachable [5,2] (Shape.mk' [5,2]).idx2coord (fun i => FM2.corridor.occ i = false) (fun i => i = 4) 4 := .start rfl (by decide)
  have r3 := Reachable.move r4 (j := 3) (by decide) (hfree 3 (by decide)) (adj 4 3 (by decide) (by decide))
  have r2 := Reachable.move r3 (j := 2) (by decide) (hfree 2 (by decide)) (adj 3 2 (by decide) (by decide))
  exact Reachable.move r2 (j := 1) (by decide) (hfree 1 (by decide)) (adj 2 1 (by decide) (by decide))

end FMV
