import Verif.Lemmas.Super
import Verif.Spec.Downhill
import Verif.Props.Monotone
/-!
# C69: no false basins
-/
set_option linter.unusedSectionVars false
set_option linter.unusedVariables false
namespace FMV
open Spec Shape XR FMM

/-- `g'` is the grid at some moment (between two iterations of the main loop) of a run on `g` from `pts`, with any goal, of FMM without heuristics (starting points
not adjacent), of FSM or LSM, or of DDQM with any thresholds. -/
inductive MidGrid {F : Type} [Arith F] (dims : List Nat) (g : Grid F) (pts : List Nat) : Grid F → Prop
  | fmm {cfg n s} : cfg.heur = .none → StartsApart dims g pts → Steps (StepMin cfg) n (FMM.init cfg g [] pts) s → MidGrid dims g pts s.g
  | fsm {goal m sw incs n s} : FSM.IsDirs dims.length incs → Steps (FSM.Step m (FSM.solveFSM goal eikS)) n (FSM.initFSM g pts sw incs) s → MidGrid dims g pts s.g
  | lsm {goal m sw incs n s} : FSM.IsDirs dims.length incs → Steps (FSM.Step m (FSM.solveLSM goal eikS)) n (FSM.initLSM g pts sw incs) s → MidGrid dims g pts s.g
  | ddqm {goal th ths n s} : Steps (DDQM.Step goal eikS) n (DDQM.init g pts th ths) s → MidGrid dims g pts s.g

section exact
variable {dims : List Nat} {g : Grid XR} {h : ℝ} {v : Nat → ℝ} {pts : List Nat}

theorem MidGrid.sup (X : XInput dims g h v pts) (hfr : Fresh g) {a : Grid XR} (ha : MidGrid dims g pts a) :
    GoodG a ∧ SameMap g a ∧ Sup dims (fun i => h / v i) pts (tv a) := by
  have st : ∀ g' : Grid XR, (∀ k, g'.value k = if k ∈ pts then fin 0 else pinf) → Sup dims (fun i => h / v i) pts (tv g') := by
    intro g' hv
    apply Sup.start
    intro i hi
    unfold tv; rw [hv, if_neg hi]; rfl
  cases ha with
  | @fmm cfg n s h1 h2 h3 =>
    have K : X.FInv s ∧ Sup dims (fun i => h / v i) pts (tv s.g) := by
      refine Steps.inv (I := fun s : St XR => X.FInv s ∧ Sup dims (fun i => h / v i) pts (tv s.g)) (r := StepMin cfg) ?_ h3 ⟨XInput.FInv.start X hfr h1, ?_⟩
      · rintro a b ⟨I, S⟩ hst
        exact ⟨XInput.FInv.step X (h2.nonAdj X) h1 I hst, X.sup_step (h2.nonAdj X) h1 I S hst⟩
      · exact st _ (fun k => by rw [init_value, hfr.value]; rfl)
    exact ⟨K.1.good, K.1.map, K.2⟩
  | @fsm goal m sw incs n s h1 h2 =>
    have S := FSM.solveFSM_solver (F := XR) goal eikS
    have K : X.SInv s.g ∧ Sup dims (fun i => h / v i) pts (tv s.g) := by
      refine S.run_grid h2 (dims_ne X.fits) ((FSM.initFSM_sameMap g pts sw incs).shape.trans X.shape) h1
        (J := fun g' => X.SInv g' ∧ Sup dims (fun i => h / v i) pts (tv g')) ⟨FSM.initFSM_sinv X hfr sw incs, ?_⟩ ?_
      · exact st _ (fun k => by rw [FSM.initFSM_value, hfr.value]; rfl)
      · rintro t i hi ⟨I, J⟩ ho
        obtain ⟨b, hT, _⟩ := S.tried t i
        rw [SameMap.occ_eq I.map] at ho
        exact ⟨I.tried X hT hi ho, X.sup_tried I hT hi ho J⟩
    exact ⟨K.1.good, K.1.map, K.2⟩
  | @lsm goal m sw incs n s h1 h2 =>
    have S := FSM.solveLSM_solver (F := XR) goal eikS
    have K : X.SInv s.g ∧ Sup dims (fun i => h / v i) pts (tv s.g) := by
      refine S.run_grid h2 (dims_ne X.fits) ((FSM.initLSM_sameMap g pts sw incs).shape.trans X.shape) h1
        (J := fun g' => X.SInv g' ∧ Sup dims (fun i => h / v i) pts (tv g')) ⟨FSM.initLSM_sinv X hfr sw incs, ?_⟩ ?_
      · exact st _ (fun k => by rw [FSM.initLSM_value, hfr.value]; rfl)
      · rintro t i hi ⟨I, J⟩ ho
        obtain ⟨b, hT, _⟩ := S.tried t i
        rw [SameMap.occ_eq I.map] at ho
        exact ⟨I.tried X hT hi ho, X.sup_tried I hT hi ho J⟩
    exact ⟨K.1.good, K.1.map, K.2⟩
  | @ddqm goal th ths n s h1 =>
    have K : DDQM.DInv X s ∧ Sup dims (fun i => h / v i) pts (tv s.g) := by
      refine Steps.inv (I := fun s : DDQM.St XR => DDQM.DInv X s ∧ Sup dims (fun i => h / v i) pts (tv s.g)) ?_ h1 ⟨DDQM.DInv.start X hfr th ths, ?_⟩
      · rintro a b ⟨I, J⟩ hst
        refine ⟨I.step X hst, ?_⟩
        rcases DDQM.step_cases hst with ⟨_, _, rfl⟩ | ⟨_, _, rfl⟩ | ⟨_, _, idx, rest, hl, ⟨hocc, rfl⟩ | ⟨c, hp⟩⟩
        · exact J
        · exact J
        · simpa using J
        · have hi := I.q.inq idx (DDQM.low_queued hl)
          exact X.sup_tried I.lock.sinv hp.tried hi (by rw [← SameMap.occ_eq I.lock.sinv.map]; exact hp.free) J
      · exact st _ (fun k => by rw [DDQM.init_value, hfr.value]; rfl)
    exact ⟨K.1.lock.sinv.good, K.1.lock.sinv.map, K.2⟩

/-- occupied cells that are not starting points are never reached, in any arithmetic -/
theorem MidGrid.free {F : Type} [Arith F] {g : Grid F} (hfr : Fresh g) {a : Grid F} (ha : MidGrid dims g pts a) {i : Nat} (hp : i ∉ pts) (ho : g.occ i = true) :
    a.value i = Arith.inf := by
  rw [← hfr.value i]
  cases ha with
  | fmm _ _ h3 => exact C11_FMM _ _ _ _ _ _ (Steps.mono (fun _ _ h => StepLib.any (StepMin.lib h)) h3) i ho hp
  | fsm _ h2 => exact C11_FSM _ _ _ _ _ _ _ _ _ h2 i ho hp
  | lsm _ h2 => exact C11_LSM _ _ _ _ _ _ _ _ _ h2 i ho hp
  | ddqm h1 => exact C11_DDQM _ _ _ _ _ _ _ _ h1 i ho hp

/-- walking to the lowest neighbours reaches a starting point if every other reached cell has a lower neighbour -/
theorem arrives_of_down {dims : List Nat} {coords : Nat → List Nat} {T : Nat → WithTop ℝ} {next : Nat → Nat} (hn : MovesDown dims coords T next) {allowed goals : Nat → Prop}
    (hd : ∀ i, i < dims.prod → ¬ goals i → T i ≠ ⊤ → allowed i ∧ ∃ j, j < dims.prod ∧ AxisAdjacent (coords i) (coords j) ∧ T j < T i) :
    ∀ i, i < dims.prod → T i ≠ ⊤ → Arrives dims T allowed goals next i := by
  suffices H : ∀ n i, i < dims.prod → T i ≠ ⊤ → XInput.rank dims.prod T i = n →
      ∃ m, m ≤ n ∧ goals (next^[m] i) ∧ ∀ k, k < m → T (next^[k + 1] i) < T (next^[k] i) ∧ allowed (next^[k] i) by
    intro i hi hT
    obtain ⟨m, h1, h2, h3⟩ := H _ i hi hT rfl
    refine ⟨m, lt_of_le_of_lt h1 ?_, h2, h3⟩
    classical
    unfold XInput.rank
    have : ((Finset.range dims.prod).filter (fun j => T j < T i)) ⊂ Finset.range dims.prod := by
      refine Finset.ssubset_iff_subset_ne.2 ⟨Finset.filter_subset _ _, fun e => ?_⟩
      have : i ∈ (Finset.range dims.prod).filter (fun j => T j < T i) := by rw [e]; exact Finset.mem_range.2 hi
      exact lt_irrefl _ (Finset.mem_filter.1 this).2
    simpa using Finset.card_lt_card this
  intro n
  induction n using Nat.strong_induction_on with
  | _ n ih =>
    intro i hi hT hr
    by_cases hg : goals i
    · exact ⟨0, Nat.zero_le _, hg, by omega⟩
    obtain ⟨ha, j, hj, hadj, hlt⟩ := hd i hi hg hT
    obtain ⟨n1, n2, n3⟩ := hn i hi
    have hlt' : T (next i) < T i := lt_of_le_of_lt (n3 j hj hadj) hlt
    obtain ⟨m, m1, m2, m3⟩ := ih (XInput.rank dims.prod T (next i)) (by rw [← hr]; exact XInput.rank_lt n1 hlt') (next i) n1 (ne_top_of_lt hlt') rfl
    have := XInput.rank_lt n1 hlt'
    refine ⟨m + 1, by omega, by rw [Function.iterate_succ_apply]; exact m2, ?_⟩
    intro k hk
    cases k with
    | zero => exact ⟨hlt', ha⟩
    | succ k =>
      have := m3 k (by omega)
      rw [Function.iterate_succ_apply, Function.iterate_succ_apply]
      exact this

/-- **C69**: at every moment of a run of FMM, FSM, LSM or DDQM, every reached cell that is not a starting point has an axis neighbour that is reached at least
`(h/v)/sqrt D` earlier, where `h/v` is the time it takes to cross the cell and `D` the number of dimensions: arrival times have no local minima but the starting points. -/
theorem C69_lower_neighbour (X : XInput dims g h v pts) (hfr : Fresh g) (a : Grid XR) (ha : MidGrid dims g pts a) (i : Nat) (hi : i < dims.prod) (hp : i ∉ pts) (r : ℝ)
    (hr : a.value i = fin r) :
    g.occ i = false ∧ ∃ j, j < dims.prod ∧ AxisAdjacent ((Shape.mk' dims).idx2coord i) ((Shape.mk' dims).idx2coord j) ∧
      ∃ t : ℝ, a.value j = fin t ∧ t + h / v i / Real.sqrt dims.length ≤ r := by
  obtain ⟨hg, _, S⟩ := ha.sup X hfr
  have ho : g.occ i = false := by
    cases ho : g.occ i with
    | false => rfl
    | true => have := ha.free hfr hp ho; rw [hr] at this; cases this
  refine ⟨ho, ?_⟩
  obtain ⟨j, hj, t, h1, h2⟩ := S.down hi hp (X.cpos hi ho) (r := r) (by unfold tv; rw [hr]; rfl)
  obtain ⟨a1, a2⟩ := (axisAdjacent_iff X.fits hi).1 hj
  refine ⟨j, a1, a2, t, ?_, h2⟩
  rw [← (hg j).ofT_toT]
  unfold tv at h1
  rw [h1]; rfl

/-- **C69**: at every moment of such a run, moving from a reached cell again and again to a neighbour with the smallest time leads to a starting point, through free
cells and with strictly decreasing times, in fewer moves than there are cells. -/
theorem C69_descent_arrives (X : XInput dims g h v pts) (hfr : Fresh g) (a : Grid XR) (ha : MidGrid dims g pts a) (next : Nat → Nat)
    (hn : MovesDown dims (Shape.mk' dims).idx2coord (fun i => toT (a.value i)) next) (i : Nat) (hi : i < dims.prod) (hr : a.value i ≠ pinf) :
    Arrives dims (fun i => toT (a.value i)) (fun i => g.occ i = false) (fun i => i ∈ pts) next i := by
  have hg := (ha.sup X hfr).1
  have hfin : ∀ j, toT (a.value j) ≠ ⊤ → ∃ r : ℝ, a.value j = fin r := by
    intro j hj
    rcases hg j with h1 | ⟨r, _, h1⟩
    · rw [h1] at hj; exact absurd rfl hj
    · exact ⟨r, h1⟩
  refine arrives_of_down hn ?_ i hi ?_
  · intro j hj hp hT
    obtain ⟨r, hr⟩ := hfin j hT
    obtain ⟨ho, k, k1, k2, t, k3, k4⟩ := C69_lower_neighbour X hfr a ha j hj hp r hr
    refine ⟨ho, k, k1, k2, ?_⟩
    show toT (a.value k) < toT (a.value j)
    rw [k3, hr]
    have hc := X.cpos hj ho
    have hD : (0:ℝ) < dims.length := by have := X.fits.two; positivity
    have : 0 < h / v j / Real.sqrt dims.length := div_pos hc (Real.sqrt_pos.2 hD)
    exact WithTop.coe_lt_coe.2 (by linarith)
  · show toT (a.value i) ≠ ⊤
    rcases hg i with h1 | ⟨r, _, h1⟩
    · exact absurd h1 hr
    · rw [h1]; exact WithTop.coe_ne_top

/-- the exact time of a free cell exceeds that of a neighbour by at most the time to cross it -/
theorem exact_next (X : XInput dims g h v pts) {U : Nat → WithTop ℝ} (hU : X.problem.IsSolution U) {i j : Nat} (hi : i < dims.prod) (hj : j < dims.prod)
    (ho : g.occ j = false) (hadj : AxisAdjacent ((Shape.mk' dims).idx2coord i) ((Shape.mk' dims).idx2coord j)) : U j ≤ U i + ((h / v j : ℝ) : WithTop ℝ) := by
  have hE := X.exSol hU
  have hnn := hE.nonneg X.fits (fun i hi _ ho => X.cpos hi (by simpa using ho))
  have hc := X.cpos hj ho
  cases hUi : U i with
  | top => simp
  | coe e =>
    have he : (0:ℝ) ≤ e := by have := hnn i hi; rw [hUi] at this; exact_mod_cast this
    by_cases hp : j ∈ pts
    · rw [(hE j hj).1 hp]
      exact_mod_cast (by linarith : (0:ℝ) ≤ e + h / v j)
    have hin : i ∈ (Shape.mk' dims).nbrs j := nbrs_symm X.fits hi ((axisAdjacent_iff X.fits hi).2 ⟨hj, hadj⟩)
    obtain ⟨k, hk, hik⟩ := Shape.mem_nbrs.1 hin
    have hm : dimMin (Shape.mk' dims) U j k ∈ mins (Shape.mk' dims) U j := List.mem_map.2 ⟨k, List.mem_range.2 hk, rfl⟩
    have hle := dimMin_le (T := U) hik
    rw [hUi] at hle
    rcases (hE j hj).2.2 hp (by simp [ho]) with ⟨r, e1, e2⟩ | ⟨e1, e2⟩
    · rw [e1]
      have h1 := le_trans (posSq_anti r hle) (posSq_le_residL (X := r) hm)
      rw [e2, posSq_coe] at h1
      have h2 := (pow_le_pow_iff_left₀ (le_max_right _ _) hc.le (by norm_num)).1 h1
      have h3 := le_trans (le_max_left _ _) h2
      exact_mod_cast (by linarith : r ≤ e + h / v j)
    · rw [e2 _ hm] at hle
      exact absurd (top_le_iff.1 hle) WithTop.coe_ne_top

/-- **C69**, neighbours: in the result of FMM, FSM, LSM, DDQM or FIM the time of a free cell `j` exceeds the time of no axis neighbour by more than the time `h/v j`
it takes to cross `j` (plus `2*COMP_MARGIN` per cell of the grid); in particular all free neighbours of a reached cell are reached. -/
theorem C69_next_cell (X : XInput dims g h v pts) (hfr : Fresh g) (a : Grid XR) (ha : FinalGrid dims g pts a) (i j : Nat) (hi : i < dims.prod) (hj : j < dims.prod)
    (ho : g.occ j = false) (hadj : AxisAdjacent ((Shape.mk' dims).idx2coord i) ((Shape.mk' dims).idx2coord j)) (r : ℝ) (hr : a.value i = fin r) :
    ∃ t : ℝ, a.value j = fin t ∧ t ≤ r + h / v j + dims.prod * (2 * eps) := by
  obtain ⟨U, hU, _⟩ := C17_unique_solution X.problem X.wellPosed
  have hle := exact_next X hU hi hj ho hadj
  rcases ha.exact X hfr hU hi with ⟨_, h1⟩ | ⟨e, r', e1, e2, e3, e4⟩
  · rw [hr] at h1; cases h1
  rw [hr] at e2
  obtain rfl : r = r' := by injection e2
  rcases ha.exact X hfr hU hj with ⟨h0, _⟩ | ⟨e', t, f1, f2, f3, f4⟩
  · rw [h0, e1] at hle
    exact absurd (top_le_iff.1 hle) (WithTop.coe_ne_top (a := e + h / v j))
  rw [f1, e1] at hle
  have : e' ≤ e + h / v j := by exact_mod_cast hle
  exact ⟨t, f2, by linarith⟩

/-- **C69** for final results, FIM included: every reached cell that is not a starting point has an axis neighbour reached at least `(h/v)/sqrt D` earlier, up to
`2*COMP_MARGIN` per cell of the grid. -/
theorem C69_final_lower_neighbour (X : XInput dims g h v pts) (hfr : Fresh g) (a : Grid XR) (ha : FinalGrid dims g pts a) (i : Nat) (hi : i < dims.prod) (hp : i ∉ pts)
    (r : ℝ) (hr : a.value i = fin r) :
    g.occ i = false ∧ ∃ j, j < dims.prod ∧ AxisAdjacent ((Shape.mk' dims).idx2coord i) ((Shape.mk' dims).idx2coord j) ∧
      ∃ t : ℝ, a.value j = fin t ∧ t + h / v i / Real.sqrt dims.length ≤ r + dims.prod * (2 * eps) := by
  obtain ⟨U, hU, _⟩ := C17_unique_solution X.problem X.wellPosed
  have hE := X.exSol hU
  rcases ha.exact X hfr hU hi with ⟨_, h1⟩ | ⟨e, r', e1, e2, e3, e4⟩
  · rw [hr] at h1; cases h1
  rw [hr] at e2
  obtain rfl : r = r' := by injection e2
  have ho : g.occ i = false := by
    cases ho : g.occ i with
    | false => rfl
    | true => have := (hE i hi).2.1 hp (by simpa using ho); rw [e1] at this; exact absurd this WithTop.coe_ne_top
  refine ⟨ho, ?_⟩
  have S : Sup dims (fun k => if g.occ k = false then h / v k else 0) pts U := by
    intro k hk hkp x hx
    dsimp only
    split
    · next hok =>
      rcases (hE k hk).2.2 hkp (by simp [hok]) with ⟨y, f1, f2⟩ | ⟨f1, _⟩
      · rw [hx] at f1
        obtain rfl : x = y := by exact_mod_cast f1
        exact f2.ge
      · rw [hx] at f1; exact absurd f1 WithTop.coe_ne_top
    · next hok =>
      have := (hE k hk).2.1 hkp (by simpa using hok)
      rw [hx] at this; exact absurd this WithTop.coe_ne_top
  obtain ⟨j, hj, t, h1, h2⟩ := S.down hi hp (by rw [if_pos ho]; exact X.cpos hi ho) e1
  rw [if_pos ho] at h2
  obtain ⟨a1, a2⟩ := (axisAdjacent_iff X.fits hi).1 hj
  rcases ha.exact X hfr hU a1 with ⟨h0, _⟩ | ⟨e', t', f1, f2, f3, f4⟩
  · rw [h0] at h1; exact absurd h1 WithTop.top_ne_coe
  rw [h1] at f1
  obtain rfl : t = e' := by exact_mod_cast f1
  exact ⟨j, a1, a2, t', f2, by linarith⟩

end exact

section doubles
variable {R : Rounding} {dims : List Nat} {g : Grid (F64 R)} {h : ℝ} {v : Nat → ℝ} {pts : List Nat} {cm cM : ℝ}

theorem MidGrid.sup64 (I : DInput dims g h v pts cm cM (2 * cM * dims.prod)) (hcc : cm ≤ cM) (hfr : Fresh g) {a : Grid (F64 R)} (ha : MidGrid dims g pts a) :
    GoodG (gridX a) ∧ Sup dims (fun i => h / v i - I.θ) pts (tf a) := by
  have hgs : g.shape = Shape.mk' dims := I.X.shape
  have st : ∀ g' : Grid (F64 R), (∀ k, (g'.value k).1 = if k ∈ pts then fin 0 else pinf) → Sup dims (fun i => h / v i - I.θ) pts (tf g') := by
    intro g' hv
    apply Sup.start
    intro i hi
    rw [tf_eq, hv, if_neg hi]; rfl
  cases ha with
  | @fmm cfg n s h1 h2 h3 =>
    have hK := DInput.within_cells I.X
    have P := I.par hcc hK
    have e : ((dims.prod - 1 : Nat) : ℝ) + 1 = dims.prod := by
      have : 0 < dims.prod := Nat.pos_of_ne_zero (fun h0 => by
        have := List.prod_eq_zero_iff.1 h0
        exact absurd (I.X.fits.pos 0 this) (by omega))
      exact_mod_cast (by omega : dims.prod - 1 + 1 = dims.prod)
    have hwA : 2 * cM * (((dims.prod - 1 : Nat) : ℝ) + 1) ≤ 2 * cM * dims.prod := by rw [e]
    have hna : I.X.NonAdj := by
      intro i hi ho j hj hjp
      exact h2 i hi j hjp ho ((axisAdjacent_iff I.X.fits (I.X.inside i hi)).1 hj).2
    have K : I.FInv (2 * cM) (dims.prod - 1) s ∧ Sup dims (fun i => h / v i - I.θ) pts (tf s.g) := by
      refine Steps.inv (I := fun s : St (F64 R) => I.FInv (2 * cM) (dims.prod - 1) s ∧ Sup dims (fun i => h / v i - I.θ) pts (tf s.g)) (r := StepMin cfg) ?_ h3
        ⟨DInput.FInv.start I P hfr h1, ?_⟩
      · rintro a b ⟨J, S⟩ hst
        exact ⟨DInput.FInv.step I P hwA hna h1 J hst, I.sup_step P hwA hna h1 J S hst⟩
      · exact st _ (fun k => by rw [init_value, hfr.value]; split <;> rfl)
    exact ⟨K.1.good, K.2⟩
  | @fsm goal m sw incs n s h1 h2 =>
    have S := FSM.solveFSM_solver (F := F64 R) goal eikS
    have K : I.TInv (2 * cM) s.g ∧ Sup dims (fun i => h / v i - I.θ) pts (tf s.g) := by
      refine S.run_grid h2 (dims_ne I.X.fits) ((FSM.initFSM_sameMap g pts sw incs).shape.trans hgs) h1
        (J := fun g' => I.TInv (2 * cM) g' ∧ Sup dims (fun i => h / v i - I.θ) pts (tf g')) ⟨?_, ?_⟩ ?_
      · exact DInput.TInv.start I (I.wpos hcc) (FSM.initFSM_sameMap _ _ _ _) (fun k => by rw [FSM.initFSM_value, hfr.value]; split <;> rfl)
      · exact st _ (fun k => by rw [FSM.initFSM_value, hfr.value]; split <;> rfl)
      · rintro t i hi ⟨J, J'⟩ ho
        obtain ⟨b, hT, _⟩ := S.tried t i
        rw [SameMap.occ_eq J.map] at ho
        exact ⟨DInput.TInv.tried I (I.wpos hcc) (I.wok hcc) (le_refl _) J hT hi ho, I.sup_tried (I.wpos hcc) (le_refl _) J hT hi ho J'⟩
    exact ⟨K.1.good, K.2⟩
  | @lsm goal m sw incs n s h1 h2 =>
    have S := FSM.solveLSM_solver (F := F64 R) goal eikS
    have K : I.TInv (2 * cM) s.g ∧ Sup dims (fun i => h / v i - I.θ) pts (tf s.g) := by
      refine S.run_grid h2 (dims_ne I.X.fits) ((FSM.initLSM_sameMap g pts sw incs).shape.trans hgs) h1
        (J := fun g' => I.TInv (2 * cM) g' ∧ Sup dims (fun i => h / v i - I.θ) pts (tf g')) ⟨?_, ?_⟩ ?_
      · exact DInput.TInv.start I (I.wpos hcc) (FSM.initLSM_sameMap _ _ _ _) (fun k => by rw [FSM.initLSM_value, hfr.value]; split <;> rfl)
      · exact st _ (fun k => by rw [FSM.initLSM_value, hfr.value]; split <;> rfl)
      · rintro t i hi ⟨J, J'⟩ ho
        obtain ⟨b, hT, _⟩ := S.tried t i
        rw [SameMap.occ_eq J.map] at ho
        exact ⟨DInput.TInv.tried I (I.wpos hcc) (I.wok hcc) (le_refl _) J hT hi ho, I.sup_tried (I.wpos hcc) (le_refl _) J hT hi ho J'⟩
    exact ⟨K.1.good, K.2⟩
  | @ddqm goal th ths n s h1 =>
    have K : I.QKInv s ∧ Sup dims (fun i => h / v i - I.θ) pts (tf s.g) := by
      refine Steps.inv (I := fun s : DDQM.St (F64 R) => I.QKInv s ∧ Sup dims (fun i => h / v i - I.θ) pts (tf s.g)) ?_ h1 ⟨DInput.QKInv.start I hcc hfr th ths, ?_⟩
      · rintro a b ⟨J, J'⟩ hst
        refine ⟨J.step I hcc hst, ?_⟩
        rcases DDQM.step_cases hst with ⟨_, _, rfl⟩ | ⟨_, _, rfl⟩ | ⟨_, _, idx, rest, hl, ⟨hocc, rfl⟩ | ⟨c, hp⟩⟩
        · exact J'
        · exact J'
        · simpa using J'
        · have hi := J.q.inq idx (DDQM.low_queued hl)
          exact I.sup_tried (I.wpos hcc) (le_refl _) J.lock.t hp.tried hi (by rw [← SameMap.occ_eq J.lock.t.map]; exact hp.free) J'
      · exact st _ (fun k => by rw [DDQM.init_value, hfr.value]; split <;> rfl)
    exact ⟨K.1.lock.t.good, K.2⟩

/-- **C69** in 64-bit doubles with every operation rounded: at every moment of a run of FMM, FSM, LSM or DDQM every reached cell that is not a starting point has an
axis neighbour reached earlier by at least three quarters of `(h/v)/sqrt D`. -/
theorem C69_lower_neighbour_doubles (I : DInput dims g h v pts cm cM (2 * cM * dims.prod)) (hcc : cm ≤ cM) (hfr : Fresh g) (a : Grid (F64 R)) (ha : MidGrid dims g pts a)
    (i : Nat) (hi : i < dims.prod) (hp : i ∉ pts) (r : ℝ) (hr : (a.value i).1 = fin r) :
    g.occ i = false ∧ ∃ j, j < dims.prod ∧ AxisAdjacent ((Shape.mk' dims).idx2coord i) ((Shape.mk' dims).idx2coord j) ∧
      ∃ t : ℝ, (a.value j).1 = fin t ∧ t + 3 / 4 * (h / v i) / Real.sqrt dims.length ≤ r := by
  obtain ⟨hg, S⟩ := ha.sup64 I hcc hfr
  have ho : g.occ i = false := by
    cases ho : g.occ i with
    | false => rfl
    | true =>
      have := ha.free hfr hp ho
      have e : (Arith.inf : F64 R).1 = pinf := rfl
      rw [this, e] at hr; cases hr
  refine ⟨ho, ?_⟩
  have h34 : 3 / 4 * (h / v i) ≤ h / v i - I.θ := by
    have := I.θ_small
    have := I.lo i hi ho
    linarith
  have hc : 0 < h / v i := I.X.cpos hi ho
  obtain ⟨j, hj, t, h1, h2⟩ := S.down hi hp (by linarith) (r := r) (by rw [tf_eq, hr]; rfl)
  obtain ⟨a1, a2⟩ := (axisAdjacent_iff I.X.fits hi).1 hj
  refine ⟨j, a1, a2, t, ?_, ?_⟩
  · have := hg j
    rw [gridX_value] at this
    rw [← this.ofT_toT, ← tf_eq, h1]; rfl
  · have : 3 / 4 * (h / v i) / Real.sqrt dims.length ≤ (h / v i - I.θ) / Real.sqrt dims.length := div_le_div_of_nonneg_right h34 (Real.sqrt_nonneg _)
    linarith

/-- **C69** in doubles: walking to the lowest neighbours reaches a starting point. -/
theorem C69_descent_arrives_doubles (I : DInput dims g h v pts cm cM (2 * cM * dims.prod)) (hcc : cm ≤ cM) (hfr : Fresh g) (a : Grid (F64 R)) (ha : MidGrid dims g pts a)
    (next : Nat → Nat) (hn : MovesDown dims (Shape.mk' dims).idx2coord (fun i => toT (a.value i).1) next) (i : Nat) (hi : i < dims.prod) (hr : (a.value i).1 ≠ pinf) :
    Arrives dims (fun i => toT (a.value i).1) (fun i => g.occ i = false) (fun i => i ∈ pts) next i := by
  have hg := (ha.sup64 I hcc hfr).1
  have hfin : ∀ j, (a.value j).1 = pinf ∨ ∃ r : ℝ, (a.value j).1 = fin r := by
    intro j
    rcases hg j with h1 | ⟨r, _, h1⟩
    · exact Or.inl h1
    · exact Or.inr ⟨r, h1⟩
  refine arrives_of_down hn ?_ i hi ?_
  · intro j hj hp hT
    rcases hfin j with h1 | ⟨r, hr⟩
    · rw [h1] at hT; exact absurd rfl hT
    obtain ⟨ho, k, k1, k2, t, k3, k4⟩ := C69_lower_neighbour_doubles I hcc hfr a ha j hj hp r hr
    refine ⟨ho, k, k1, k2, ?_⟩
    show toT (a.value k).1 < toT (a.value j).1
    rw [k3, hr]
    have hc := I.X.cpos hj ho
    have hD : (0:ℝ) < dims.length := by have := I.X.fits.two; positivity
    have : 0 < 3 / 4 * (h / v j) / Real.sqrt dims.length := div_pos (by linarith) (Real.sqrt_pos.2 hD)
    exact WithTop.coe_lt_coe.2 (by linarith)
  · show toT (a.value i).1 ≠ ⊤
    rcases hfin i with h1 | ⟨r, h1⟩
    · exact absurd h1 hr
    · rw [h1]; exact WithTop.coe_ne_top

/-- **C69**, neighbours, in doubles: with `rho` the relative error of C59, the time of a free cell `j` is at most `(1+rho)/(1-rho)` times the time of an axis
neighbour plus the time it takes to cross `j`. -/
theorem C69_next_cell_doubles (I : DInput dims g h v pts cm cM (2 * cM * dims.prod)) (hcc : cm ≤ cM) (hfr : Fresh g) (a : Grid (F64 R)) (ha : FinalGrid64 dims g pts a)
    (i j : Nat) (hi : i < dims.prod) (hj : j < dims.prod) (ho : g.occ j = false)
    (hadj : AxisAdjacent ((Shape.mk' dims).idx2coord i) ((Shape.mk' dims).idx2coord j)) (r : ℝ) (hr : (a.value i).1 = fin r)
    (hrho : relErr dims.length cm (2 * cM * dims.prod) ≤ 1) :
    ∃ t : ℝ, (a.value j).1 = fin t ∧
      (1 - relErr dims.length cm (2 * cM * dims.prod)) * t ≤ (1 + relErr dims.length cm (2 * cM * dims.prod)) * (r + h / v j) := by
  obtain ⟨U, hU, _⟩ := C17_unique_solution I.X.problem I.X.wellPosed
  have hle := exact_next I.X hU hi hj ho hadj
  have hi' := C59_accuracy I hcc hfr a ha U hU i hi
  have hj' := C59_accuracy I hcc hfr a ha U hU j hj
  have hρ : 0 ≤ relErr dims.length cm (2 * cM * dims.prod) := by
    have := I.cm0
    unfold relErr
    positivity
  have hc : 0 < h / v j := I.X.cpos hj ho
  generalize relErr dims.length cm (2 * cM * dims.prod) = ρ at *
  rcases hi' with ⟨_, h1⟩ | ⟨e, r', e1, e2, e3, e4⟩
  · rw [hr] at h1; cases h1
  rw [hr] at e2
  obtain rfl : r = r' := by injection e2
  rcases hj' with ⟨h0, _⟩ | ⟨e', t, f1, f2, f3, f4⟩
  · rw [h0, e1] at hle
    exact absurd (top_le_iff.1 hle) (WithTop.coe_ne_top (a := e + h / v j))
  rw [f1, e1] at hle
  have hle' : e' ≤ e + h / v j := by exact_mod_cast hle
  refine ⟨t, f2, ?_⟩
  have b1 : (1 - ρ) * t ≤ (1 - ρ) * ((1 + ρ) * (e + h / v j)) :=
    mul_le_mul_of_nonneg_left (le_trans f4 (mul_le_mul_of_nonneg_left hle' (by linarith))) (by linarith)
  have b2 : (1 - ρ) * (h / v j) ≤ h / v j := by
    have := mul_nonneg hρ hc.le
    linarith
  have b3 : (1 + ρ) * ((1 - ρ) * e + (1 - ρ) * (h / v j)) ≤ (1 + ρ) * (r + h / v j) := mul_le_mul_of_nonneg_left (by linarith) (by linarith)
  calc (1 - ρ) * t ≤ (1 - ρ) * ((1 + ρ) * (e + h / v j)) := b1
    _ = (1 + ρ) * ((1 - ρ) * e + (1 - ρ) * (h / v j)) := by ring
    _ ≤ _ := b3

end doubles

/-- in a box where every cell has a neighbour there is a `next` that moves to the lowest neighbour -/
theorem exists_movesDown (dims : List Nat) (coords : Nat → List Nat) (T : Nat → WithTop ℝ)
    (h : ∀ i, i < dims.prod → ∃ j, j < dims.prod ∧ AxisAdjacent (coords i) (coords j)) : ∃ next, MovesDown dims coords T next := by
  classical
  have H : ∀ i, ∃ n, i < dims.prod → n < dims.prod ∧ AxisAdjacent (coords i) (coords n) ∧
      ∀ j, j < dims.prod → AxisAdjacent (coords i) (coords j) → T n ≤ T j := by
    intro i
    by_cases hi : i < dims.prod
    · obtain ⟨j, hj, ha⟩ := h i hi
      have hne : ((Finset.range dims.prod).filter (fun j => AxisAdjacent (coords i) (coords j))).Nonempty :=
        ⟨j, Finset.mem_filter.2 ⟨Finset.mem_range.2 hj, ha⟩⟩
      obtain ⟨n, hn, hmin⟩ := Finset.exists_min_image _ T hne
      obtain ⟨n1, n2⟩ := Finset.mem_filter.1 hn
      exact ⟨n, fun _ => ⟨Finset.mem_range.1 n1, n2, fun j hj ha => hmin j (Finset.mem_filter.2 ⟨Finset.mem_range.2 hj, ha⟩)⟩⟩
    · exact ⟨0, fun h => absurd h hi⟩
  choose next hnext using H
  exact ⟨next, fun i hi => hnext i hi⟩

/-- non-vacuity: on the 3 x 3 map, after one sweep of FSM started from the centre, all hypotheses hold and the walk from a corner exists -/
example : ∃ (g : Grid XR) (s : FSM.St XR) (next : Nat → Nat), XInput [3,3] g 1 (fun _ => 1) [4] ∧ Fresh g ∧
    Steps (FSM.Step (2^32) (FSM.solveFSM noGoal eikS)) 1 (FSM.initFSM g [4] 0 (FSM.incs0 [3,3])) s ∧ MidGrid [3,3] g [4] s.g ∧
    MovesDown [3,3] (Shape.mk' [3,3]).idx2coord (fun i => toT (s.g.value i)) next := by
  have X : XInput [3,3] (Grid.create [3,3] (fin 1) (0,0)) 1 (fun _ => 1) [4] :=
    ⟨⟨by decide, by decide, by decide⟩, by decide, rfl, by decide, one_pos, rfl, fun _ _ _ => rfl⟩
  have hfr : Fresh (Grid.create (F := XR) [3,3] (fin 1) (0,0)) := ⟨fun _ => rfl, fun _ => rfl, fun _ => rfl⟩
  have hst : Steps (FSM.Step (2^32) (FSM.solveFSM noGoal eikS)) 1 (FSM.initFSM (Grid.create (F := XR) [3,3] (fin 1) (0,0)) [4] 0 (FSM.incs0 [3,3])) _ :=
    .tail (.refl _) ⟨by simp [FSM.Done, FSM.initFSM], rfl⟩
  obtain ⟨next, hn⟩ := exists_movesDown [3,3] (Shape.mk' [3,3]).idx2coord
    (fun i => toT ((FSM.sweep (FSM.solveFSM noGoal eikS) (FSM.initFSM (Grid.create (F := XR) [3,3] (fin 1) (0,0)) [4] 0 (FSM.incs0 [3,3]))).g.value i)) (by
      intro i hi
      have : ∀ i, i < 9 → ∃ j, j < 9 ∧ j ∈ (Shape.mk' [3,3]).nbrs i := by decide
      obtain ⟨j, hj, h1⟩ := this i hi
      exact ⟨j, ((axisAdjacent_iff X.fits hi).1 h1)⟩)
  exact ⟨_, _, next, X, hfr, hst, .fsm (FSM.incs0_isDirs [3,3]) hst, hn⟩

end FMV
