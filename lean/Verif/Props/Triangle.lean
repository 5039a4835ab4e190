import Verif.Lemmas.Triangle
import Verif.Props.Metric
import Verif.Props.Monotone
/-!
# C81, C82, C83: the list of starting points is a set; way points; several starting points
-/
set_option linter.unusedSectionVars false
set_option linter.unusedVariables false
namespace FMV
open Spec Shape XR FMM
variable {dims : List Nat} {g : Grid XR} {h : ℝ} {v : Nat → ℝ} {pts pts' : List Nat}

theorem XInput.cpos' (X : XInput dims g h v pts) : ∀ i, i < dims.prod → ¬ g.occ i = true → 0 < h / v i :=
  fun i hi ho => X.cpos hi (by simpa using ho)

/-- the same map with other starting points -/
theorem XInput.starts (X : XInput dims g h v pts) (hin : ∀ i ∈ pts', i < dims.prod) : XInput dims g h v pts' :=
  ⟨X.fits, X.two, X.shape, hin, X.hpos, X.leaf, X.speed⟩

/-- **C81**: only the set of starting points matters: two runs of FMM, FSM, LSM, DDQM or FIM (not necessarily the same solver) on the same map, whose lists of starting points have the
same members - in another order, or with repetitions - leave times that differ in no cell by more than `2*COMP_MARGIN` per cell of the grid, and are infinite in the same cells. -/
theorem C81_starts_as_set (X : XInput dims g h v pts) (hfr : Fresh g) (hsame : ∀ i, i ∈ pts ↔ i ∈ pts')
    (a b : Grid XR) (ha : FinalGrid dims g pts a) (hb : FinalGrid dims g pts' b) (i : Nat) (hi : i < dims.prod) :
    (a.value i = pinf ∧ b.value i = pinf) ∨ ∃ r r' : ℝ, a.value i = fin r ∧ b.value i = fin r' ∧ |r - r'| ≤ dims.prod * (2 * eps) := by
  have X' : XInput dims g h v pts' := X.starts (fun p hp => X.inside p ((hsame p).2 hp))
  obtain ⟨U, hU, _⟩ := C17_unique_solution X.problem X.wellPosed
  obtain ⟨V, hV, _⟩ := C17_unique_solution X'.problem X'.wellPosed
  have hUV : U i = V i := ExSol.congr X.fits (fun j hj _ ho => X.cpos' j hj ho) (fun j hj _ ho => X'.cpos' j hj ho) (X.exSol hU) (X'.exSol hV)
    (fun j _ => (hsame j).symm) (fun _ _ => Iff.rfl) (fun _ _ _ => rfl) i hi
  rcases ha.exact X hfr hU hi with ⟨h0, h1⟩ | ⟨e, r, e1, e2, e3, e4⟩ <;> rcases hb.exact X' hfr hV hi with ⟨h2, h3⟩ | ⟨e', r', f1, f2, f3, f4⟩
  · exact Or.inl ⟨h1, h3⟩
  · rw [h0, f1] at hUV; cases hUV
  · rw [h2, e1] at hUV; cases hUV
  · rw [e1, f1] at hUV
    have : e = e' := WithTop.coe_eq_coe.1 hUV
    subst this
    exact Or.inr ⟨r, r', e2, f2, by rw [abs_le]; constructor <;> linarith⟩

section exactStarts
variable {F : Type} [Arith F]

theorem setValues_eq (v : F) : ∀ (l : List Nat) (g : Grid F),
    l.foldl (fun g i => g.setValue i v) g = { g with cells := fun j => if j ∈ l then { g.cells j with value := v } else g.cells j } := by
  intro l
  induction l with
  | nil => intro g; simp
  | cons x l ih =>
    intro g
    rw [List.foldl_cons, ih]
    unfold Grid.setValue Grid.modify
    dsimp only
    congr 1
    funext j
    by_cases h1 : j ∈ l <;> by_cases h2 : j = x <;> simp [h1, h2]

theorem setStates_eq (st : FMState) : ∀ (l : List Nat) (g : Grid F),
    l.foldl (fun g i => g.setState i st) g = { g with cells := fun j => if j ∈ l then { g.cells j with state := st } else g.cells j } := by
  intro l
  induction l with
  | nil => intro g; simp
  | cons x l ih =>
    intro g
    rw [List.foldl_cons, ih]
    unfold Grid.setState Grid.modify
    dsimp only
    congr 1
    funext j
    by_cases h1 : j ∈ l <;> by_cases h2 : j = x <;> simp [h1, h2]

theorem initPointsLSM_eq : ∀ (l : List Nat) (g : Grid F), l.foldl FSM.initPointLSM g =
    { g with cells := fun j => { g.cells j with value := if j ∈ l then Arith.zero else (g.cells j).value,
                                                state := if ∃ p ∈ l, j ∈ g.shape.nbrs p then .opn else (g.cells j).state } } := by
  intro l
  induction l with
  | nil => intro g; simp
  | cons x l ih =>
    intro g
    rw [List.foldl_cons, ih]
    unfold FSM.initPointLSM
    rw [setStates_eq]
    unfold Grid.setValue Grid.modify
    dsimp only
    congr 1
    funext j
    by_cases h1 : j ∈ l <;> by_cases h3 : j ∈ g.shape.nbrs x <;> by_cases h4 : ∃ p ∈ l, j ∈ g.shape.nbrs p <;> rcases eq_or_ne j x with rfl | h2 <;> simp only [List.mem_cons, exists_eq_or_imp, h1, h3, h4, if_true, if_false, or_true, true_or, or_false, false_or, *]

end exactStarts

/-- **C81** in whatever arithmetic, doubles included: a run of FSM does not depend at all on the order of the starting points or on repetitions. -/
theorem C81_FSM_any_arithmetic {F : Type} [Arith F] (g : Grid F) (pts pts' : List Nat) (hsame : ∀ i, i ∈ pts ↔ i ∈ pts') (eik : Eik F) (goal m sw : Nat) (incs : List Int)
    (n : Nat) (s : FSM.St F) :
    Steps (FSM.Step m (FSM.solveFSM goal eik)) n (FSM.initFSM g pts sw incs) s ↔ Steps (FSM.Step m (FSM.solveFSM goal eik)) n (FSM.initFSM g pts' sw incs) s := by
  have : FSM.initFSM g pts sw incs = FSM.initFSM g pts' sw incs := by
    unfold FSM.initFSM
    rw [setValues_eq, setValues_eq]
    congr 2
    funext j
    simp only [hsame j]
  rw [this]

/-- **C81** in whatever arithmetic: the same for LSM. -/
theorem C81_LSM_any_arithmetic {F : Type} [Arith F] (g : Grid F) (pts pts' : List Nat) (hsame : ∀ i, i ∈ pts ↔ i ∈ pts') (eik : Eik F) (goal m sw : Nat) (incs : List Int)
    (n : Nat) (s : FSM.St F) :
    Steps (FSM.Step m (FSM.solveLSM goal eik)) n (FSM.initLSM g pts sw incs) s ↔ Steps (FSM.Step m (FSM.solveLSM goal eik)) n (FSM.initLSM g pts' sw incs) s := by
  have : FSM.initLSM g pts sw incs = FSM.initLSM g pts' sw incs := by
    unfold FSM.initLSM
    rw [initPointsLSM_eq, initPointsLSM_eq]
    congr 2
    funext j
    simp only [hsame]
  rw [this]

/-- **C82**, way points: on every map, for every list of starting points and every cell `w`, the time computed from the starting points to `i` is at most the time from the starting points to
`w` plus the time from `w` alone to `i` (up to `2*COMP_MARGIN` per cell of the grid), whichever of the solvers computed them; if the two are finite, so is the first. -/
theorem C82_way_points (X : XInput dims g h v pts) (hfr : Fresh g) (w : Nat) (hw : w < dims.prod)
    (a b : Grid XR) (ha : FinalGrid dims g pts a) (hb : FinalGrid dims g [w] b) (i : Nat) (hi : i < dims.prod) :
    a.value w = pinf ∨ b.value i = pinf ∨
    ∃ x y z : ℝ, a.value w = fin x ∧ b.value i = fin y ∧ a.value i = fin z ∧ z ≤ x + y + dims.prod * (2 * eps) := by
  have X' : XInput dims g h v [w] := X.starts (fun p hp => by rw [List.mem_singleton] at hp; rw [hp]; exact hw)
  obtain ⟨U, hU, _⟩ := C17_unique_solution X.problem X.wellPosed
  obtain ⟨V, hV, _⟩ := C17_unique_solution X'.problem X'.wellPosed
  have EV : ExSol dims (fun i => h / v i) (fun i => i = w) (fun i => g.occ i = true) V := by
    have := X'.exSol hV
    simpa [List.mem_singleton] using this
  have tri := ExSol.triangle X.fits X.cpos' (X.exSol hU) EV i hi
  rcases ha.exact X hfr hU hw with ⟨_, h1⟩ | ⟨e, x, e1, e2, e3, e4⟩
  · exact Or.inl h1
  rcases hb.exact X' hfr hV hi with ⟨_, h1⟩ | ⟨e', y, f1, f2, f3, f4⟩
  · exact Or.inr (Or.inl h1)
  rw [e1, f1, ← WithTop.coe_add] at tri
  rcases ha.exact X hfr hU hi with ⟨h1, _⟩ | ⟨e'', z, g1, g2, g3, g4⟩
  · rw [h1] at tri; exact absurd (top_le_iff.1 tri) WithTop.coe_ne_top
  · rw [g1] at tri
    have := WithTop.coe_le_coe.1 tri
    exact Or.inr (Or.inr ⟨x, y, z, e2, f2, g2, by linarith⟩)

/-- **C83**, at most the best start: the time computed from several starting points is at most the time computed from any one of them alone (up to the margin). -/
theorem C83_at_most_best (X : XInput dims g h v pts) (hfr : Fresh g) (a b : Grid XR) (ha : FinalGrid dims g pts a) (p : Nat) (hp : p ∈ pts)
    (hb : FinalGrid dims g [p] b) (i : Nat) (hi : i < dims.prod) :
    b.value i = pinf ∨ ∃ r t : ℝ, b.value i = fin r ∧ a.value i = fin t ∧ t ≤ r + dims.prod * (2 * eps) := by
  have X' : XInput dims g h v [p] := X.starts (fun q hq => by rw [List.mem_singleton] at hq; rw [hq]; exact X.inside p hp)
  exact C64_easier_never_slower X' X hfr hfr (fun q hq => by rw [List.mem_singleton] at hq; rw [hq]; exact hp) (fun _ _ ho => ⟨ho, le_refl _⟩) (le_refl _) b a hb ha i hi

theorem exact_one_of (X : XInput dims g h v pts) {U : Nat → WithTop ℝ} (hU : X.problem.IsSolution U) {i : Nat} (hi : i < dims.prod) {r : ℝ} (hr : U i = (r : WithTop ℝ)) :
    ∃ p ∈ pts, ∃ (X' : XInput dims g h v [p]), ∀ V, X'.problem.IsSolution V → V i ≤ ((Real.sqrt dims.length * r : ℝ) : WithTop ℝ) := by
  classical
  have hsing : ∀ p ∈ pts, XInput dims g h v [p] := fun p hp => X.starts (fun q hq => by rw [List.mem_singleton] at hq; rw [hq]; exact X.inside p hp)
  have hex : ∀ p, ∃ V : Nat → WithTop ℝ, ∀ hp : p ∈ pts, (hsing p hp).problem.IsSolution V := by
    intro p
    by_cases hp : p ∈ pts
    · obtain ⟨V, hV, _⟩ := C17_unique_solution (hsing p hp).problem (hsing p hp).wellPosed
      exact ⟨V, fun _ => hV⟩
    · exact ⟨fun _ => ⊤, fun h => absurd h hp⟩
  choose V hV using hex
  obtain ⟨p, _, hp, hle⟩ := ExSol.one_of X.fits X.cpos' (X.exSol hU) (V := V)
    (fun p _ hp => by have := (hsing p hp).exSol (hV p hp); simpa [List.mem_singleton] using this) i hi r hr
  refine ⟨p, hp, hsing p hp, fun W hW => ?_⟩
  obtain ⟨W0, _, _, huniq⟩ := C17_unique_solution (hsing p hp).problem (hsing p hp).wellPosed
  have e1 := huniq W hW i hi
  have e2 := huniq (V p) (hV p hp) i hi
  rw [e1, ← e2]; exact hle

/-- **C83**, and not much less than the best start: for every cell that several starting points reach there is one of them from which alone it is reached, in at most `√n` times the time
computed from all of them (`n` dimensions; up to the margin). That the two are not equal is `C66_refuted_two_starts`, where the factor is `√2`. -/
theorem C83_best_alone (X : XInput dims g h v pts) (hfr : Fresh g) (a : Grid XR) (ha : FinalGrid dims g pts a) (i : Nat) (hi : i < dims.prod) (t : ℝ) (ht : a.value i = fin t) :
    ∃ p ∈ pts, ∀ b, FinalGrid dims g [p] b → ∃ r : ℝ, b.value i = fin r ∧ r ≤ Real.sqrt dims.length * t + dims.prod * (2 * eps) := by
  obtain ⟨U, hU, _⟩ := C17_unique_solution X.problem X.wellPosed
  rcases ha.exact X hfr hU hi with ⟨_, h1⟩ | ⟨e, t', e1, e2, e3, e4⟩
  · rw [h1] at ht; cases ht
  rw [ht] at e2
  have : t = t' := by injection e2
  subst this
  obtain ⟨p, hp, X', hle⟩ := exact_one_of X hU hi e1
  refine ⟨p, hp, fun b hb => ?_⟩
  obtain ⟨V, hV, _⟩ := C17_unique_solution X'.problem X'.wellPosed
  have h2 := hle V hV
  rcases hb.exact X' hfr hV hi with ⟨h3, _⟩ | ⟨e', r, f1, f2, f3, f4⟩
  · rw [h3] at h2; exact absurd (top_le_iff.1 h2) WithTop.coe_ne_top
  · rw [f1] at h2
    have h2 := WithTop.coe_le_coe.1 h2
    have := mul_le_mul_of_nonneg_left e3 (Real.sqrt_nonneg dims.length)
    exact ⟨r, f2, by linarith⟩

/-- **C66**, several starting points, lower bound: on every map the time of a cell is at least the straight-line distance to some starting point divided by the top speed and by `√n`. -/
theorem C66_several_lower_partial (X : XInput dims g h v pts) (hfr : Fresh g) (vm : ℝ) (hvm : 0 < vm) (hv : ∀ i, i < dims.prod → g.occ i = false → v i ≤ vm)
    (a : Grid XR) (ha : FinalGrid dims g pts a) (i : Nat) (hi : i < dims.prod) :
    a.value i = pinf ∨ ∃ t : ℝ, a.value i = fin t ∧ ∃ p ∈ pts,
      h * euclid ((Shape.mk' dims).idx2coord i) ((Shape.mk' dims).idx2coord p) / vm ≤ Real.sqrt dims.length * t := by
  obtain ⟨U, hU, _⟩ := C17_unique_solution X.problem X.wellPosed
  rcases ha.exact X hfr hU hi with ⟨_, h1⟩ | ⟨e, t, e1, e2, e3, e4⟩
  · exact Or.inl h1
  obtain ⟨p, hp, X', hle⟩ := exact_one_of X hU hi e1
  obtain ⟨V, hV, _⟩ := C17_unique_solution X'.problem X'.wellPosed
  have h3 := le_trans (exact_ge_distance X' hvm hv hV hi) (hle V hV)
  have h3 := WithTop.coe_le_coe.1 h3
  have := mul_le_mul_of_nonneg_left e3 (Real.sqrt_nonneg dims.length)
  exact Or.inr ⟨t, e2, p, hp, by linarith⟩

/-- **C66**, several starting points, upper bound: on an open map of uniform speed the time of a cell is at most the straight-line travel time from any starting point plus the logarithmic
discretisation error of `C66_open_map`. -/
theorem C66_several_upper_partial (X : XInput dims g h v pts) (hfr : Fresh g) (v0 : ℝ) (hopen : ∀ i, i < dims.prod → g.occ i = false ∧ v i = v0)
    (hne : pts ≠ []) (a : Grid XR) (ha : FinalGrid dims g pts a) (i : Nat) (hi : i < dims.prod) :
    ∃ t : ℝ, a.value i = fin t ∧ ∀ p ∈ pts, ∀ dist : ℝ, dist = h * euclid ((Shape.mk' dims).idx2coord i) ((Shape.mk' dims).idx2coord p) →
      t ≤ dist / v0 + (1 + 2 * Real.sqrt dims.length) * (h / v0) * Real.log (1 + dist / h) + dims.prod * (2 * eps) := by
  obtain ⟨U, hU, _⟩ := C17_unique_solution X.problem X.wellPosed
  have up : ∀ p ∈ pts, U i ≤ ((h / v0 * (euclid ((Shape.mk' dims).idx2coord i) ((Shape.mk' dims).idx2coord p) +
      (1 + 2 * Real.sqrt dims.length) * Real.log (1 + euclid ((Shape.mk' dims).idx2coord i) ((Shape.mk' dims).idx2coord p))) : ℝ) : WithTop ℝ) := by
    intro p hp
    have X' : XInput dims g h v [p] := X.starts (fun q hq => by rw [List.mem_singleton] at hq; rw [hq]; exact X.inside p hp)
    obtain ⟨V, hV, hV0, _⟩ := C17_unique_solution X'.problem X'.wellPosed
    refine le_trans ?_ (exact_le_distance X' hopen hV hi)
    exact ExSol.mono X.fits (fun j hj _ ho => X.cpos' j hj ho) (fun j hj _ ho => X.cpos' j hj ho) (X.exSol hU) (X'.exSol hV) hV0
      (fun j _ hj => by have : j = p := by simpa using hj
                        rw [this]; exact hp) (fun _ _ h => h) (fun _ _ _ => le_refl _) i hi
  rcases ha.exact X hfr hU hi with ⟨h0, _⟩ | ⟨e, t, e1, e2, e3, e4⟩
  · exfalso
    obtain ⟨p, hp⟩ := List.exists_mem_of_ne_nil pts hne
    have := up p hp
    rw [h0] at this; exact absurd (top_le_iff.1 this) WithTop.coe_ne_top
  · refine ⟨t, e2, fun p hp dist hd => ?_⟩
    have l2 := up p hp
    rw [e1] at l2
    have l2 := WithTop.coe_le_coe.1 l2
    have hh := X.hpos
    have ed : dist / h = euclid ((Shape.mk' dims).idx2coord i) ((Shape.mk' dims).idx2coord p) := by rw [hd]; field_simp
    rw [ed]
    have : dist / v0 = h / v0 * euclid ((Shape.mk' dims).idx2coord i) ((Shape.mk' dims).idx2coord p) := by rw [hd]; ring
    rw [this]
    have e5 : h / v0 * (euclid ((Shape.mk' dims).idx2coord i) ((Shape.mk' dims).idx2coord p) +
      (1 + 2 * Real.sqrt dims.length) * Real.log (1 + euclid ((Shape.mk' dims).idx2coord i) ((Shape.mk' dims).idx2coord p))) =
      h / v0 * euclid ((Shape.mk' dims).idx2coord i) ((Shape.mk' dims).idx2coord p) + (1 + 2 * Real.sqrt dims.length) * (h / v0) *
        Real.log (1 + euclid ((Shape.mk' dims).idx2coord i) ((Shape.mk' dims).idx2coord p)) := by ring
    linarith

/-- non-vacuity: an empty 3x3 map; three lists of starting points, two with the same members; every one has a result -/
example : ∃ (g : Grid XR), XInput [3,3] g 1 (fun _ => 1) [0, 8] ∧ Fresh g ∧ (∀ i, i < ([3,3] : List Nat).prod → g.occ i = false) ∧ (∀ i, i ∈ [0, 8] ↔ i ∈ [8, 0, 8]) ∧
    (∃ a, FinalGrid [3,3] g [0, 8] a) ∧ (∃ a, FinalGrid [3,3] g [8, 0, 8] a) ∧ (∃ a, FinalGrid [3,3] g [0] a) ∧ ∃ b, FinalGrid [3,3] g [5] b := by
  have X : ∀ pts : List Nat, (∀ i ∈ pts, i < 9) → XInput [3,3] (Grid.create [3,3] (fin 1) (0,0)) 1 (fun _ => 1) pts := fun pts hp =>
    ⟨⟨by decide, by decide, by decide⟩, by decide, rfl, hp, one_pos, rfl, fun _ _ _ => rfl⟩
  have hfr : Fresh (Grid.create (F := XR) [3,3] (fin 1) (0,0)) := ⟨fun _ => rfl, fun _ => rfl, fun _ => rfl⟩
  have R : ∀ pts : List Nat, (∀ i ∈ pts, i < 9) → ∃ a, FinalGrid [3,3] (Grid.create (F := XR) [3,3] (fin 1) (0,0)) pts a := by
    intro pts hp
    obtain ⟨⟨n, s, hs, hd⟩, _⟩ := C27_DDQM_exact (X pts hp) hfr noGoal (fin 1) (fin 1)
    exact ⟨s.g, .ddqm (by decide) hs hd⟩
  refine ⟨_, X _ (by decide), hfr, fun i _ => ?_, fun i => ?_, R _ (by decide), R _ (by decide), R _ (by decide), R _ (by decide)⟩
  · have e : eps < 1 := by unfold XR.eps; norm_num
    show decide ((1:ℝ) < eps) = false; exact decide_eq_false (not_lt.2 e.le)
  · simp; tauto
end FMV
