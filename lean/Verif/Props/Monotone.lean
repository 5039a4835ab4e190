import Verif.Lemmas.Compare
import Verif.Lemmas.Approx
import Verif.Props.Agree
/-!
# C64, C65: easier maps are never slower; arrival times have the right units
-/
set_option linter.unusedSectionVars false
set_option linter.unusedVariables false
namespace FMV
open Spec Shape XR FMM
variable {dims : List Nat} {g g' : Grid XR} {h h' : ℝ} {v v' : Nat → ℝ} {pts pts' : List Nat}

theorem FinalGrid.good (X : XInput dims g h v pts) (hfr : Fresh g) {a : Grid XR} (ha : FinalGrid dims g pts a) (i : Nat) (hi : i < dims.prod) :
    GoodT (a.value i) := by
  obtain ⟨U, hU, h0, _⟩ := C17_unique_solution X.problem X.wellPosed
  cases ha with
  | fmm k1 k2 k3 k4 => exact (C16_FMM_final X hfr k2 U hU _ k1 _ _ k3 k4 i hi).1
  | fsm k1 k2 k3 k4 k5 => exact (C18_FSM X hfr U hU _ _ _ _ k2 _ _ k3 i hi).1
  | lsm k1 k2 k3 k4 k5 => exact (C18_LSM X hfr U hU _ _ _ _ k2 _ _ k3 i hi).1
  | ddqm k1 k2 k3 => exact (C18_DDQM X hfr U hU _ _ _ _ _ k2 i hi).1
  | fim k1 k2 k3 k4 => exact (FIM.AInv.run X (k2.nonAdj X) hfr (le_refl (0:ℝ)) k3).low.good i

/-- the time of a cell in a final grid: infinite exactly if the exact time is, otherwise at most `2*COMP_MARGIN` per cell of the grid above it -/
theorem FinalGrid.exact (X : XInput dims g h v pts) (hfr : Fresh g) {a : Grid XR} (ha : FinalGrid dims g pts a) {U : Nat → WithTop ℝ}
    (hU : X.problem.IsSolution U) {i : Nat} (hi : i < dims.prod) :
    (U i = ⊤ ∧ a.value i = pinf) ∨ ∃ e r : ℝ, U i = (e : WithTop ℝ) ∧ a.value i = fin r ∧ e ≤ r ∧ r ≤ e + dims.prod * (2 * eps) := by
  obtain ⟨a1, a2⟩ := ha.accuracy X hfr U hU i hi
  rcases ha.good X hfr i hi with h1 | ⟨r, _, h1⟩ <;> rw [h1] at a1 a2
  · cases hu : U i with
    | top => exact Or.inl ⟨rfl, h1⟩
    | coe e =>
      rw [hu] at a2
      exact absurd (top_le_iff.1 (by simpa using a2)) (WithTop.coe_ne_top (a := e + dims.prod * (2 * eps)))
  · cases hu : U i with
    | top => rw [hu] at a1; exact absurd (top_le_iff.1 a1) WithTop.coe_ne_top
    | coe e =>
      rw [hu] at a1 a2
      exact Or.inr ⟨e, r, rfl, h1, WithTop.coe_le_coe.1 a1, WithTop.coe_le_coe.1 (by rw [WithTop.coe_add]; exact a2)⟩

/-- **C64**: let two maps of the same size be given, the second one being easier: it has all the starting points of the first one, every cell that is free in the
first is free in the second and at least as fast there, and its cells are not larger. Then in the result of any of the solvers (FMM, FSM, LSM, DDQM, FIM; not
necessarily the same one) no cell has a larger arrival time on the second map than on the first, up to `2*COMP_MARGIN` per cell of the grid. -/
theorem C64_easier_never_slower (X : XInput dims g h v pts) (X' : XInput dims g' h' v' pts') (hfr : Fresh g) (hfr' : Fresh g')
    (hpts : ∀ p ∈ pts, p ∈ pts') (hmap : ∀ i, i < dims.prod → g.occ i = false → g'.occ i = false ∧ v i ≤ v' i) (hh : h' ≤ h)
    (a b : Grid XR) (ha : FinalGrid dims g pts a) (hb : FinalGrid dims g' pts' b) (i : Nat) (hi : i < dims.prod) :
    a.value i = pinf ∨ ∃ r r' : ℝ, a.value i = fin r ∧ b.value i = fin r' ∧ r' ≤ r + dims.prod * (2 * eps) := by
  obtain ⟨U, hU, hU0, _⟩ := C17_unique_solution X.problem X.wellPosed
  obtain ⟨V, hV, hV0, _⟩ := C17_unique_solution X'.problem X'.wellPosed
  have hUV : V i ≤ U i := by
    apply ExSol.mono X.fits (fun j hj _ ho => X'.cpos hj (by simpa using ho)) (fun j hj _ ho => X.cpos hj (by simpa using ho)) (X'.exSol hV) (X.exSol hU) hU0
      (fun j _ hj => hpts j hj) ?_ ?_ i hi
    · intro j hj ho
      by_contra hc
      have := (hmap j hj (by simpa using hc)).1
      rw [this] at ho; cases ho
    · intro j hj ho
      have hf : g.occ j = false := by simpa using ho
      have h1 := X.vpos hj hf
      exact div_le_div₀ X.hpos.le hh h1 (hmap j hj hf).2
  rcases ha.exact X hfr hU hi with ⟨_, h1⟩ | ⟨e, r, e1, e2, e3, e4⟩
  · exact Or.inl h1
  · rcases hb.exact X' hfr' hV hi with ⟨h1, _⟩ | ⟨e', r', f1, f2, f3, f4⟩
    · rw [h1, e1] at hUV; exact absurd (top_le_iff.1 hUV) WithTop.coe_ne_top
    · rw [e1, f1] at hUV
      have := WithTop.coe_le_coe.1 hUV
      exact Or.inr ⟨r, r', e2, f2, by linarith⟩

/-- non-vacuity: the same 3x3 map with one starting point, and with two and half the leaf size -/
example : ∃ (g g' : Grid XR), XInput [3,3] g 1 (fun _ => 1) [0] ∧ XInput [3,3] g' (1/2) (fun _ => 1) [0, 8] ∧ Fresh g ∧ Fresh g' ∧
    (∃ a, FinalGrid [3,3] g [0] a) ∧ ∃ b, FinalGrid [3,3] g' [0, 8] b := by
  have X : XInput [3,3] (Grid.create [3,3] (fin 1) (0,0)) 1 (fun _ => 1) [0] :=
    ⟨⟨by decide, by decide, by decide⟩, by decide, rfl, by decide, one_pos, rfl, fun _ _ _ => rfl⟩
  have X' : XInput [3,3] (Grid.create [3,3] (fin (1/2)) (0,0)) (1/2) (fun _ => 1) [0, 8] :=
    ⟨⟨by decide, by decide, by decide⟩, by decide, rfl, by decide, by norm_num, rfl, fun _ _ _ => rfl⟩
  have hfr : ∀ x, Fresh (Grid.create (F := XR) [3,3] (fin x) (0,0)) := fun x => ⟨fun _ => rfl, fun _ => rfl, fun _ => rfl⟩
  obtain ⟨⟨n, s, hs, hd⟩, _⟩ := C27_DDQM_exact X (hfr 1) noGoal (fin 1) (fin 1)
  obtain ⟨⟨n', s', hs', hd'⟩, _⟩ := C27_DDQM_exact X' (hfr (1/2)) noGoal (fin 1) (fin 1)
  exact ⟨_, _, X, X', hfr 1, hfr (1/2), ⟨s.g, .ddqm (by decide) hs hd⟩, s'.g, .ddqm (by decide) hs' hd'⟩

/-- The exact times are multiplied by `k` when all crossing times are. -/
theorem exact_scale (X : XInput dims g h v pts) (X' : XInput dims g' h' v' pts) {k : ℝ} (hk : 0 < k)
    (hocc : ∀ i, i < dims.prod → g'.occ i = g.occ i) (hc : ∀ i, i < dims.prod → g.occ i = false → h' / v' i = k * (h / v i))
    {U V : Nat → WithTop ℝ} (hU : X.problem.IsSolution U) (hV : X'.problem.IsSolution V) (i : Nat) (hi : i < dims.prod) : V i = scl k (U i) := by
  have E : ExSol dims (fun i => h' / v' i) (fun i => i ∈ pts) (fun i => g'.occ i = true) (fun i => scl k (U i)) := by
    have mm : ∀ i, mins (Shape.mk' dims) (fun i => scl k (U i)) i = (mins (Shape.mk' dims) U i).map (scl k) := by
      intro i
      unfold mins
      rw [List.map_map]
      apply List.map_congr_left
      intro d hd
      show dimMin _ _ _ _ = scl k (dimMin _ _ _ _)
      unfold dimMin
      generalize (Shape.mk' dims).nbrsDim i d = l
      induction l with
      | nil => simp
      | cons x l ih =>
        simp only [List.map_cons, List.foldr_cons]
        rw [ih]
        exact (Monotone.map_min (f := scl k) (fun s t h => scl_mono hk.le h)).symm
    have rr : ∀ (r : ℝ) (ms : List (WithTop ℝ)), residL (k * r) (ms.map (scl k)) = k^2 * residL r ms := by
      intro r ms
      induction ms with
      | nil => simp
      | cons m ms ih => rw [List.map_cons, residL_cons, residL_cons, ih, posSq_scl hk]; ring
    intro j hj
    obtain ⟨u1, u2, u3⟩ := X.exSol hU j hj
    refine ⟨fun hs => by show scl k (U j) = 0; rw [u1 hs, scl_zero], fun hs ho => ?_, fun hs ho => ?_⟩
    · show scl k (U j) = ⊤
      rw [u2 hs (by show g.occ j = true; rw [← hocc j hj]; exact ho)]; rfl
    · have ho' : ¬ (g.occ j = true) := by rw [← hocc j hj]; exact ho
      rcases u3 hs ho' with ⟨r, e1, e2⟩ | ⟨e1, e2⟩
      · refine Or.inl ⟨k * r, by show scl k (U j) = _; rw [e1]; rfl, ?_⟩
        rw [mm, rr, e2]
        show k^2 * (h / v j)^2 = (h' / v' j)^2
        rw [hc j hj (by simpa using ho')]; ring
      · refine Or.inr ⟨by show scl k (U j) = ⊤; rw [e1]; rfl, ?_⟩
        rw [mm]
        intro m hm
        obtain ⟨m', hm', rfl⟩ := List.mem_map.1 hm
        rw [e2 m' hm']; rfl
  have hc' : ∀ j, j < dims.prod → ¬ j ∈ pts → ¬ (g'.occ j = true) → 0 < h' / v' j := fun j hj _ ho => X'.cpos hj (by simpa using ho)
  exact le_antisymm (ExSol.le X'.fits hc' (X'.exSol hV) E i hi) (ExSol.le X'.fits hc' E (X'.exSol hV) i hi)

/-- **C65**: if all crossing times (leaf size over speed) of a map are multiplied by `k` - the leaf size is given in another unit of length, or the speeds in another unit of
time - then the arrival times are multiplied by `k` (up to the comparison margin), whichever of the solvers computed them. -/
theorem C65_units (X : XInput dims g h v pts) (X' : XInput dims g' h' v' pts) (hfr : Fresh g) (hfr' : Fresh g') (k : ℝ) (hk : 0 < k)
    (hocc : ∀ i, i < dims.prod → g'.occ i = g.occ i) (hc : ∀ i, i < dims.prod → g.occ i = false → h' / v' i = k * (h / v i))
    (a b : Grid XR) (ha : FinalGrid dims g pts a) (hb : FinalGrid dims g' pts b) (i : Nat) (hi : i < dims.prod) :
    (a.value i = pinf ∧ b.value i = pinf) ∨
    ∃ r r' : ℝ, a.value i = fin r ∧ b.value i = fin r' ∧ |r' - k * r| ≤ (1 + k) * (dims.prod * (2 * eps)) := by
  obtain ⟨U, hU, hU0, _⟩ := C17_unique_solution X.problem X.wellPosed
  obtain ⟨V, hV, hV0, _⟩ := C17_unique_solution X'.problem X'.wellPosed
  have hUV := exact_scale X X' hk hocc hc hU hV i hi
  have hE : 0 ≤ (dims.prod * (2 * eps) : ℝ) := by have := eps_pos; positivity
  rcases ha.exact X hfr hU hi with ⟨h0, h1⟩ | ⟨e, r, e1, e2, e3, e4⟩ <;> rcases hb.exact X' hfr' hV hi with ⟨h2, h3⟩ | ⟨e', r', f1, f2, f3, f4⟩
  · exact Or.inl ⟨h1, h3⟩
  · rw [h0, f1] at hUV; cases hUV
  · rw [h2, e1] at hUV; cases hUV
  · rw [e1, f1, scl_coe] at hUV
    have : e' = k * e := WithTop.coe_eq_coe.1 hUV
    subst this
    refine Or.inr ⟨r, r', e2, f2, ?_⟩
    generalize (dims.prod * (2 * eps) : ℝ) = E at *
    have c1 := mul_le_mul_of_nonneg_left e3 hk.le
    have c2 := mul_le_mul_of_nonneg_left e4 hk.le
    rw [abs_le]
    constructor <;> nlinarith

/-- non-vacuity: a 3x3 map with cells of size 1 and of size 1/2 -/
example : ∃ (g g' : Grid XR), XInput [3,3] g 1 (fun _ => 1) [0] ∧ XInput [3,3] g' (1/2) (fun _ => 1) [0] ∧ Fresh g ∧ Fresh g' ∧
    (∀ i, i < ([3,3] : List Nat).prod → g'.occ i = g.occ i) ∧ (1/2 : ℝ) / 1 = (1/2) * (1 / 1) ∧
    (∃ a, FinalGrid [3,3] g [0] a) ∧ ∃ b, FinalGrid [3,3] g' [0] b := by
  have X : XInput [3,3] (Grid.create [3,3] (fin 1) (0,0)) 1 (fun _ => 1) [0] :=
    ⟨⟨by decide, by decide, by decide⟩, by decide, rfl, by decide, one_pos, rfl, fun _ _ _ => rfl⟩
  have X' : XInput [3,3] (Grid.create [3,3] (fin (1/2)) (0,0)) (1/2) (fun _ => 1) [0] :=
    ⟨⟨by decide, by decide, by decide⟩, by decide, rfl, by decide, by norm_num, rfl, fun _ _ _ => rfl⟩
  have hfr : ∀ x, Fresh (Grid.create (F := XR) [3,3] (fin x) (0,0)) := fun x => ⟨fun _ => rfl, fun _ => rfl, fun _ => rfl⟩
  obtain ⟨⟨n, s, hs, hd⟩, _⟩ := C27_DDQM_exact X (hfr 1) noGoal (fin 1) (fin 1)
  obtain ⟨⟨n', s', hs', hd'⟩, _⟩ := C27_DDQM_exact X' (hfr (1/2)) noGoal (fin 1) (fin 1)
  exact ⟨_, _, X, X', hfr 1, hfr (1/2), fun _ _ => rfl, by norm_num, ⟨s.g, .ddqm (by decide) hs hd⟩, s'.g, .ddqm (by decide) hs' hd'⟩
end FMV
