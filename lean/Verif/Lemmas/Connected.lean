import Verif.Props.FMMExact
/-!
The grid is connected; exact solutions are finite everywhere when all obstacles are sources.
-/
set_option linter.unusedSectionVars false
set_option linter.unusedVariables false
namespace FMV
open Spec Shape XR FMM

/-- every cell but the first has a neighbour with a smaller index -/
theorem exists_lower_nbr {dims : List Nat} (hf : Fits dims (2^31+1)) {i : Nat} (hi : i < dims.prod) (h0 : 0 < i) :
    ∃ j ∈ (Shape.mk' dims).nbrs i, j < i := by
  have : ∃ k, k < dims.length ∧ 0 < digit dims i k := by
    by_contra hcon
    push Not at hcon
    have hp : 0 < dims.prod := by omega
    have := digit_ext hi hp (fun k hk => by
      have h1 := hcon k hk
      have h2 : digit dims 0 k = 0 := by simp [digit]
      omega)
    omega
  obtain ⟨k, hk, hd⟩ := this
  have hs := stride_le_of_digit hd
  have hpos := strideOf_pos hf.pos k
  refine ⟨i - strideOf dims k, mem_nbrs.2 ⟨k, hk, (mem_nbrsDim_iff hf hi hk).2 (Or.inl ⟨hd, by omega⟩)⟩, by omega⟩

/-- a property that passes from each cell to its neighbours and holds for some cell holds for all cells -/
theorem grid_connected {dims : List Nat} (hf : Fits dims (2^31+1)) (P : Nat → Prop) (hne : ∃ s, s < dims.prod ∧ P s)
    (hcl : ∀ i, i < dims.prod → P i → ∀ j ∈ (Shape.mk' dims).nbrs i, P j) : ∀ i, i < dims.prod → P i := by
  have down : ∀ n i, i = n → i < dims.prod → P i → P 0 := by
    intro n
    induction n using Nat.strong_induction_on with
    | _ n ih =>
      rintro i rfl hi hP
      rcases Nat.eq_zero_or_pos i with rfl | h0
      · exact hP
      · obtain ⟨j, hj, hlt⟩ := exists_lower_nbr hf hi h0
        exact ih j hlt j rfl (by omega) (hcl i hi hP j hj)
  obtain ⟨s, hs, hP⟩ := hne
  have h0 := down s s rfl hs hP
  intro i
  induction i using Nat.strong_induction_on with
  | _ i ih =>
    intro hi
    rcases Nat.eq_zero_or_pos i with rfl | hpos
    · exact h0
    · obtain ⟨j, hj, hlt⟩ := exists_lower_nbr hf hi hpos
      exact hcl j (by omega) (ih j hlt (by omega)) i (nbrs_symm hf hi hj)

variable {dims : List Nat} {g : Grid XR} {h : ℝ} {v : Nat → ℝ} {pts : List Nat}

/-- the exact solution is positive in every free cell that is not a source -/
theorem sol_pos (X : XInput dims g h v pts) {U : Nat → WithTop ℝ} (hU : X.problem.IsSolution U) {i : Nat} (hi : i < dims.prod)
    (ho : g.occ i = false) (hs : i ∉ pts) : 0 < U i := by
  have hE := X.exSol hU
  have hnn := hE.nonneg X.fits (fun i hi _ ho => X.cpos hi (by simpa using ho))
  rcases (hE i hi).2.2 hs (by simp [ho]) with ⟨r, e1, e2⟩ | ⟨e1, _⟩
  · rw [e1]
    by_contra hcon
    have hr : r ≤ 0 := by
      have : ((r : ℝ) : WithTop ℝ) ≤ 0 := not_lt.1 hcon
      exact_mod_cast this
    have hz : residL r (mins (Shape.mk' dims) U i) = 0 := by
      unfold residL
      apply List.sum_eq_zero
      intro x hx
      obtain ⟨m, hm, rfl⟩ := List.mem_map.1 hx
      have hm0 : 0 ≤ m := by
        obtain ⟨k, hk', rfl⟩ := List.mem_map.1 hm
        exact le_dimMin (fun j hj => hnn j (nbrsDim_lt X.fits hi (List.mem_range.1 hk') hj))
      cases m with
      | top => rfl
      | coe m =>
        have : (0:ℝ) ≤ m := by exact_mod_cast hm0
        show (max (r - m) 0)^2 = 0
        rw [max_eq_right (by linarith)]; norm_num
    have hc := X.cpos hi ho
    rw [hz] at e2
    have : 0 < (h / v i)^2 := by positivity
    linarith
  · rw [e1]; exact WithTop.coe_lt_top 0

/-- if all obstacles are sources, and there is a source, the exact solution is finite everywhere -/
theorem sol_finite (X : XInput dims g h v pts) {U : Nat → WithTop ℝ} (hU : X.problem.IsSolution U) (hall : ∀ i, i < dims.prod → g.occ i = true → i ∈ pts)
    (hne : pts ≠ []) : ∀ i, i < dims.prod → U i ≠ ⊤ := by
  have hE := X.exSol hU
  refine grid_connected X.fits (fun i => U i ≠ ⊤) ?_ ?_
  · obtain ⟨p, hp⟩ := List.exists_mem_of_ne_nil _ hne
    exact ⟨p, X.inside p hp, by rw [(hE p (X.inside p hp)).1 hp]; exact WithTop.zero_ne_top⟩
  · intro i hi hfi j hj
    have hjN := FMM.nbr_lt X.fits hi hj
    by_cases hs : j ∈ pts
    · rw [(hE j hjN).1 hs]; exact WithTop.zero_ne_top
    · have ho : ¬ g.occ j = true := fun h => hs (hall j hjN h)
      rcases (hE j hjN).2.2 hs ho with ⟨r, e, _⟩ | ⟨_, e⟩
      · rw [e]; exact WithTop.coe_ne_top
      · exfalso
        obtain ⟨k, hk, hik⟩ := mem_nbrs.1 (nbrs_symm X.fits hi hj)
        have := e _ (List.mem_map.2 ⟨k, by simpa using hk, rfl⟩)
        have h2 := dimMin_le (T := U) hik
        rw [this, top_le_iff] at h2
        exact hfi h2

end FMV
