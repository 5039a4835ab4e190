import Verif.Props.Monotone
import Verif.Spec.Symmetry
/-!
# C67: mirrored and transposed maps
-/
set_option linter.unusedSectionVars false
set_option linter.unusedVariables false
namespace FMV
open Spec Shape XR FMM
variable {dims dims' : List Nat} {g g' : Grid XR} {h : ℝ} {v v' : Nat → ℝ} {pts pts' : List Nat}

namespace Spec.Moves
variable {σ : Nat → Nat} {flip : Nat → Bool} {ρ : Nat → Nat}

theorem coord_digit (hf : Fits dims (2^31+1)) {i k : Nat} (hi : i < dims.prod) (hk : k < dims.length) :
    ((Shape.mk' dims).idx2coord i).getD k 0 = digit dims i k := by
  rw [idx2coord_eq (hf.mono (by norm_num)) hi, List.getD_eq_getElem?_getD, List.getElem?_map, List.getElem?_range hk]
  rfl

theorem digits (M : Moves dims dims' σ flip ρ) (hf : Fits dims (2^31+1)) (hf' : Fits dims' (2^31+1)) {i k : Nat} (hi : i < dims.prod) (hk : k < dims.length) :
    digit dims' (ρ i) (σ k) = if flip k then dims.getD k 0 - 1 - digit dims i k else digit dims i k := by
  have := (M.cell i hi).2 k hk
  rw [coord_digit hf' (M.cell i hi).1 (by rw [M.len]; exact M.perm k hk), coord_digit hf hi hk] at this
  exact this

theorem surj (M : Moves dims dims' σ flip ρ) {m : Nat} (hm : m < dims.length) : ∃ k, k < dims.length ∧ σ k = m := by
  have := Finset.surjOn_of_injOn_of_card_le (s := Finset.range dims.length) (t := Finset.range dims.length) σ
    (fun k hk => by simpa using M.perm k (by simpa using hk)) (fun k hk l hl e => M.inj k l (by simpa using hk) (by simpa using hl) e) (le_refl _)
  obtain ⟨k, hk, he⟩ := this (show m ∈ (Finset.range dims.length : Set Nat) by simpa using hm)
  exact ⟨k, by simpa using hk, he⟩

/-- a step along an axis -/
theorem step (hf : Fits dims (2^31+1)) {i k c : Nat} (hi : i < dims.prod) (hk : k < dims.length) (hc : c < dims.getD k 0)
    (h : digit dims i k + 1 = c ∨ c + 1 = digit dims i k) : ∃ j ∈ (Shape.mk' dims).nbrsDim i k, digit dims j k = c := by
  rcases h with h | h
  · have hup : digit dims i k + 1 < dims.getD k 0 := by omega
    refine ⟨i + strideOf dims k, (mem_nbrsDim_iff hf hi hk).2 (Or.inr ⟨hup, rfl⟩), ?_⟩
    have := digit_add_stride hf.pos hk (i := i) hup hk
    rw [if_pos rfl] at this
    omega
  · have hdn : 0 < digit dims i k := by omega
    refine ⟨i - strideOf dims k, (mem_nbrsDim_iff hf hi hk).2 (Or.inl ⟨hdn, by have := stride_le_of_digit hdn; omega⟩), ?_⟩
    rw [digit_sub_stride_self hf.pos hk hdn]; omega

/-- neighbours move to neighbours -/
theorem nbr (M : Moves dims dims' σ flip ρ) (hf : Fits dims (2^31+1)) (hf' : Fits dims' (2^31+1)) {i j k : Nat} (hi : i < dims.prod) (hk : k < dims.length)
    (hj : j ∈ (Shape.mk' dims).nbrsDim i k) : ρ j ∈ (Shape.mk' dims').nbrsDim (ρ i) (σ k) := by
  have hjN := nbrsDim_lt hf hi hk hj
  obtain ⟨h1, h2⟩ := nbrsDim_digits hf hi hk hj
  have hσ : σ k < dims'.length := by rw [M.len]; exact M.perm k hk
  have hoth : ∀ m, m < dims'.length → m ≠ σ k → digit dims' (ρ i) m = digit dims' (ρ j) m := by
    intro m hm hne
    obtain ⟨l, hl, rfl⟩ := M.surj (by rw [← M.len]; exact hm)
    rw [M.digits hf hf' hi hl, M.digits hf hf' hjN hl, h2 l hl (fun e => hne (by rw [e]))]
  have di := M.digits hf hf' hi hk
  have dj := M.digits hf hf' hjN hk
  have li := digit_lt hf.pos hk i
  have lj := digit_lt hf.pos hk j
  have hcase : digit dims' (ρ i) (σ k) + 1 = digit dims' (ρ j) (σ k) ∨ digit dims' (ρ j) (σ k) + 1 = digit dims' (ρ i) (σ k) := by
    rw [di, dj]
    by_cases hfl : flip k = true
    · simp only [if_pos hfl]; omega
    · simp only [if_neg hfl]; omega
  rcases hcase with hc | hc
  · exact mem_nbrsDim_of_digits hf' (M.cell i hi).1 (M.cell j hjN).1 hσ hc hoth
  · exact (nbrsDim_symm hf' (M.cell j hjN).1 hσ (mem_nbrsDim_of_digits hf' (M.cell j hjN).1 (M.cell i hi).1 hσ hc (fun m hm hne => (hoth m hm hne).symm)))

/-- every neighbour of an image is the image of a neighbour -/
theorem nbr_back (M : Moves dims dims' σ flip ρ) (hf : Fits dims (2^31+1)) (hf' : Fits dims' (2^31+1)) {i j' k : Nat} (hi : i < dims.prod) (hk : k < dims.length)
    (hj : j' ∈ (Shape.mk' dims').nbrsDim (ρ i) (σ k)) : ∃ j ∈ (Shape.mk' dims).nbrsDim i k, ρ j = j' := by
  have hσ : σ k < dims'.length := by rw [M.len]; exact M.perm k hk
  have hiN' := (M.cell i hi).1
  have hjN' := nbrsDim_lt hf' hiN' hσ hj
  obtain ⟨h1, h2⟩ := nbrsDim_digits hf' hiN' hσ hj
  have di := M.digits hf hf' hi hk
  have li := digit_lt hf.pos hk i
  have lj := digit_lt hf'.pos hσ j'
  rw [M.size k hk] at lj
  obtain ⟨j, hjn, hjd⟩ := step hf hi hk (c := if flip k then dims.getD k 0 - 1 - digit dims' j' (σ k) else digit dims' j' (σ k))
    (by
      by_cases hfl : flip k = true
      · simp only [if_pos hfl]; omega
      · simp only [if_neg hfl]; omega) (by
      rw [di] at h1
      by_cases hfl : flip k = true
      · simp only [if_pos hfl] at h1 ⊢; omega
      · simp only [if_neg hfl] at h1 ⊢; omega)
  have hjN := nbrsDim_lt hf hi hk hjn
  refine ⟨j, hjn, digit_ext (M.cell j hjN).1 hjN' ?_⟩
  intro m hm
  obtain ⟨l, hl, rfl⟩ := M.surj (by rw [← M.len]; exact hm)
  rw [M.digits hf hf' hjN hl]
  by_cases hlk : l = k
  · subst hlk
    rw [hjd]
    by_cases hfl : flip l = true
    · simp only [if_pos hfl]; omega
    · simp only [if_neg hfl]
  · have hne : σ l ≠ σ k := fun e => hlk (M.inj l k hl hk e)
    rw [← h2 (σ l) hm hne, M.digits hf hf' hi hl, (nbrsDim_digits hf hi hk hjn).2 l hl hlk]

theorem dimMin_eq (M : Moves dims dims' σ flip ρ) (hf : Fits dims (2^31+1)) (hf' : Fits dims' (2^31+1)) (U : Nat → WithTop ℝ) {i k : Nat} (hi : i < dims.prod)
    (hk : k < dims.length) : dimMin (Shape.mk' dims) (fun j => U (ρ j)) i k = dimMin (Shape.mk' dims') U (ρ i) (σ k) := by
  apply le_antisymm
  · apply le_dimMin
    intro j' hj'
    obtain ⟨j, hj, rfl⟩ := M.nbr_back hf hf' hi hk hj'
    exact dimMin_le (T := fun j => U (ρ j)) hj
  · apply le_dimMin
    intro j hj
    exact dimMin_le (M.nbr hf hf' hi hk hj)

/-- the exact solution of the moved problem, moved back, solves the problem -/
theorem exSol (M : Moves dims dims' σ flip ρ) (hf : Fits dims (2^31+1)) (hf' : Fits dims' (2^31+1)) {c c' : Nat → ℝ} {src obs src' obs' : Nat → Prop} {U : Nat → WithTop ℝ}
    (hU : ExSol dims' c' src' obs' U) (hs : ∀ i, i < dims.prod → (src' (ρ i) ↔ src i)) (ho : ∀ i, i < dims.prod → (obs' (ρ i) ↔ obs i))
    (hc : ∀ i, i < dims.prod → ¬ obs i → c' (ρ i) = c i) : ExSol dims c src obs (fun i => U (ρ i)) := by
  intro i hi
  obtain ⟨u1, u2, u3⟩ := hU (ρ i) (M.cell i hi).1
  refine ⟨fun h => u1 ((hs i hi).2 h), fun h h' => u2 (fun x => h ((hs i hi).1 x)) ((ho i hi).2 h'), fun h h' => ?_⟩
  rcases u3 (fun x => h ((hs i hi).1 x)) (fun x => h' ((ho i hi).1 x)) with ⟨r, e1, e2⟩ | ⟨e1, e2⟩
  · refine Or.inl ⟨r, e1, ?_⟩
    rw [← hc i hi h', ← e2, residL_mins, residL_mins, M.len]
    rw [Finset.sum_congr rfl (fun k hk => by rw [M.dimMin_eq hf hf' U hi (Finset.mem_range.1 hk)])]
    refine Finset.sum_nbij σ (fun k hk => by simpa using M.perm k (by simpa using hk)) (fun k hk l hl e => M.inj k l (by simpa using hk) (by simpa using hl) e) ?_ (fun k hk => rfl)
    intro m hm
    obtain ⟨k, hk, he⟩ := M.surj (by simpa using hm)
    exact ⟨k, by simpa using hk, he⟩
  · refine Or.inr ⟨e1, ?_⟩
    intro m hm
    unfold mins at hm
    rw [List.mem_map] at hm
    obtain ⟨k, hk, rfl⟩ := hm
    have hk' : k < dims.length := List.mem_range.1 hk
    rw [M.dimMin_eq hf hf' U hi hk']
    apply e2
    unfold mins
    exact List.mem_map_of_mem (List.mem_range.2 (by show _ < dims'.length; rw [M.len]; exact M.perm k hk'))
end Spec.Moves

/-- **C67**: if one map is a mirrored and/or transposed copy of another one (axes permuted by `σ`, mirrored where `flip` says; velocities, obstacles and starts moved along), the computed
arrival times are the moved ones up to the comparison margin, whichever of FMM, FSM, LSM, DDQM and FIM computed either of them. -/
theorem C67_symmetry (X : XInput dims g h v pts) (X' : XInput dims' g' h v' pts') (hfr : Fresh g) (hfr' : Fresh g') (σ : Nat → Nat) (flip : Nat → Bool) (ρ : Nat → Nat)
    (M : Moves dims dims' σ flip ρ) (hocc : ∀ i, i < dims.prod → g'.occ (ρ i) = g.occ i) (hv : ∀ i, i < dims.prod → g.occ i = false → v' (ρ i) = v i)
    (hpts : ∀ i, i < dims.prod → (ρ i ∈ pts' ↔ i ∈ pts)) (a b : Grid XR) (ha : FinalGrid dims g pts a) (hb : FinalGrid dims' g' pts' b) (i : Nat) (hi : i < dims.prod) :
    (a.value i = pinf ∧ b.value (ρ i) = pinf) ∨
    ∃ r r' : ℝ, a.value i = fin r ∧ b.value (ρ i) = fin r' ∧ r' ≤ r + dims'.prod * (2 * eps) ∧ r ≤ r' + dims.prod * (2 * eps) := by
  obtain ⟨U, hU, _⟩ := C17_unique_solution X.problem X.wellPosed
  obtain ⟨V, hV, _⟩ := C17_unique_solution X'.problem X'.wellPosed
  have hi' := (M.cell i hi).1
  have E : ExSol dims (fun i => h / v i) (fun i => i ∈ pts) (fun i => g.occ i = true) (fun i => V (ρ i)) :=
    M.exSol X.fits X'.fits (X'.exSol hV) hpts (fun i hi => by rw [hocc i hi]) (fun i hi ho => by
      show h / v' (ρ i) = h / v i
      rw [hv i hi (by simpa using ho)])
  have hc : ∀ j, j < dims.prod → ¬ j ∈ pts → ¬ (g.occ j = true) → 0 < h / v j := fun j hj _ ho => X.cpos hj (by simpa using ho)
  have hUV : V (ρ i) = U i := le_antisymm (ExSol.le X.fits hc E (X.exSol hU) i hi) (ExSol.le X.fits hc (X.exSol hU) E i hi)
  rcases ha.exact X hfr hU hi with ⟨h0, h1⟩ | ⟨e, r, e1, e2, e3, e4⟩ <;> rcases hb.exact X' hfr' hV hi' with ⟨h2, h3⟩ | ⟨e', r', f1, f2, f3, f4⟩
  · exact Or.inl ⟨h1, h3⟩
  · rw [h0, f1] at hUV; cases hUV
  · rw [h2, e1] at hUV; cases hUV
  · rw [e1, f1] at hUV
    have : e' = e := WithTop.coe_injective hUV
    subst this
    exact Or.inr ⟨r, r', e2, f2, by linarith, by linarith⟩

/-- non-vacuity: transposing a 3x2 map, mirroring its first axis -/
example : Moves [3,2] [2,3] (fun k => 1 - k) (fun k => k == 0) (fun i => i / 3 + 2 * (2 - i % 3)) := by
  refine ⟨rfl, by decide, ?_, by decide, by decide⟩
  intro k l hk hl e
  have hk : k < 2 := hk
  have hl : l < 2 := hl
  omega
end FMV
