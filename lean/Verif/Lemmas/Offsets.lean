import Verif.Props.Symmetry
/-!
The exact solution on an open map (no obstacles, one speed, one start) is a function of the offsets from the start.
-/
set_option linter.unusedSectionVars false
set_option linter.unusedVariables false
namespace FMV
open Spec Shape
open Classical

namespace Off

/-- one step back along axis `k` -/
def tow (x : Nat → Nat) (k : Nat) : Nat → Nat := Function.update x k (x k - 1)
/-- one step away along axis `k` -/
def up (x : Nat → Nat) (k : Nat) : Nat → Nat := Function.update x k (x k + 1)

/-- a solution of the local equation -/
noncomputable def root (c : ℝ) (ms : List (WithTop ℝ)) : ℝ := if h : ∃ t : ℝ, 0 ≤ t ∧ residL t ms = c^2 then h.choose else 0

/-- the times of the upwind cells, with the recursion cut at depth `m` -/
noncomputable def W (n : Nat) (c : ℝ) : Nat → (Nat → Nat) → ℝ
  | 0, _ => 0
  | m + 1, x =>
    if ∃ k, k < n ∧ 0 < x k then root c ((List.range n).map (fun k => if 0 < x k then ((W n c m (tow x k) : ℝ) : WithTop ℝ) else ⊤)) else 0

def size (n : Nat) (x : Nat → Nat) : Nat := ∑ k ∈ Finset.range n, x k

variable {n : Nat} {c : ℝ}

theorem size_up {x : Nat → Nat} {k : Nat} (hk : k < n) : size n (up x k) = size n x + 1 := by
  unfold size
  rw [← Finset.add_sum_erase _ _ (Finset.mem_range.2 hk), ← Finset.add_sum_erase (Finset.range n) x (Finset.mem_range.2 hk)]
  have : ∑ j ∈ (Finset.range n).erase k, up x k j = ∑ j ∈ (Finset.range n).erase k, x j :=
    Finset.sum_congr rfl (fun j hj => by unfold up; rw [Function.update_of_ne (Finset.ne_of_mem_erase hj)])
  rw [this]
  have : up x k k = x k + 1 := by unfold up; rw [Function.update_self]
  omega

theorem up_tow {x : Nat → Nat} {k : Nat} (h : 0 < x k) : up (tow x k) k = x := by
  funext j
  unfold up tow
  by_cases hj : j = k
  · subst hj; rw [Function.update_self, Function.update_self]; omega
  · rw [Function.update_of_ne hj, Function.update_of_ne hj]

theorem tow_up (x : Nat → Nat) (k : Nat) : tow (up x k) k = x := by
  funext j
  unfold up tow
  by_cases hj : j = k
  · subst hj; rw [Function.update_self, Function.update_self]; omega
  · rw [Function.update_of_ne hj, Function.update_of_ne hj]

theorem tow_up_ne {x : Nat → Nat} {j k : Nat} (h : j ≠ k) : tow (up x k) j = up (tow x j) k := by
  funext m
  unfold up tow
  by_cases h1 : m = j <;> by_cases h2 : m = k <;> subst_vars <;> simp_all [Function.update_self, Function.update_of_ne]

theorem size_tow {x : Nat → Nat} {k : Nat} (hk : k < n) (h : 0 < x k) : size n (tow x k) + 1 = size n x := by
  have := size_up (x := tow x k) hk
  rw [up_tow h] at this; omega

theorem le_size {x : Nat → Nat} {k : Nat} (hk : k < n) : x k ≤ size n x := Finset.single_le_sum (f := x) (fun _ _ => Nat.zero_le _) (Finset.mem_range.2 hk)

theorem W_fuel : ∀ (m : Nat) (x : Nat → Nat), size n x ≤ m → W n c (m + 1) x = W n c m x
  | 0, x, h => by
    show (if _ then _ else _) = (0:ℝ)
    rw [if_neg]
    rintro ⟨k, hk, h0⟩
    have := le_size (x := x) hk
    omega
  | m + 1, x, h => by
    show (if _ then _ else _) = (if _ then _ else _)
    by_cases he : ∃ k, k < n ∧ 0 < x k
    · rw [if_pos he, if_pos he]
      congr 1
      apply List.map_congr_left
      intro k hk
      by_cases h0 : 0 < x k
      · rw [if_pos h0, if_pos h0, W_fuel m (tow x k) (by have := size_tow (x := x) (List.mem_range.1 hk) h0; omega)]
      · rw [if_neg h0, if_neg h0]
    · rw [if_neg he, if_neg he]

/-- the time at offsets `x` from the start -/
noncomputable def w (n : Nat) (c : ℝ) (x : Nat → Nat) : ℝ := W n c (size n x) x

theorem W_eq {m : Nat} {x : Nat → Nat} (h : size n x ≤ m) : W n c m x = w n c x := by
  induction m, h using Nat.le_induction with
  | base => rfl
  | succ m hm ih => rw [W_fuel m x hm, ih]

/-- the times of the cells one step nearer -/
noncomputable def ms (n : Nat) (c : ℝ) (x : Nat → Nat) : List (WithTop ℝ) := (List.range n).map (fun k => if 0 < x k then ((w n c (tow x k) : ℝ) : WithTop ℝ) else ⊤)

theorem w_eq (x : Nat → Nat) : w n c x = if ∃ k, k < n ∧ 0 < x k then root c (ms n c x) else 0 := by
  rw [← W_eq (Nat.le_succ _)]
  show (if _ then _ else _) = _
  congr 2
  unfold ms
  apply List.map_congr_left
  intro k hk
  by_cases h0 : 0 < x k
  · rw [if_pos h0, if_pos h0, W_eq (by have := size_tow (x := x) (List.mem_range.1 hk) h0; omega)]
  · rw [if_neg h0, if_neg h0]

theorem w_nonneg (x : Nat → Nat) : 0 ≤ w n c x := by
  rw [w_eq]
  split
  · unfold root
    split
    · next h => exact h.choose_spec.1
    · exact le_refl _
  · exact le_refl _

theorem ms_nonneg (x : Nat → Nat) : ∀ m ∈ ms n c x, 0 ≤ m := by
  intro m hm
  unfold ms at hm
  obtain ⟨k, _, rfl⟩ := List.mem_map.1 hm
  split
  · exact_mod_cast w_nonneg _
  · exact le_top

theorem w_spec (hc : 0 < c) {x : Nat → Nat} (h : ∃ k, k < n ∧ 0 < x k) : residL (w n c x) (ms n c x) = c^2 := by
  have hr : ∃ t : ℝ, 0 ≤ t ∧ residL t (ms n c x) = c^2 := by
    obtain ⟨k, hk, h0⟩ := h
    refine exists_root hc (ms_nonneg x) (t := w n c (tow x k)) ?_
    unfold ms
    exact List.mem_map.2 ⟨k, List.mem_range.2 hk, by rw [if_pos h0]⟩
  rw [w_eq, if_pos h]
  unfold root
  rw [dif_pos hr]
  exact hr.choose_spec.2

theorem w_zero {x : Nat → Nat} (h : ¬ ∃ k, k < n ∧ 0 < x k) : w n c x = 0 := by rw [w_eq, if_neg h]

/-- farther cells are reached later -/
theorem w_mono (hc : 0 < c) : ∀ (m : Nat) (x : Nat → Nat), size n x = m → ∀ k, k < n → w n c x ≤ w n c (up x k) := by
  intro m
  induction m using Nat.strong_induction_on with
  | _ m ih =>
    intro x hx k hk
    by_cases he : ∃ k, k < n ∧ 0 < x k
    · have hy : ∃ j, j < n ∧ 0 < up x k j := ⟨k, hk, by unfold up; rw [Function.update_self]; omega⟩
      by_contra hlt
      push Not at hlt
      have e1 := w_spec hc he
      have e2 := w_spec hc hy
      have h1 : residL (w n c (up x k)) (ms n c (up x k)) ≤ residL (w n c (up x k)) (ms n c x) := by
        unfold ms
        apply residL_le_map
        intro j hj
        have hj' := List.mem_range.1 hj
        by_cases hjk : j = k
        · subst hjk
          rw [if_pos (by unfold up; rw [Function.update_self]; omega), tow_up]
          rw [posSq_eq_zero (by exact_mod_cast hlt.le)]
          exact posSq_nonneg _ _
        · have hxj : up x k j = x j := by unfold up; rw [Function.update_of_ne hjk]
          rw [hxj]
          by_cases h0 : 0 < x j
          · rw [if_pos h0, if_pos h0, tow_up_ne hjk]
            have := size_tow (x := x) hj' h0
            apply posSq_anti
            exact_mod_cast ih _ (by omega) (tow x j) rfl k hk
          · rw [if_neg h0, if_neg h0]
      have h2 := residL_strict hlt (ms := ms n c x) (by rw [e1]; positivity)
      rw [e1] at h2
      rw [e2] at h1
      linarith
    · rw [w_zero he]; exact w_nonneg _

/-! ### on a grid -/
variable {dims : List Nat}

/-- distance along axis `k` of cells `i` and `s` -/
def off (dims : List Nat) (s i k : Nat) : Nat := if k < dims.length then (digit dims i k - digit dims s k) + (digit dims s k - digit dims i k) else 0

theorem off_of_lt {s i k : Nat} (hk : k < dims.length) : off dims s i k = (digit dims i k - digit dims s k) + (digit dims s k - digit dims i k) := if_pos hk

theorem off_nbr (hf : Fits dims (2^31+1)) {s i j k : Nat} (hi : i < dims.prod) (hk : k < dims.length) (hj : j ∈ (Shape.mk' dims).nbrsDim i k) :
    off dims s j = up (off dims s i) k ∨ (0 < off dims s i k ∧ off dims s j = tow (off dims s i) k) := by
  obtain ⟨h1, h2⟩ := nbrsDim_digits hf hi hk hj
  have hoth : ∀ m, m ≠ k → off dims s j m = off dims s i m := by
    intro m hm
    unfold off
    by_cases hml : m < dims.length
    · rw [if_pos hml, if_pos hml, h2 m hml hm]
    · rw [if_neg hml, if_neg hml]
  have hcase : off dims s j k = off dims s i k + 1 ∨ (0 < off dims s i k ∧ off dims s j k = off dims s i k - 1) := by
    rw [off_of_lt hk, off_of_lt hk]
    omega
  rcases hcase with h | ⟨h0, h⟩
  · left
    funext m
    unfold up
    by_cases hm : m = k
    · subst hm; rw [Function.update_self, h]
    · rw [Function.update_of_ne hm, hoth m hm]
  · right
    refine ⟨h0, ?_⟩
    funext m
    unfold tow
    by_cases hm : m = k
    · subst hm; rw [Function.update_self, h]
    · rw [Function.update_of_ne hm, hoth m hm]

theorem off_toward (hf : Fits dims (2^31+1)) {s i k : Nat} (hi : i < dims.prod) (hs : s < dims.prod) (hk : k < dims.length) (h0 : 0 < off dims s i k) :
    ∃ j ∈ (Shape.mk' dims).nbrsDim i k, off dims s j = tow (off dims s i) k := by
  have li := digit_lt hf.pos hk i
  have ls := digit_lt hf.pos hk s
  have h00 := h0
  rw [off_of_lt hk] at h0
  obtain ⟨j, hj, hd⟩ := Spec.Moves.step hf hi hk (c := if digit dims i k < digit dims s k then digit dims i k + 1 else digit dims i k - 1)
    (by split <;> omega) (by split <;> omega)
  refine ⟨j, hj, ?_⟩
  rcases off_nbr (s := s) hf hi hk hj with h | ⟨-, h⟩
  · have e : off dims s j k = off dims s i k + 1 := by rw [h]; unfold up; rw [Function.update_self]
    rw [off_of_lt hk, off_of_lt hk, hd] at e
    split at e <;> omega
  · exact h

theorem off_zero (hf : Fits dims (2^31+1)) {s i : Nat} (hi : i < dims.prod) (hs : s < dims.prod) : (¬ ∃ k, k < dims.length ∧ 0 < off dims s i k) ↔ i = s := by
  constructor
  · intro h
    apply digit_ext hi hs
    intro k hk
    by_contra hne
    exact h ⟨k, hk, by rw [off_of_lt hk]; omega⟩
  · rintro rfl ⟨k, hk, h⟩
    rw [off_of_lt hk] at h; omega

/-- the offsets function solves the problem -/
theorem exSol (hf : Fits dims (2^31+1)) (hc : 0 < c) {s : Nat} (hs : s < dims.prod) {cc : Nat → ℝ} (hcc : ∀ i, i < dims.prod → cc i = c) {src obs : Nat → Prop}
    (hsrc : ∀ i, src i ↔ i = s) (hobs : ∀ i, i < dims.prod → ¬ obs i) :
    ExSol dims cc src obs (fun i => ((w dims.length c (off dims s i) : ℝ) : WithTop ℝ)) := by
  intro i hi
  refine ⟨fun h => ?_, fun _ h => absurd h (hobs i hi), fun h _ => ?_⟩
  · show ((w dims.length c (off dims s i) : ℝ) : WithTop ℝ) = 0
    rw [w_zero ((off_zero hf hi hs).2 ((hsrc i).1 h))]; rfl
  · have he : ∃ k, k < dims.length ∧ 0 < off dims s i k := by
      by_contra hcon
      exact h ((hsrc i).2 ((off_zero hf hi hs).1 hcon))
    refine Or.inl ⟨_, rfl, ?_⟩
    rw [hcc i hi, ← w_spec hc he, residL_mins]
    unfold ms
    unfold residL
    rw [List.map_map, sum_map_range]
    apply Finset.sum_congr rfl
    intro k hk
    have hk' := Finset.mem_range.1 hk
    show posSq _ _ = posSq _ (if 0 < off dims s i k then ((w dims.length c (tow (off dims s i) k) : ℝ) : WithTop ℝ) else ⊤)
    by_cases h0 : 0 < off dims s i k
    · rw [if_pos h0]
      congr 1
      apply le_antisymm
      · obtain ⟨j, hj, e⟩ := off_toward hf hi hs hk' h0
        have := dimMin_le (T := fun i => ((w dims.length c (off dims s i) : ℝ) : WithTop ℝ)) hj
        rw [e] at this; exact this
      · apply le_dimMin
        intro j hj
        rcases off_nbr (s := s) hf hi hk' hj with e | ⟨-, e⟩
        · have h1 := w_mono hc _ (tow (off dims s i) k) rfl k hk'
          have h2 := w_mono hc _ (off dims s i) rfl k hk'
          rw [up_tow h0] at h1
          rw [e]
          exact_mod_cast h1.trans h2
        · rw [e]
    · rw [if_neg h0, posSq_top]
      apply posSq_eq_zero
      apply le_dimMin
      intro j hj
      rcases off_nbr (s := s) hf hi hk' hj with e | ⟨h1, -⟩
      · rw [e]
        exact_mod_cast w_mono hc _ (off dims s i) rfl k hk'
      · exact absurd h1 h0

end Off
end FMV
