import Verif.Props.SweepOrder
import Verif.Lemmas.Shape
/-!
In a sweep in directions `incs`, the neighbour of a cell on the side the sweep comes from is visited before the cell.
-/
namespace FMV
open Shape
namespace FSM
variable {dims : List Nat} {incs : List Int}

/-- `b` comes after `a` in a sweep over the first `K` dimensions -/
def Before (dims : List Nat) (incs : List Int) (K a b : Nat) : Prop :=
  ∃ m, m < K ∧ 0 < ((digit dims b m : Int) - digit dims a m) * incs.getD m 1 ∧ ∀ l, m < l → l < K → digit dims b l = digit dims a l

theorem loopVals_pairwise (inc : Int) (hinc : inc = 1 ∨ inc = -1) (size : Nat) : (loopVals inc size).Pairwise (fun x y => 0 < (y - x) * inc) := by
  rw [loopVals_eq inc hinc]
  rcases hinc with rfl | rfl
  · rw [if_pos rfl, List.pairwise_map]
    refine List.Pairwise.imp ?_ List.pairwise_lt_range
    intro a b hab; omega
  · rw [if_neg (by norm_num), List.pairwise_reverse, List.pairwise_map]
    refine List.Pairwise.imp ?_ List.pairwise_lt_range
    intro a b hab; omega

theorem mem_loopVals (inc : Int) (hinc : inc = 1 ∨ inc = -1) (size : Nat) {x : Int} (h : x ∈ loopVals inc size) : ∃ i : Nat, i < size ∧ x = i := by
  have := (loopVals_perm inc hinc size).mem_iff.1 h
  obtain ⟨i, hi, rfl⟩ := List.mem_map.1 this
  exact ⟨i, List.mem_range.1 hi, rfl⟩

theorem digit_block {k q i r : Nat} (hk : k < dims.length) (hp : ∀ x ∈ dims, 0 < x) (hi : i < dims.getD k 0) (hr : r < strideOf dims k) :
    digit dims (q * strideOf dims (k + 1) + i * strideOf dims k + r) k = i := by
  unfold digit
  have hs := strideOf_pos hp k
  have e : q * strideOf dims (k + 1) + i * strideOf dims k + r = (q * dims.getD k 0 + i) * strideOf dims k + r := by
    rw [strideOf_succ hk]; ring
  rw [e, Nat.add_comm, Nat.add_mul_div_right _ _ hs, Nat.div_eq_of_lt hr, Nat.zero_add, Nat.add_mod, Nat.mul_mod_left, Nat.zero_add, Nat.mod_mod, Nat.mod_eq_of_lt hi]

theorem order_before (hp : ∀ x ∈ dims, 0 < x) (hinc : ∀ k, incs.getD k 1 = 1 ∨ incs.getD k 1 = -1) : ∀ (k q : Nat), k < dims.length →
    (order dims incs k ((q * strideOf dims (k + 1) : Nat) : Int)).Pairwise (Before dims incs (k + 1)) := by
  intro k
  induction k with
  | zero =>
    intro q hk
    unfold order
    rw [List.pairwise_map]
    refine List.Pairwise.imp_of_mem ?_ (loopVals_pairwise _ (hinc 0) _)
    intro x y hx hy h
    obtain ⟨i, hi, rfl⟩ := mem_loopVals _ (hinc 0) _ hx
    obtain ⟨j, hj, rfl⟩ := mem_loopVals _ (hinc 0) _ hy
    refine ⟨0, by omega, ?_, fun l h1 h2 => by omega⟩
    have e : ∀ i : Nat, i < dims.getD 0 0 → digit dims ((((q * strideOf dims (0 + 1) : Nat) : Int) + (i : Int)).toNat) 0 = i := by
      intro i hi
      have := digit_block (k := 0) (q := q) (i := i) (r := 0) hk hp hi (strideOf_pos hp 0)
      rw [strideOf_zero, Nat.mul_one, Nat.add_zero] at this
      rw [← this]
      congr 1
      omega
    rw [e i hi, e j hj]
    exact h
  | succ k ih =>
    intro q hk
    unfold order
    rw [List.pairwise_flatMap]
    have hS : (dims.take (k + 1)).prod = strideOf dims (k + 1) := rfl
    have ecast : ∀ i : Nat, (((q * strideOf dims (k + 1 + 1) : Nat) : Int) + (i : Int) * ((dims.take (k + 1)).prod : Nat)) =
        (((q * dims.getD (k + 1) 0 + i) * strideOf dims (k + 1) : Nat) : Int) := by
      intro i
      rw [hS, strideOf_succ hk]
      push_cast; ring
    have hdig : ∀ i : Nat, i < dims.getD (k + 1) 0 → ∀ e ∈ order dims incs k (((q * dims.getD (k + 1) 0 + i) * strideOf dims (k + 1) : Nat) : Int),
        digit dims e (k + 1) = i := by
      intro i hi e he
      have := (order_perm dims incs hinc k _ (by omega)).mem_iff.1 he
      obtain ⟨r, hr, rfl⟩ := List.mem_map.1 this
      have hr' := List.mem_range.1 hr
      have e2 : (q * dims.getD (k + 1) 0 + i) * strideOf dims (k + 1) + r = q * strideOf dims (k + 1 + 1) + i * strideOf dims (k + 1) + r := by
        rw [strideOf_succ hk]; ring
      show digit dims ((q * dims.getD (k + 1) 0 + i) * strideOf dims (k + 1) + r) (k + 1) = i
      rw [e2]
      exact digit_block hk hp hi hr'
    constructor
    · intro x hx
      obtain ⟨i, hi, rfl⟩ := mem_loopVals _ (hinc (k + 1)) _ hx
      rw [ecast]
      refine List.Pairwise.imp_of_mem ?_ (ih (q * dims.getD (k + 1) 0 + i) (by omega))
      rintro a b ha hb ⟨m, hm, h1, h2⟩
      refine ⟨m, by omega, h1, ?_⟩
      intro l hl1 hl2
      by_cases hl : l = k + 1
      · subst hl; rw [hdig i hi a ha, hdig i hi b hb]
      · exact h2 l hl1 (by omega)
    · refine List.Pairwise.imp_of_mem ?_ (loopVals_pairwise _ (hinc (k + 1)) _)
      intro x y hx hy h a ha b hb
      obtain ⟨i, hi, rfl⟩ := mem_loopVals _ (hinc (k + 1)) _ hx
      obtain ⟨j, hj, rfl⟩ := mem_loopVals _ (hinc (k + 1)) _ hy
      rw [ecast] at ha hb
      refine ⟨k + 1, by omega, ?_, fun l h1 h2 => by omega⟩
      rw [hdig i hi a ha, hdig j hj b hb]
      exact h

/-- the whole sweep -/
theorem sweepOrder_before (hp : ∀ x ∈ dims, 0 < x) (hne : dims ≠ []) (hd : IsDirs dims.length incs) : (sweepOrder dims incs).Pairwise (Before dims incs dims.length) := by
  have hl : 0 < dims.length := List.length_pos_iff.2 hne
  have := order_before hp (fun k => hd.getD k) (dims.length - 1) 0 (by omega)
  rw [Nat.zero_mul, Nat.cast_zero, show dims.length - 1 + 1 = dims.length by omega] at this
  exact this

/-- a cell that differs from `i` in one coordinate only, by a step against the direction of the sweep, has been visited when `i` is visited -/
theorem upwind_visited (hp : ∀ x ∈ dims, 0 < x) (hne : dims ≠ []) (hd : IsDirs dims.length incs) {l1 l2 : List Nat} {i j k : Nat}
    (hsp : sweepOrder dims incs = l1 ++ i :: l2) (hj : j < dims.prod) (h1 : ((digit dims j k : Int) - digit dims i k) * incs.getD k 1 < 0)
    (h2 : ∀ m, m < dims.length → m ≠ k → digit dims j m = digit dims i m) : j ∈ l1 := by
  have hmem : j ∈ sweepOrder dims incs := by
    rw [(C21_sweep_visits_each_once dims hne incs hd).mem_iff]; simpa using hj
  rw [hsp, List.mem_append, List.mem_cons] at hmem
  rcases hmem with h | rfl | h
  · exact h
  · simp at h1
  · exfalso
    have hpw := sweepOrder_before hp hne hd
    rw [hsp, List.pairwise_append] at hpw
    obtain ⟨m, hm, h3, -⟩ := (List.pairwise_cons.1 hpw.2.1).1 j h
    by_cases hmk : m = k
    · subst hmk; omega
    · rw [h2 m hm hmk] at h3; simp at h3

end FSM
end FMV
