import Verif.Model.FSM
import Verif.Lemmas.Shape
import Mathlib.Data.List.Perm.Basic
import Mathlib.Data.List.Perm.Lattice
import Mathlib.Data.Nat.Bits
import Mathlib.Data.List.OfFn
import Mathlib.Logic.Function.Iterate
/-!
# C21, C22: the sweeps of FSM and LSM
-/
set_option linter.unusedSectionVars false
set_option linter.unusedVariables false
namespace FMV
open Shape
namespace FSM

theorem forInts_up (f : Nat) : ∀ (i : Int) (n : Nat), n < f →
    forInts f i (i + n) 1 = (List.range n).map (fun k : Nat => i + (k : Int)) := by
  induction f with
  | zero => intro i n h; omega
  | succ f ih =>
    intro i n h
    unfold forInts
    cases n with
    | zero => simp
    | succ n =>
      rw [if_neg (by omega)]
      have : i + ((n + 1 : Nat) : Int) = (i + 1) + (n : Int) := by push_cast; omega
      rw [this, ih (i+1) n (by omega), List.range_succ_eq_map]
      simp only [List.map_cons, List.map_map, Nat.cast_zero, Int.add_zero]
      congr 1
      apply List.map_congr_left
      intro k _
      simp only [Function.comp, Nat.succ_eq_add_one]
      push_cast; omega

theorem forInts_down (f : Nat) : ∀ (n : Nat), n < f →
    forInts f ((n : Int) - 1) (-1) (-1) = ((List.range n).map (fun k : Nat => (k : Int))).reverse := by
  induction f with
  | zero => intro n h; omega
  | succ f ih =>
    intro n h
    unfold forInts
    cases n with
    | zero => simp
    | succ n =>
      rw [if_neg (by push_cast; omega)]
      have : ((n + 1 : Nat) : Int) - 1 + -1 = (n : Int) - 1 := by push_cast; omega
      rw [this, ih n (by omega), List.range_succ]
      simp

/-- the values of one loop are `0..size-1`, upwards or downwards -/
theorem loopVals_eq (inc : Int) (hinc : inc = 1 ∨ inc = -1) (size : Nat) :
    loopVals inc size = if inc = 1 then (List.range size).map (fun k : Nat => (k : Int))
      else ((List.range size).map (fun k : Nat => (k : Int))).reverse := by
  unfold loopVals initOf endOf
  rcases hinc with rfl | rfl
  · simp only [if_true]
    have := forInts_up (size+1) 0 size (by omega)
    simpa using this
  · have : ¬ ((-1 : Int) = 1) := by decide
    simp only [if_neg this]
    exact forInts_down (size+1) size (by omega)

theorem loopVals_perm (inc : Int) (hinc : inc = 1 ∨ inc = -1) (size : Nat) :
    (loopVals inc size).Perm ((List.range size).map (fun k : Nat => (k : Int))) := by
  rw [loopVals_eq inc hinc]
  split
  · exact List.Perm.refl _
  · exact List.reverse_perm _

theorem range_mul_perm (s P : Nat) :
    (List.range s).flatMap (fun i => (List.range P).map (fun k => i * P + k)) = List.range (s * P) := by
  induction s with
  | zero => simp
  | succ s ih =>
    rw [List.range_succ, List.flatMap_append, ih, Nat.succ_mul, List.range_add]
    simp

theorem order_perm (dims : List Nat) (incs : List Int) (hinc : ∀ k, incs.getD k 1 = 1 ∨ incs.getD k 1 = -1) :
    ∀ (k : Nat) (it : Nat), k < dims.length →
      (order dims incs k (it : Int)).Perm ((List.range (dims.take (k+1)).prod).map (fun m => it + m)) := by
  intro k
  induction k with
  | zero =>
    intro it hk
    unfold order
    refine ((loopVals_perm _ (hinc 0) _).map _).trans ?_
    have : (dims.take (0+1)).prod = dims.getD 0 0 := by
      cases dims with
      | nil => simp at hk
      | cons a l => simp
    rw [this, List.map_map]
    apply List.Perm.of_eq
    apply List.map_congr_left
    intro m _
    simp only [Function.comp]
    omega
  | succ k ih =>
    intro it hk
    unfold order
    have hP : (dims.take (k+1+1)).prod = dims.getD (k+1) 0 * (dims.take (k+1)).prod := by
      rw [List.prod_take_succ dims (k+1) hk, Nat.mul_comm]
      simp [List.getD_eq_getElem?_getD, hk]
    refine ((loopVals_perm _ (hinc (k+1)) _).flatMap_right _).trans ?_
    rw [hP, ← range_mul_perm, List.map_flatMap, List.flatMap_map]
    apply List.Perm.flatMap_left
    intro i _
    have e : (it : Int) + (i : Int) * ((dims.take (k+1)).prod : Nat) = ((it + i * (dims.take (k+1)).prod : Nat) : Int) := by
      push_cast; ring
    rw [e]
    refine (ih _ (by omega)).trans ?_
    rw [List.map_map]
    apply List.Perm.of_eq
    apply List.map_congr_left
    intro m _
    simp only [Function.comp]
    ring

/-- a direction vector: one entry `1` or `-1` per dimension -/
def IsDirs (n : Nat) (incs : List Int) : Prop := incs.length = n ∧ ∀ x ∈ incs, x = 1 ∨ x = -1

theorem IsDirs.getD {n : Nat} {incs : List Int} (h : IsDirs n incs) (k : Nat) : incs.getD k 1 = 1 ∨ incs.getD k 1 = -1 := by
  rcases Nat.lt_or_ge k incs.length with hk | hk
  · rw [List.getD_eq_getElem?_getD, List.getElem?_eq_getElem hk]
    exact h.2 _ (List.getElem_mem hk)
  · rw [List.getD_eq_getElem?_getD, List.getElem?_eq_none hk]; left; rfl

/-- **C21**: one sweep visits every index of the grid exactly once, in every direction combination, dimension and size. -/
theorem _root_.FMV.C21_sweep_visits_each_once (dims : List Nat) (hne : dims ≠ []) (incs : List Int) (hd : IsDirs dims.length incs) :
    (sweepOrder dims incs).Perm (List.range dims.prod) := by
  have hl : 0 < dims.length := List.length_pos_iff.2 hne
  have := order_perm dims incs (fun k => hd.getD k) (dims.length - 1) 0 (by omega)
  unfold sweepOrder
  refine this.trans ?_
  rw [show dims.length - 1 + 1 = dims.length by omega, List.take_length]
  simp

/-- The loops of a sweep end: after `size` increments the loop variable equals the end value (so the fuel of `loopVals` is not
exhausted), and not before. -/
theorem _root_.FMV.C21_loop_ends (inc : Int) (hinc : inc = 1 ∨ inc = -1) (size : Nat) (k : Nat) :
    (initOf inc size + k * inc = endOf inc size ↔ k = size) := by
  unfold initOf endOf
  rcases hinc with rfl | rfl
  · simp
  · simp; omega

/-! ## C22 -/

/-- the direction vector whose entry `k` is forward iff bit `k` of `m` is set -/
def dirsOf (n m : Nat) : List Int := (List.range n).map (fun k => if m.testBit k then 1 else -1)

theorem dirsOf_succ (n m : Nat) : dirsOf (n+1) m = (if m % 2 = 1 then 1 else -1) :: dirsOf n (m / 2) := by
  unfold dirsOf
  rw [List.range_succ_eq_map]
  simp only [List.map_cons, List.map_map]
  congr 1
  · simp [Nat.testBit_zero]
  · apply List.map_congr_left
    intro k _
    simp [Function.comp, Nat.testBit_succ]

theorem bump_dirsOf (n : Nat) : ∀ m, bump (dirsOf n m) = dirsOf n (m+1) := by
  induction n with
  | zero => intro m; rfl
  | succ n ih =>
    intro m
    rw [dirsOf_succ, dirsOf_succ]
    unfold bump
    rcases Nat.mod_two_eq_zero_or_one m with h | h
    · have h1 : (m+1) % 2 = 1 := by omega
      have h2 : (m+1)/2 = m/2 := by omega
      simp [h, h1, h2]
    · have h1 : (m+1) % 2 = 0 := by omega
      have h2 : (m+1)/2 = m/2 + 1 := by omega
      simp [h, h1, h2, ih]

theorem dirsOf_pred (n : Nat) : dirsOf n (2^n - 1) = List.replicate n 1 := by
  apply List.ext_getElem
  · simp [dirsOf]
  · intro k h1 h2
    have hk : k < n := by simpa [dirsOf] using h1
    simp [dirsOf, Nat.testBit_two_pow_sub_one, hk]

theorem dirsOf_mod (n m : Nat) : dirsOf n (m % 2^n) = dirsOf n m := by
  unfold dirsOf
  apply List.map_congr_left
  intro k hk
  rw [List.mem_range] at hk
  simp [Nat.testBit_mod_two_pow, hk]

theorem dirsOf_inj (n : Nat) : ∀ {a b : Nat}, a < 2^n → b < 2^n → dirsOf n a = dirsOf n b → a = b := by
  induction n with
  | zero => intro a b ha hb _; omega
  | succ n ih =>
    intro a b ha hb h
    rw [dirsOf_succ, dirsOf_succ, List.cons.injEq] at h
    have h2 := ih (by omega) (by omega) h.2
    have h1 : a % 2 = b % 2 := by
      have := h.1
      rcases Nat.mod_two_eq_zero_or_one a with ha | ha <;> rcases Nat.mod_two_eq_zero_or_one b with hb | hb <;>
        simp [ha, hb] at this ⊢
    omega

theorem exists_dirsOf (n : Nat) : ∀ {incs : List Int}, IsDirs n incs → ∃ m < 2^n, dirsOf n m = incs := by
  induction n with
  | zero =>
    rintro incs ⟨h, _⟩
    exact ⟨0, by simp, by rw [List.length_eq_zero_iff.1 h]; rfl⟩
  | succ n ih =>
    rintro incs ⟨h, h'⟩
    cases incs with
    | nil => simp at h
    | cons c cs =>
      obtain ⟨m, hm, e⟩ := ih (incs := cs) ⟨by simpa using h, fun x hx => h' x (by simp [hx])⟩
      rcases h' c (by simp) with rfl | rfl
      · refine ⟨2*m+1, by omega, ?_⟩
        rw [dirsOf_succ, show (2*m+1)/2 = m by omega, e]; simp
      · refine ⟨2*m, by omega, ?_⟩
        rw [dirsOf_succ, show (2*m)/2 = m by omega, e]; simp

theorem isDirs_dirsOf (n m : Nat) : IsDirs n (dirsOf n m) := by
  refine ⟨by simp [dirsOf], ?_⟩
  intro x hx
  unfold dirsOf at hx
  rw [List.mem_map] at hx
  obtain ⟨k, _, rfl⟩ := hx
  split
  · exact Or.inl rfl
  · exact Or.inr rfl

/-- the directions used by the sweep number `k` (counted from 0) after `initializeSweepArrays` -/
def dirsAt (dims : List Nat) (k : Nat) : List Int := bump^[k+1] (incs0 dims)

theorem iter_bump (n m : Nat) : ∀ k, bump^[k] (dirsOf n m) = dirsOf n (m + k) := by
  intro k
  induction k with
  | zero => rfl
  | succ k ih => rw [Function.iterate_succ_apply', ih, bump_dirsOf]; rfl

theorem dirsAt_eq (dims : List Nat) (k : Nat) : dirsAt dims k = dirsOf dims.length k := by
  unfold dirsAt incs0
  rw [← dirsOf_pred, iter_bump]
  rw [← dirsOf_mod]
  have : 2^dims.length - 1 + (k+1) = k + 2^dims.length := by
    have := Nat.one_le_two_pow (n := dims.length); omega
  rw [this, Nat.add_mod_right, dirsOf_mod]

/-- **C22**: the first sweep goes backwards in every dimension; sweep `k` goes forward in dimension `i` iff bit `i` of `k` is set;
any `2^n` consecutive sweeps use every one of the `2^n` direction combinations exactly once; the pattern is periodic with period
`2^n`. -/
theorem _root_.FMV.C22_direction_cycle (dims : List Nat) :
    dirsAt dims 0 = List.replicate dims.length (-1) ∧
    (∀ k i, i < dims.length → (dirsAt dims k)[i]? = some (if k.testBit i then 1 else -1)) ∧
    (∀ k, dirsAt dims (k + 2^dims.length) = dirsAt dims k) ∧
    (∀ k incs, IsDirs dims.length incs → ∃ j, j < 2^dims.length ∧ dirsAt dims (k + j) = incs ∧
      ∀ j', j' < 2^dims.length → dirsAt dims (k + j') = incs → j' = j) := by
  refine ⟨?_, ?_, ?_, ?_⟩
  · rw [dirsAt_eq]
    apply List.ext_getElem
    · simp [dirsOf]
    · intro i h1 h2; simp [dirsOf]
  · intro k i hi
    rw [dirsAt_eq]; simp [dirsOf, hi]
  · intro k
    rw [dirsAt_eq, dirsAt_eq, ← dirsOf_mod, Nat.add_mod_right, dirsOf_mod]
  · intro k incs hd
    obtain ⟨m, hm, e⟩ := exists_dirsOf _ hd
    have hp : 0 < 2^dims.length := by positivity
    have hk := Nat.mod_lt k hp
    set M := 2^dims.length with hM
    have hdm := Nat.div_add_mod k M
    have key : ∀ j, (k + j) % M = (k % M + j) % M := by intro j; rw [Nat.mod_add_mod]
    have hj : ∃ j, j < M ∧ (k + j) % M = m := by
      rcases Nat.lt_or_ge m (k % M) with h1 | h1
      · refine ⟨m + M - k % M, by omega, ?_⟩
        rw [key, show k % M + (m + M - k % M) = m + M by omega, Nat.add_mod_right, Nat.mod_eq_of_lt hm]
      · refine ⟨m - k % M, by omega, ?_⟩
        rw [key, show k % M + (m - k % M) = m by omega, Nat.mod_eq_of_lt hm]
    obtain ⟨j, hjM, hjm⟩ := hj
    refine ⟨j, hjM, by rw [dirsAt_eq, ← dirsOf_mod, ← hM, hjm, e], ?_⟩
    intro j' hj' he
    rw [dirsAt_eq, ← dirsOf_mod, ← hM, ← e] at he
    have h3 := dirsOf_inj _ (Nat.mod_lt _ hp) hm he
    rw [key] at h3 hjm
    rcases Nat.lt_or_ge (k % M + j) M with a | a <;> rcases Nat.lt_or_ge (k % M + j') M with b | b
    · rw [Nat.mod_eq_of_lt a] at hjm; rw [Nat.mod_eq_of_lt b] at h3; omega
    · rw [Nat.mod_eq_of_lt a] at hjm; rw [Nat.mod_eq_sub_mod b, Nat.mod_eq_of_lt (by omega)] at h3; omega
    · rw [Nat.mod_eq_sub_mod a, Nat.mod_eq_of_lt (by omega)] at hjm; rw [Nat.mod_eq_of_lt b] at h3; omega
    · rw [Nat.mod_eq_sub_mod a, Nat.mod_eq_of_lt (by omega)] at hjm
      rw [Nat.mod_eq_sub_mod b, Nat.mod_eq_of_lt (by omega)] at h3; omega

/-- non-vacuity: the third sweep of a 2x3 grid visits the cells in this order -/
example : dirsAt [2,3] 2 = [-1, 1] ∧ sweepOrder [2,3] [-1, 1] = [1, 0, 3, 2, 5, 4] := by decide

end FSM
end FMV
