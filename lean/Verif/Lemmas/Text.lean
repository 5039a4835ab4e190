import Verif.Spec.Benchmark
import Mathlib.Tactic.Ring
import Mathlib.Tactic.Linarith
import Mathlib.Tactic.IntervalCases
/-
Facts about the decimal representation.
-/
namespace FMV.Text
open Console Spec

theorem digit_mem {d : Nat} (h : d < 10) : digitChar d ∈ "0123456789".toList := by
  interval_cases d <;> decide

theorem digit_val {d : Nat} (h : d < 10) : (digitChar d).toNat - 48 = d := by
  interval_cases d <;> decide

theorem decimal_lt {n : Nat} (h : n < 10) : decimal n = [digitChar n] := by unfold decimal; rw [if_pos h]
theorem decimal_ge {n : Nat} (h : ¬ n < 10) : decimal n = decimal (n/10) ++ [digitChar (n % 10)] := by conv_lhs => unfold decimal
                                                                                                       rw [if_neg h]

theorem decimal_number (n : Nat) : IsNumber (decimal n) := by
  induction n using Nat.strong_induction_on with
  | _ n ih =>
    by_cases h : n < 10
    · rw [decimal_lt h]; exact ⟨by simp, by intro c hc; rw [List.mem_singleton.1 hc]; exact digit_mem h⟩
    · rw [decimal_ge h]
      have := ih (n/10) (by omega)
      refine ⟨by simp, ?_⟩
      intro c hc
      rcases List.mem_append.1 hc with hc | hc
      · exact this.2 c hc
      · rw [List.mem_singleton.1 hc]; exact digit_mem (Nat.mod_lt _ (by norm_num))

theorem readNat_append (s : Str) (c : Char) : readNat (s ++ [c]) = 10 * readNat s + (c.toNat - 48) := by
  unfold readNat; rw [List.foldl_append]; rfl

theorem read_decimal (n : Nat) : readNat (decimal n) = n := by
  induction n using Nat.strong_induction_on with
  | _ n ih =>
    by_cases h : n < 10
    · rw [decimal_lt h]
      show 10 * 0 + _ = n
      rw [digit_val h]; omega
    · rw [decimal_ge h, readNat_append, ih (n/10) (by omega), digit_val (Nat.mod_lt _ (by norm_num))]
      omega

theorem read_zeros (k : Nat) (s : Str) : readNat (List.replicate k '0' ++ s) = readNat s := by
  unfold readNat
  rw [List.foldl_append]
  congr 1
  induction k with
  | zero => rfl
  | succ k ih => rw [List.replicate_succ, List.foldl_cons]; exact ih

theorem read_padded (w n : Nat) : readNat (padded w n) = n := by unfold padded; rw [read_zeros, read_decimal]

theorem padded_number (w n : Nat) : IsNumber (padded w n) := by
  unfold padded
  refine ⟨fun h => (decimal_number n).1 (List.append_eq_nil_iff.1 h).2, ?_⟩
  intro c hc
  rcases List.mem_append.1 hc with hc | hc
  · rw [(List.mem_replicate.1 hc).2]; decide
  · exact (decimal_number n).2 c hc

theorem padded_length (w n : Nat) : w ≤ (padded w n).length := by unfold padded; simp; omega

/-- padding adds nothing to long numbers -/
theorem padded_long {w n : Nat} (h : w ≤ (decimal n).length) : padded w n = decimal n := by
  unfold padded; rw [show w - (decimal n).length = 0 by omega]; rfl

end FMV.Text
