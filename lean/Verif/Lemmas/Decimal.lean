import Verif.Model.Decimal
import Verif.Lemmas.IO
import Verif.Spec.Decimal
import Verif.Lemmas.Text
import Verif.Lemmas.F64Err
import Mathlib.Tactic.Linarith
import Mathlib.Tactic.Ring
import Mathlib.Tactic.NormNum
/-
Lemmas about the printing and reading of doubles: the text and its value.
-/
namespace FMV.Decimal
open Console Text FMV.IO Spec

theorem digitsVal_eq (s : Str) : digitsVal s = readNat s := rfl

theorem strip_eq (s : Str) : ∃ k, s = strip s ++ List.replicate k '0' := by
  refine ⟨(s.reverse.takeWhile (· = '0')).length, ?_⟩
  have h1 := List.takeWhile_append_dropWhile (p := fun c : Char => decide (c = '0')) (l := s.reverse)
  have h2 : s.reverse.takeWhile (fun c : Char => decide (c = '0')) = List.replicate (s.reverse.takeWhile (fun c : Char => decide (c = '0'))).length '0' := by
    refine List.eq_replicate_of_mem fun c hc => ?_
    simpa using List.all_eq_true.1 List.all_takeWhile c hc
  have h3 := congrArg List.reverse h1
  rw [List.reverse_append, List.reverse_reverse] at h3
  conv_lhs => rw [← h3]
  unfold strip
  congr 1
  conv_lhs => rw [h2]
  rw [List.reverse_replicate]

theorem readNat_zeros (s : Str) (k : Nat) : readNat (s ++ List.replicate k '0') = readNat s * 10^k := by
  induction k with
  | zero => simp
  | succ k ih =>
    rw [List.replicate_succ', ← List.append_assoc, Text.readNat_append, ih, show ('0':Char).toNat - 48 = 0 by decide, pow_succ]; ring

theorem strip_digits {s : Str} (h : Digits s) : Digits (strip s) := by
  obtain ⟨k, hk⟩ := strip_eq s
  intro c hc
  exact h c (by rw [hk]; exact List.mem_append_left _ hc)

/-- removing zeros at the end of the fraction does not change the value -/
theorem strip_value (int s : Str) : (readNat (int ++ strip s) : ℝ) * (10:ℝ)^(-((strip s).length : ℤ)) = (readNat (int ++ s) : ℝ) * (10:ℝ)^(-(s.length : ℤ)) := by
  obtain ⟨k, hk⟩ := strip_eq s
  generalize strip s = t at hk
  subst hk
  rw [← List.append_assoc, readNat_zeros]
  push_cast
  rw [List.length_append, List.length_replicate, mul_assoc]
  congr 1
  rw [← zpow_natCast, ← zpow_add₀ (by norm_num)]
  congr 1; push_cast; ring

theorem takeWhile_stop {s r : Str} (hs : Digits s) (hr : ∀ c ∈ r.head?, isDigit c = false) : (s ++ r).takeWhile isDigit = s ∧ (s ++ r).dropWhile isDigit = r := by
  induction s with
  | nil =>
    cases r with
    | nil => simp
    | cons c r => have := hr c (by simp); simp [this]
  | cons c s ih =>
    have hc : isDigit c = true := isDigit_iff.2 (hs c (by simp))
    have := ih (fun x hx => hs x (by simp [hx]))
    simp [hc, this.1, this.2]

theorem digit_ne {c : Char} (h : isDigit c = true) : c ≠ '-' ∧ c ≠ '+' ∧ c ≠ '.' := by
  rcases digit_cases h with rfl | rfl | rfl | rfl | rfl | rfl | rfl | rfl | rfl | rfl <;> decide

theorem expo_text {sg : Char} (hsg : sg = '+' ∨ sg = '-') {ds : Str} (h : IsNumber ds) :
    expo ('e' :: sg :: ds) = some ((if sg = '-' then -1 else 1) * (readNat ds : ℤ)) := by
  have ha : ds.all isDigit = true := by rw [List.all_eq_true]; exact fun c hc => isDigit_iff.2 (h.2 c hc)
  rcases hsg with rfl | rfl <;> simp [expo, h.1, ha, digitsVal_eq]

/-- the parts of a number text and the number it stands for -/
theorem parse_parts {sign int f exp : Str} {e : ℤ} (hsign : sign = [] ∨ sign = ['-']) (hint : IsNumber int) (hf : Digits f)
    (hexp : (exp = [] ∧ e = 0) ∨ ∃ sg ds, exp = 'e' :: sg :: ds ∧ (sg = '+' ∨ sg = '-') ∧ IsNumber ds ∧ e = (if sg = '-' then -1 else 1) * (readNat ds : ℤ)) :
    parse (sign ++ int ++ point f ++ exp) = some ((if sign = [] then 1 else -1) * (readNat (int ++ f) : ℤ), e - f.length) := by
  have hx : expo exp = some e := by
    rcases hexp with ⟨rfl, rfl⟩ | ⟨sg, ds, rfl, h1, h2, rfl⟩
    · rfl
    · exact expo_text h1 h2
  have hxh : ∀ c ∈ exp.head?, isDigit c = false ∧ c ≠ '.' := by
    rcases hexp with ⟨rfl, rfl⟩ | ⟨sg, ds, rfl, h1, h2, rfl⟩
    · simp
    · intro c hc; simp at hc; subst hc; decide
  obtain ⟨c, cs, rfl⟩ : ∃ c cs, int = c :: cs := by
    cases int with
    | nil => exact absurd rfl hint.1
    | cons c cs => exact ⟨c, cs, rfl⟩
  have hc := digit_ne (isDigit_iff.2 (hint.2 c (by simp)))
  have hs1 : (if (sign ++ (c :: cs) ++ point f ++ exp).head? = some '-' ∨ (sign ++ (c :: cs) ++ point f ++ exp).head? = some '+' then
      (sign ++ (c :: cs) ++ point f ++ exp).tail else (sign ++ (c :: cs) ++ point f ++ exp)) = (c :: cs) ++ (point f ++ exp) := by
    rcases hsign with rfl | rfl
    · simp [hc.1, hc.2.1]
    · simp
  have hneg : (if (sign ++ (c :: cs) ++ point f ++ exp).head? = some '-' then (-1:ℤ) else 1) = (if sign = [] then 1 else -1) := by
    rcases hsign with rfl | rfl
    · simp [hc.1]
    · simp
  have hpe : ∀ d ∈ (point f ++ exp).head?, isDigit d = false := by
    unfold point
    split
    · rw [List.nil_append]; exact fun d hd => (hxh d hd).1
    · intro d hd; simp at hd; subst hd; decide
  have ht := takeWhile_stop (s := c :: cs) (r := point f ++ exp) hint.2 hpe
  unfold parse
  simp only [hs1, hneg, ht.1, ht.2]
  by_cases hf0 : f = []
  · subst hf0
    have hh : exp.head? ≠ some '.' := fun h => (hxh '.' h).2 rfl
    simp only [point, if_true, List.nil_append, if_neg hh, List.append_nil, hx]
    simp [digitsVal_eq]
  · have hp : point f = '.' :: f := by unfold point; rw [if_neg hf0]
    have h2 := takeWhile_stop (s := f) (r := exp) hf (fun d hd => (hxh d hd).1)
    rw [hp]
    simp only [List.cons_append, List.head?_cons, List.tail_cons, if_true, h2.1, h2.2, hx]
    simp [digitsVal_eq]

theorem textValue_parts {sign int f exp : Str} {e : ℤ} (hsign : sign = [] ∨ sign = ['-']) (hint : IsNumber int) (hf : Digits f)
    (hexp : (exp = [] ∧ e = 0) ∨ ∃ sg ds, exp = 'e' :: sg :: ds ∧ (sg = '+' ∨ sg = '-') ∧ IsNumber ds ∧ e = (if sg = '-' then -1 else 1) * (readNat ds : ℤ)) :
    TextValue (sign ++ int ++ point f ++ exp) ((if sign = [] then 1 else -1) * (readNat (int ++ f) : ℝ) * (10:ℝ)^(e - f.length)) := by
  have h10 : (10:ℝ) ≠ 0 := by norm_num
  have hs : ∃ neg : Bool, sign = (if neg then ['-'] else []) ∧ (if sign = [] then (1:ℝ) else -1) = if neg then -1 else 1 := by
    rcases hsign with rfl | rfl
    · exact ⟨false, by simp, by simp⟩
    · exact ⟨true, by simp, by simp⟩
  obtain ⟨neg, hs1, hs2⟩ := hs
  rw [hs2]
  rcases hexp with ⟨rfl, rfl⟩ | ⟨sg, ds, rfl, hsg, hds, rfl⟩
  · refine ⟨neg, int, f, none, hint, hf, by simp, by rw [← hs1]; rfl, ?_⟩
    rw [zero_sub, zpow_neg, zpow_natCast]
    simp [div_eq_mul_inv]
  · refine ⟨neg, int, f, some (decide (sg = '-'), ds), hint, hf, by simpa using hds, ?_, ?_⟩
    · rw [← hs1]
      rcases hsg with rfl | rfl <;> rfl
    · rw [zpow_sub₀ h10, zpow_natCast]
      rcases hsg with rfl | rfl
      · simp only [show ('+':Char) ≠ '-' by decide, if_false, one_mul, zpow_natCast, decide_false, Bool.false_eq_true]
        ring
      · simp only [if_true, neg_one_mul, zpow_neg, zpow_natCast, decide_true]
        ring

theorem parts_text {sign int f exp : Str} (hsign : sign = [] ∨ sign = ['-']) (hint : IsNumber int) (hf : Digits f)
    (hexp : exp = [] ∨ ∃ sg ds, exp = 'e' :: sg :: ds ∧ (sg = '+' ∨ sg = '-') ∧ IsNumber ds) : FloatText (sign ++ int ++ point f ++ exp) := by
  refine ⟨sign, int, point f, exp, rfl, hsign, hint, ?_, hexp⟩
  unfold point
  split
  · exact .inl rfl
  · exact .inr ⟨f, rfl, hf⟩

theorem decimal_six {m : Nat} (h1 : 10^5 ≤ m) (h2 : m < 10^6) : (decimal m).length = 6 := by
  rw [decimal_ge (by omega), decimal_ge (by omega), decimal_ge (by omega), decimal_ge (by omega), decimal_ge (by omega), decimal_lt (by omega)]
  rfl

/-- the text of six digits is a number text that stands for them -/
theorem gText_value {m : Nat} {X : ℤ} (h1 : 10^5 ≤ m) (h2 : m < 10^6) {sign : Str} (hsign : sign = [] ∨ sign = ['-']) :
    FloatText (sign ++ gText m X) ∧ TextValue (sign ++ gText m X) ((if sign = [] then 1 else -1) * ((m:ℝ) * (10:ℝ)^(X - 5))) ∧ ∃ n k, parse (sign ++ gText m X) = some (n, k) ∧ (n:ℝ) * (10:ℝ)^k = (if sign = [] then 1 else -1) * ((m:ℝ) * (10:ℝ)^(X - 5)) := by
  have hl := decimal_six h1 h2
  have hd := decimal_number m
  have key : ∀ (int s exp : Str) (e : ℤ), IsNumber int → Digits s → readNat (int ++ s) = m → e - s.length = X - 5 →
      ((exp = [] ∧ e = 0) ∨ ∃ sg ds, exp = 'e' :: sg :: ds ∧ (sg = '+' ∨ sg = '-') ∧ IsNumber ds ∧ e = (if sg = '-' then -1 else 1) * (readNat ds : ℤ)) →
      FloatText (sign ++ int ++ point (strip s) ++ exp) ∧ TextValue (sign ++ int ++ point (strip s) ++ exp) ((if sign = [] then 1 else -1) * ((m:ℝ) * (10:ℝ)^(X - 5))) ∧ ∃ n k, parse (sign ++ int ++ point (strip s) ++ exp) = some (n, k) ∧
        (n:ℝ) * (10:ℝ)^k = (if sign = [] then 1 else -1) * ((m:ℝ) * (10:ℝ)^(X - 5)) := by
    intro int s exp e hi hs hm he hx
    have hval : (if sign = [] then (1:ℝ) else -1) * (readNat (int ++ strip s) : ℝ) * (10:ℝ)^(e - ((strip s).length : ℤ)) = (if sign = [] then 1 else -1) * ((m:ℝ) * (10:ℝ)^(X - 5)) := by
      have := strip_value int s
      rw [hm] at this
      rw [← he, sub_eq_add_neg, sub_eq_add_neg, zpow_add₀ (by norm_num), zpow_add₀ (by norm_num)]
      have e2 : (if sign = [] then (1:ℝ) else -1) * (readNat (int ++ strip s) : ℝ) * ((10:ℝ)^e * (10:ℝ)^(-((strip s).length : ℤ))) =
        (if sign = [] then (1:ℝ) else -1) * (10:ℝ)^e * ((readNat (int ++ strip s) : ℝ) * (10:ℝ)^(-((strip s).length : ℤ))) := by ring
      rw [e2, this]; ring
    refine ⟨parts_text hsign hi (strip_digits hs) ?_, ?_, _, _, parse_parts hsign hi (strip_digits hs) hx, ?_⟩
    · rcases hx with ⟨h, -⟩ | ⟨sg, ds, h, h', h'', -⟩
      · exact .inl h
      · exact .inr ⟨sg, ds, h, h', h''⟩
    · rw [← hval]; exact textValue_parts hsign hi (strip_digits hs) hx
    · rw [← hval]; push_cast; rfl
  have htake : ∀ j, IsNumber ((decimal m).take (j + 1)) := by
    intro j
    refine ⟨?_, fun c hc => hd.2 c (List.mem_of_mem_take hc)⟩
    intro h
    have := congrArg List.length h
    rw [List.length_take, hl] at this
    simp at this
  unfold gText
  split
  · rename_i hX
    split
    · rename_i h0
      have := key ((decimal m).take (X.toNat + 1)) ((decimal m).drop (X.toNat + 1)) [] 0 (htake _) (fun c hc => hd.2 c (List.mem_of_mem_drop hc))
        (by rw [List.take_append_drop, read_decimal]) (by rw [List.length_drop, hl]; omega) (.inl ⟨rfl, rfl⟩)
      simpa [List.append_assoc] using this
    · rename_i h0
      have := key ['0'] (List.replicate ((-X).toNat - 1) '0' ++ decimal m) [] 0 ⟨by simp, by decide⟩
        (by
          intro c hc
          rcases List.mem_append.1 hc with hc | hc
          · rw [List.eq_of_mem_replicate hc]; decide
          · exact hd.2 c hc)
        (by
          rw [← List.append_assoc, show ['0'] ++ List.replicate ((-X).toNat - 1) '0' = List.replicate ((-X).toNat - 1 + 1) '0' by rw [List.replicate_succ]; rfl, read_zeros, read_decimal])
        (by rw [List.length_append, List.length_replicate, hl]; push_cast; omega) (.inl ⟨rfl, rfl⟩)
      simpa [List.append_assoc] using this
  · have := key ((decimal m).take 1) ((decimal m).drop 1) ('e' :: (if X < 0 then '-' else '+') :: padded 2 X.natAbs) X (htake 0)
      (fun c hc => hd.2 c (List.mem_of_mem_drop hc)) (by rw [List.take_append_drop, read_decimal]) (by rw [List.length_drop, hl]; push_cast; ring)
      (.inr ⟨_, _, rfl, by split <;> simp, padded_number _ _, by
        rw [read_padded]
        by_cases h : X < 0
        · rw [if_pos h, if_pos rfl]; omega
        · rw [if_neg h, if_neg (by decide)]; omega⟩)
    simpa [List.append_assoc] using this

end FMV.Decimal
