import Verif.Lemmas.Decimal
import Verif.Lemmas.Decimal2
import Verif.Spec.Decimal
import Verif.Props.IO
/-
C112: numbers in text files have six significant digits.
-/
namespace FMV.Decimal
open Console Text FMV.IO Spec
variable {R : Rounding}

theorem sixDigits_six (m : ℕ) (X : ℤ) (h : m < 10^6) : SixDigits ((m:ℝ) * (10:ℝ)^(X-5)) :=
  ⟨m, X - 5, by rw [Nat.abs_cast]; exact_mod_cast h, by push_cast; rfl⟩

theorem sixDigits_neg {d : ℝ} (h : SixDigits d) : SixDigits (-d) := by
  obtain ⟨m, k, h1, rfl⟩ := h
  exact ⟨-m, k, by rwa [abs_neg], by push_cast; ring⟩

theorem scale_up : ∀ (j n : ℕ), 0 < n → 10^5 ≤ n * 10^j → n < 10^6 → ∃ i, 10^5 ≤ n * 10^i ∧ n * 10^i < 10^6 := by
  intro j
  induction j with
  | zero => intro n _ h1 h2; exact ⟨0, by simpa using h1, by simpa using h2⟩
  | succ j ih =>
    intro n h0 h1 h2
    by_cases h : 10^5 ≤ n
    · exact ⟨0, by simpa using h, by simpa using h2⟩
    · obtain ⟨i, a, b⟩ := ih (n * 10) (by omega) (by rw [pow_succ] at h1; rw [mul_assoc, mul_comm 10]; exact h1) (by omega)
      have e : n * 10^(i+1) = n * 10 * 10^i := by ring
      exact ⟨i + 1, by rw [e]; exact a, by rw [e]; exact b⟩

/-- normal form of a number with six significant digits -/
theorem six_normal {d : ℝ} (h : SixDigits d) (hd : 0 < d) : ∃ (m : ℕ) (X : ℤ), 10^5 ≤ m ∧ m < 10^6 ∧ d = (m:ℝ) * (10:ℝ)^(X-5) := by
  obtain ⟨n, k, h1, rfl⟩ := h
  have hk : (0:ℝ) < (10:ℝ)^k := zpow_pos (by norm_num) _
  have hn : 0 < n := by
    have : (0:ℝ) < n := by
      by_contra hc
      exact absurd hd (not_lt.2 (mul_nonpos_of_nonpos_of_nonneg (not_lt.1 hc) hk.le))
    exact_mod_cast this
  rw [abs_of_pos hn] at h1
  obtain ⟨a, rfl⟩ := Int.eq_ofNat_of_zero_le hn.le
  obtain ⟨i, b1, b2⟩ := scale_up 5 a (by omega) (by omega) (by omega)
  refine ⟨a * 10^i, k - i + 5, b1, b2, ?_⟩
  push_cast
  rw [mul_assoc]
  congr 1
  rw [← zpow_natCast, ← zpow_add₀ (by norm_num)]
  congr 1; ring

theorem decPos_six {m : ℕ} {X : ℤ} (h1 : 10^5 ≤ m) (h2 : m < 10^6) : decPos ((m:ℝ) * (10:ℝ)^(X-5)) = (m:ℝ) * (10:ℝ)^(X-5) := by
  have hu : (0:ℝ) < (10:ℝ)^(X-5) := zpow_pos (by norm_num) _
  exact decPos_above h1 h2 le_rfl (by linarith)

theorem dec_six {d : ℝ} (h : SixDigits d) : dec d = d := by
  rcases lt_trichotomy d 0 with hd | rfl | hd
  · obtain ⟨m, X, h1, h2, e⟩ := six_normal (sixDigits_neg h) (by linarith)
    have : dec (-d) = -d := by rw [dec_of_pos (by linarith), e]; exact decPos_six h1 h2
    rw [dec_neg] at this; linarith
  · exact dec_zero
  · obtain ⟨m, X, h1, h2, e⟩ := six_normal h hd
    rw [dec_of_pos hd, e]; exact decPos_six h1 h2

theorem six_dec (x : ℝ) : SixDigits (dec x) := by
  rcases lt_trichotomy x 0 with h | rfl | h
  · obtain ⟨h1, h2, h3⟩ := six_spec (a := -x) (by linarith)
    have := sixDigits_six _ (six (-x)).2 h2
    rw [h3, ← dec_of_pos (by linarith : 0 < -x), dec_neg] at this
    simpa using sixDigits_neg this
  · rw [dec_zero]; exact ⟨0, 0, by norm_num, by simp⟩
  · obtain ⟨h1, h2, h3⟩ := six_spec h
    have := sixDigits_six _ (six x).2 h2
    rwa [h3, ← dec_of_pos h] at this

theorem decPos_nearest {a : ℝ} (h : 0 < a) {t : ℝ} (ht : SixDigits t) : |decPos a - a| ≤ |t - a| := by
  have hu := unit6_pos a
  obtain ⟨l1, l2⟩ := log_bounds h
  have mult : ∀ n : ℤ, |decPos a - a| ≤ |(n:ℝ) * unit6 a - a| := by
    intro n
    have e : ∀ z : ℝ, z * unit6 a - a = (z - a / unit6 a) * unit6 a := by intro z; rw [sub_mul, div_mul_cancel₀ _ hu.ne']
    unfold decPos
    rw [e, e, abs_mul, abs_mul]
    have := roundEven_nearest (a / unit6 a) n
    gcongr
  by_cases hlo : t < 10^5 * unit6 a
  · refine (mult (10^5)).trans ?_
    push_cast
    rw [abs_of_nonpos (by linarith), abs_of_nonpos (by linarith)]
    linarith
  · obtain ⟨m, k, h1, rfl⟩ := ht
    rw [not_lt] at hlo
    have hk : Int.log 10 a - 5 ≤ k := by
      by_contra hc
      have hkk : (10:ℝ)^k * 10 ≤ unit6 a := by
        unfold unit6; rw [← zpow_add_one₀ (by norm_num)]; exact zpow_le_zpow_right₀ (by norm_num) (by omega)
      have hkp : (0:ℝ) < (10:ℝ)^k := zpow_pos (by norm_num) _
      have hm : (m:ℝ) < 10^6 := by exact_mod_cast (abs_lt.1 h1).2
      generalize (10:ℝ)^k = p at *
      nlinarith
    have e : (m:ℝ) * (10:ℝ)^k = ((m * 10^(k - (Int.log 10 a - 5)).toNat : ℤ) : ℝ) * unit6 a := by
      unfold unit6
      push_cast
      rw [mul_assoc, ← zpow_natCast, ← zpow_add₀ (by norm_num), Int.toNat_of_nonneg (by omega)]
      congr 2; ring
    rw [e]
    exact mult _

theorem dec_nearest (x : ℝ) : NearestSix x (dec x) := by
  refine ⟨six_dec x, fun t ht => ?_⟩
  rcases lt_trichotomy x 0 with h | rfl | h
  · have := decPos_nearest (a := -x) (by linarith) (sixDigits_neg ht)
    rw [← dec_of_pos (by linarith : 0 < -x), dec_neg, ← abs_neg, ← abs_neg (-t - -x), show -(-dec x - -x) = dec x - x by ring, show -(-t - -x) = t - x by ring] at this
    exact this
  · rw [dec_zero]; simp
  · rw [dec_of_pos h]; exact decPos_nearest h ht

/-- the text of a finite double and the number read from it -/
theorem fmtG_value {x : F64 R} {r : ℝ} (h : x.1 = .fin r) : FloatText (fmtG x) ∧ TextValue (fmtG x) (dec r) ∧ ∃ n k, parse (fmtG x) = some (n, k) ∧ (n:ℝ) * (10:ℝ)^k = dec r := by
  unfold fmtG
  simp only [h]
  split
  · rename_i h0
    subst h0
    refine ⟨?_, ⟨false, ['0'], [], none, ⟨by simp, by decide⟩, (by intro c hc; cases hc), by simp, by simp, by rw [dec_zero]; simp [readNat]⟩, 0, 0, by decide, by rw [dec_zero]; simp⟩
    have := parts_text (sign := []) (int := ['0']) (f := []) (exp := []) (.inl rfl) ⟨by simp, by decide⟩ (by intro c hc; cases hc) (.inl rfl)
    simpa [point] using this
  · rename_i h0
    obtain ⟨h1, h2, h3⟩ := six_spec (a := |r|) (abs_pos.2 h0)
    by_cases hn : r < 0
    · rw [if_pos hn]
      obtain ⟨a, tv, n, k, b, c⟩ := gText_value (X := (six |r|).2) h1 h2 (sign := ['-']) (.inr rfl)
      have e : (if ['-'] = [] then (1:ℝ) else -1) * (((six |r|).1 : ℝ) * (10:ℝ)^((six |r|).2 - 5)) = dec r := by
        rw [h3, abs_of_neg hn, ← dec_of_pos (by linarith), dec_neg]; simp
      exact ⟨a, e ▸ tv, n, k, b, c.trans e⟩
    · rw [if_neg hn]
      obtain ⟨a, tv, n, k, b, c⟩ := gText_value (X := (six |r|).2) h1 h2 (sign := []) (.inl rfl)
      rw [not_lt] at hn
      have e : (if ([] : Str) = [] then (1:ℝ) else -1) * (((six |r|).1 : ℝ) * (10:ℝ)^((six |r|).2 - 5)) = dec r := by
        rw [h3, abs_of_nonneg hn, ← dec_of_pos (lt_of_le_of_ne hn (Ne.symm h0))]; simp
      exact ⟨a, e ▸ tv, n, k, b, c.trans e⟩

theorem conv_fmtG {x : F64 R} {r : ℝ} (h : x.1 = .fin r) : conv R (fmtG x) = (F64.rnd R (.fin (dec r)), true) ∧ (F64.rnd R (.fin (dec r))).1 = R.rd (dec r) := by
  obtain ⟨-, -, n, k, h1, h2⟩ := fmtG_value h
  obtain ⟨y, hy⟩ := rd_dec R (x.2 r h)
  refine ⟨?_, rfl⟩
  unfold conv
  rw [h1]
  simp only [h2]
  have : (F64.rnd R (.fin (dec r))).1 = .fin y := hy
  rw [this]

/-- what is loaded where `x` was saved -/
noncomputable def reload (x : F64 R) : F64 R := (conv R (fmtG x)).1

theorem reload_val {x : F64 R} {r : ℝ} (h : x.1 = .fin r) : (reload x).1 = R.rd (dec r) := by
  unfold reload; rw [(conv_fmtG h).1]; exact (conv_fmtG h).2

theorem prints_reload {x : F64 R} {r : ℝ} (h : x.1 = .fin r) : Prints fmtG (conv R) x (reload x) := by
  refine ⟨(fmtG_value h).1, ?_⟩
  unfold reload; rw [(conv_fmtG h).1]


theorem big_bounds : (2:ℝ)^(-1000:ℤ) ≤ (10:ℝ)^(-301:ℤ) ∧ (10:ℝ)^(301:ℤ) ≤ (2:ℝ)^(1000:ℤ) := by
  have h : (10:ℕ)^301 ≤ 2^1000 := by decide +kernel
  have a := pow_nat 2 1000
  have b := pow_nat 10 301
  rw [Nat.cast_ofNat, Nat.cast_ofNat] at a b
  have h' : (10:ℝ)^(301:ℤ) ≤ (2:ℝ)^(1000:ℤ) := by rw [a, b]; exact Nat.cast_le.2 h
  refine ⟨?_, h'⟩
  rw [show (-1000:ℤ) = -(1000:ℤ) by norm_num, show (-301:ℤ) = -(301:ℤ) by norm_num, zpow_neg, zpow_neg]
  exact inv_anti₀ (zpow_pos (by norm_num) _) h'

theorem dec_usual {r : ℝ} (h : Usual r) : (10:ℝ)^(-301:ℤ) ≤ |dec r| ∧ |dec r| ≤ (10:ℝ)^(301:ℤ) := by
  have h1 := (abs_sub_abs_le_abs_sub _ _).trans (dec_rel r)
  have h2 : |r| - |dec r| ≤ 5 / 10^6 * |r| := (abs_sub_abs_le_abs_sub r (dec r)).trans (by rw [abs_sub_comm]; exact dec_rel r)
  have e1 : (10:ℝ)^(-300:ℤ) = 10 * (10:ℝ)^(-301:ℤ) := by rw [← zpow_one_add₀ (by norm_num)]; norm_num
  have e2 : (10:ℝ)^(301:ℤ) = 10 * (10:ℝ)^(300:ℤ) := by rw [← zpow_one_add₀ (by norm_num)]; norm_num
  obtain ⟨h3, h4⟩ := h
  rw [e1] at h3
  rw [e2]
  have p1 : (0:ℝ) < (10:ℝ)^(-301:ℤ) := zpow_pos (by norm_num) _
  have p2 : (0:ℝ) < (10:ℝ)^(300:ℤ) := zpow_pos (by norm_num) _
  generalize (10:ℝ)^(-301:ℤ) = u at *
  generalize (10:ℝ)^(300:ℤ) = w at *
  have := abs_nonneg r
  constructor <;> nlinarith

/-- rounding a number with six digits and printing it gives the number back -/
theorem dec_rd {d s : ℝ} (hd : SixDigits d) (h : d = 0 ∨ ((10:ℝ)^(-301:ℤ) ≤ |d| ∧ |d| ≤ (10:ℝ)^(301:ℤ))) (hs : R.rd d = .fin s) : dec s = d := by
  rcases h with rfl | ⟨h1, h2⟩
  · rw [R.exact 0 IsDouble.zero] at hs
    cases hs
    exact dec_zero
  · obtain ⟨s', e, he⟩ := rd_err R (le_refl |d|) (big_bounds.1.trans h1) (h2.trans big_bounds.2)
    rw [hs] at e
    cases e
    have hu : uu * |d| ≤ 1 / 10^8 * |d| := by
      have : uu ≤ 1 / 10^8 := by unfold uu; norm_num
      have := abs_nonneg d
      gcongr
    have hpos : 0 < |d| := lt_of_lt_of_le (zpow_pos (by norm_num) _) h1
    have hle := he.trans hu
    have gen : ∀ {d s : ℝ}, SixDigits d → 0 < d → |s - d| ≤ 1 / 10^8 * |d| → dec s = d := by
      intro d s hd h0 hle
      obtain ⟨m, X, a, b, e⟩ := six_normal hd h0
      rw [abs_of_pos h0] at hle
      have hs0 : 0 < s := by have := (abs_le.1 hle).1; linarith
      rw [dec_of_pos hs0, e]
      rw [e] at hle
      exact decPos_stable a b hle
    rcases lt_or_gt_of_ne (abs_pos.1 hpos) with hn | hn
    · have := gen (d := -d) (s := -s) (sixDigits_neg hd) (by linarith) (by rw [abs_neg, show -s - -d = -(s - d) by ring, abs_neg]; exact hle)
      rw [dec_neg] at this
      linarith
    · exact gen hd hn hle

theorem six_eq {a : ℝ} {m : ℕ} {X : ℤ} (ha : 0 < a) (h1 : 10^5 ≤ m) (h2 : m < 10^6) (h : decPos a = (m:ℝ) * (10:ℝ)^(X-5)) : six a = (m, X) := by
  obtain ⟨a1, a2, a3⟩ := six_spec ha
  have hl : ∀ {m : ℕ} {X : ℤ}, 10^5 ≤ m → m < 10^6 → Int.log 10 ((m:ℝ) * (10:ℝ)^(X-5)) = X := by
    intro m X h1 h2
    have hu : (0:ℝ) < (10:ℝ)^(X-5) := zpow_pos (by norm_num) _
    have m1 : (10:ℝ)^5 ≤ m := by exact_mod_cast h1
    have m2 : (m:ℝ) < 10^6 := by exact_mod_cast h2
    exact log_of_six (by gcongr) (by gcongr)
  have e : (six a).2 = X := by
    have e1 := hl (X := (six a).2) a1 a2
    have e2 := hl (X := X) h1 h2
    rw [a3, h, e2] at e1
    exact e1.symm
  have hu : (0:ℝ) < (10:ℝ)^(X-5) := zpow_pos (by norm_num) _
  rw [← a3, e] at h
  have := mul_right_cancel₀ hu.ne' h
  exact Prod.ext (by exact_mod_cast this) e

theorem six_unique {a b : ℝ} (ha : 0 < a) (hb : 0 < b) (h : decPos a = decPos b) : six a = six b := by
  obtain ⟨b1, b2, b3⟩ := six_spec hb
  rw [six_eq ha b1 b2 (h.trans b3.symm)]

/-- the text depends on the printed number only -/
theorem fmtG_congr {x y : F64 R} {r s : ℝ} (hx : x.1 = .fin r) (hy : y.1 = .fin s) (h : dec r = dec s) : fmtG x = fmtG y := by
  have hz : ∀ z : ℝ, dec z = 0 ↔ z = 0 := by
    intro z
    constructor
    · intro hz
      have := dec_rel z
      rw [hz, zero_sub, abs_neg] at this
      have := abs_nonneg z
      exact abs_eq_zero.1 (by linarith)
    · rintro rfl; exact dec_zero
  have hsg : ∀ z : ℝ, dec z < 0 ↔ z < 0 := by
    intro z
    constructor
    · intro hz
      by_contra hc
      have := dec_mono (not_lt.1 hc)
      rw [dec_zero] at this; linarith
    · intro hz'
      have h1 := dec_mono hz'.le
      rw [dec_zero] at h1
      exact lt_of_le_of_ne h1 (fun e => hz'.ne ((hz z).1 e))
  have habs : ∀ z : ℝ, z ≠ 0 → decPos |z| = |dec z| := by
    intro z h0
    rcases lt_or_gt_of_ne h0 with hn | hn
    · have e : dec z = -decPos (-z) := by rw [← dec_of_pos (by linarith), dec_neg, neg_neg]
      rw [e, abs_neg, abs_of_neg hn, abs_of_pos (decPos_pos (by linarith))]
    · rw [dec_of_pos hn, abs_of_pos hn, abs_of_pos (decPos_pos hn)]
  unfold fmtG
  simp only [hx, hy]
  by_cases h0 : r = 0
  · have : s = 0 := (hz s).1 (by rw [← h]; exact (hz r).2 h0)
    rw [if_pos h0, if_pos this]
  · have h0' : s ≠ 0 := fun e => h0 ((hz r).1 (by rw [h]; exact (hz s).2 e))
    rw [if_neg h0, if_neg h0']
    have e1 : (r < 0) = (s < 0) := propext ((hsg r).symm.trans (by rw [h]; exact hsg s))
    rw [six_unique (abs_pos.2 h0) (abs_pos.2 h0') (by rw [habs r h0, habs s h0', h])]
    simp only [e1]

/-! ### the theorems -/

/-- **C112**: every finite double is written as a number with six significant digits that is nearest to it (and so is off by at most 5 parts in a million), and reading the
text succeeds and gives that number, rounded to a double. -/
theorem _root_.FMV.C112_digits (x : F64 R) {r : ℝ} (h : x.1 = .fin r) :
    ∃ d, NearestSix r d ∧ |d - r| ≤ 5 / 10^6 * |r| ∧ FloatText (fmtG x) ∧ TextValue (fmtG x) d ∧ (conv R (fmtG x)).2 = true ∧
      (conv R (fmtG x)).1.1 = R.rd d ∧ ∃ y, R.rd d = .fin y := by
  refine ⟨dec r, dec_nearest r, dec_rel r, (fmtG_value h).1, (fmtG_value h).2.1, by rw [(conv_fmtG h).1], reload_val h, rd_dec R (x.2 r h)⟩

/-- **C112**: the order of numbers survives being written and read. -/
theorem _root_.FMV.C112_order (x y : F64 R) {r s : ℝ} (hx : x.1 = .fin r) (hy : y.1 = .fin s) (h : r ≤ s) :
    Arith.le (conv R (fmtG x)).1 (conv R (fmtG y)).1 = true := by
  show XR.le (reload x).1 (reload y).1 = true
  rw [reload_val hx, reload_val hy]
  exact R.mono _ _ (dec_mono h)

/-- **C112**: a double that is the rounding of a number with six significant digits (0, 1, 0.05, 12.5) is written as this number and read back unchanged. -/
theorem _root_.FMV.C112_keeps (x : F64 R) {d : ℝ} (hd : SixDigits d) (hu : d = 0 ∨ Usual d) (hx : x.1 = R.rd d) :
    TextValue (fmtG x) d ∧ conv R (fmtG x) = (x, true) := by
  have hb : d = 0 ∨ ((10:ℝ)^(-301:ℤ) ≤ |d| ∧ |d| ≤ (10:ℝ)^(301:ℤ)) := by
    rcases hu with h | h
    · exact .inl h
    · have := dec_usual h
      rw [dec_six hd] at this
      exact .inr this
  have hfin : ∃ s, R.rd d = .fin s := by
    rcases hb with h | ⟨h1, h2⟩
    · exact ⟨0, by rw [h]; exact R.exact 0 IsDouble.zero⟩
    · obtain ⟨s, e, -⟩ := rd_err R (le_refl |d|) (big_bounds.1.trans h1) (h2.trans big_bounds.2)
      exact ⟨s, e⟩
  obtain ⟨s, hs⟩ := hfin
  have e := dec_rd (R := R) hd hb hs
  have hx' : x.1 = .fin s := by rw [hx, hs]
  have tv := (fmtG_value hx').2.1
  rw [e] at tv
  refine ⟨tv, ?_⟩
  rw [(conv_fmtG hx').1, e]
  refine Prod.ext (Subtype.ext ?_) rfl
  exact hx.symm

/-- **C112**: what was read from a file is written as the same text again. -/
theorem _root_.FMV.C112_again (x : F64 R) {r : ℝ} (h : x.1 = .fin r) (hu : r = 0 ∨ Usual r) : fmtG (conv R (fmtG x)).1 = fmtG x := by
  obtain ⟨y, hy⟩ := rd_dec R (x.2 r h)
  have e : dec y = dec r := by
    refine dec_rd (R := R) (six_dec r) ?_ hy
    rcases hu with rfl | hu
    · exact .inl dec_zero
    · exact .inr (dec_usual hu)
  exact fmtG_congr (x := reload x) (by rw [reload_val h]; exact hy) h e

theorem decPos_mid {m : ℕ} {X : ℤ} {y : ℝ} (h1 : 10^5 < m) (h2 : m < 10^6) (hy : |y - (m:ℝ) * (10:ℝ)^(X-5)| < (10:ℝ)^(X-5) / 2) :
    decPos y = (m:ℝ) * (10:ℝ)^(X-5) := by
  have hu : (0:ℝ) < (10:ℝ)^(X-5) := zpow_pos (by norm_num) _
  have m1 : (10:ℝ)^5 + 1 ≤ m := by exact_mod_cast h1
  have m2 : (m:ℝ) + 1 ≤ 10^6 := by exact_mod_cast h2
  rw [abs_lt] at hy
  have hl : Int.log 10 y = X := log_of_six
    (by generalize (10:ℝ)^(X-5) = u at *; nlinarith [hy.1]) (by generalize (10:ℝ)^(X-5) = u at *; nlinarith [hy.2])
  have he : unit6 y = (10:ℝ)^(X-5) := by unfold unit6; rw [hl]
  unfold decPos
  rw [he]
  generalize (10:ℝ)^(X-5) = u at *
  have : roundEven (y / u) = (m : ℤ) := by
    apply roundEven_unique
    rw [abs_lt]
    push_cast
    have a : y / u < m + 1/2 := by rw [div_lt_iff₀ hu]; linarith [hy.2]
    have b : (m:ℝ) - 1/2 < y / u := by rw [lt_div_iff₀ hu]; linarith [hy.1]
    constructor <;> linarith
  rw [this]; push_cast; ring

/-- The speed below which a cell counts as occupied, with the digits of its text. -/
theorem dec_margin : dec XR.eps = 222045 / 10^16 := by
  have h := decPos_mid (m := 222045) (X := -11) (y := XR.eps) (by norm_num) (by norm_num)
    (by unfold XR.eps; rw [abs_lt]; constructor <;> norm_num [zpow_neg])
  rw [dec_of_pos (by unfold XR.eps; norm_num), h]; norm_num [zpow_neg]

theorem eps_lt_dec : XR.eps < 222045 / 10^16 := by unfold XR.eps; norm_num

/-- **C112**: writing and reading never makes a free cell occupied. -/
theorem _root_.FMV.C112_free (x : F64 R) {r : ℝ} (h : x.1 = .fin r) (hf : XR.eps ≤ r) : Arith.lt (conv R (fmtG x)).1 Arith.margin = false := by
  obtain ⟨y, hy⟩ := rd_dec R (x.2 r h)
  have h1 : XR.eps ≤ dec r := eps_lt_dec.le.trans (dec_margin ▸ dec_mono hf)
  have h2 := R.mono _ _ h1
  rw [R.exact _ IsDouble.eps, hy] at h2
  show XR.lt (reload x).1 (.fin XR.eps) = false
  rw [reload_val h, hy]
  simpa [XR.le, XR.lt] using h2

theorem usual_of {r : ℝ} (a : 1 / 10^20 ≤ |r|) (b : |r| ≤ 10^20) : Usual r := by
  constructor
  · refine le_trans ?_ a
    rw [show (-300:ℤ) = -20 + -280 by norm_num, zpow_add₀ (by norm_num)]
    have : (10:ℝ)^(-280:ℤ) ≤ 1 := zpow_le_one_of_nonpos₀ (by norm_num) (by norm_num)
    calc (10:ℝ)^(-20:ℤ) * (10:ℝ)^(-280:ℤ) ≤ (10:ℝ)^(-20:ℤ) * 1 := by gcongr
      _ = 1 / 10^20 := by norm_num [zpow_neg]
  · refine b.trans ?_
    rw [show (300:ℤ) = 20 + 280 by norm_num, zpow_add₀ (by norm_num)]
    have : 1 ≤ (10:ℝ)^(280:ℤ) := one_le_zpow₀ (by norm_num) (by norm_num)
    calc (10:ℝ)^20 = (10:ℝ)^(20:ℤ) * 1 := by norm_num
      _ ≤ _ := by gcongr

/-- **C112**: nor an occupied cell free, if its speed is at most 2.22e-11 (the bound for being occupied is 2.220446e-11). -/
theorem _root_.FMV.C112_occupied (x : F64 R) {r : ℝ} (h : x.1 = .fin r) (hf : r ≤ 222 / 10^13) : Arith.lt (conv R (fmtG x)).1 Arith.margin = true := by
  obtain ⟨y, hy⟩ := rd_dec R (x.2 r h)
  have hs : SixDigits (222 / 10^13) := ⟨222, -13, by norm_num, by norm_num [zpow_neg]⟩
  have h1 : dec r ≤ 222 / 10^13 := (dec_mono hf).trans (dec_six hs).le
  have hp : (0:ℝ) < 222 / 10^13 := by norm_num
  have hU : Usual (222 / 10^13) := usual_of (by rw [abs_of_pos hp]; norm_num) (by rw [abs_of_pos hp]; norm_num)
  obtain ⟨s, e, he⟩ := rd_err R (le_refl |(222 / 10^13 : ℝ)|) (big_bounds.1.trans (dec_six hs ▸ (dec_usual hU).1)) ((dec_six hs ▸ (dec_usual hU).2 : |(222 / 10^13 : ℝ)| ≤ _).trans big_bounds.2)
  have h2 := R.mono _ _ h1
  rw [hy, e] at h2
  have h3 : y ≤ s := by simpa [XR.le] using h2
  have h4 : s < XR.eps := by
    rw [abs_of_pos hp] at he
    have := (abs_le.1 he).2
    unfold uu at this
    unfold XR.eps
    norm_num at this ⊢
    linarith
  show XR.lt (reload x).1 (.fin XR.eps) = true
  rw [reload_val h, hy]
  simpa [XR.lt] using lt_of_le_of_lt h3 h4

/-- **C112 refuted** in between: an occupied cell with the speed of the double before the bound is free after the map has been saved and loaded, as its speed is written as
`2.22045e-11`. -/
theorem _root_.FMV.C112_refuted_obstacle : ∃ x : F64 R, Arith.lt x Arith.margin = true ∧ TextValue (fmtG x) (222045 / 10^16) ∧ Arith.lt (conv R (fmtG x)).1 Arith.margin = false := by
  have hd : IsDouble (6871947673599999 / 2^88) := ⟨6871947673599999, -88, by norm_num, by norm_num, by norm_num, by norm_num [zpow_neg]⟩
  let x : F64 R := ⟨.fin (6871947673599999 / 2^88), fun _ h => by cases h; exact hd⟩
  have hx : x.1 = .fin (6871947673599999 / 2^88) := rfl
  have e : dec (6871947673599999 / 2^88) = 222045 / 10^16 := by
    have h := decPos_mid (m := 222045) (X := -11) (y := 6871947673599999 / 2^88) (by norm_num) (by norm_num)
      (by rw [abs_lt]; constructor <;> norm_num [zpow_neg])
    rw [dec_of_pos (by norm_num), h]; norm_num [zpow_neg]
  refine ⟨x, ?_, e ▸ (fmtG_value hx).2.1, ?_⟩
  · show XR.lt (.fin _) (.fin _) = true
    simp only [XR.lt, decide_eq_true_eq]
    unfold XR.eps; norm_num
  · obtain ⟨y, hy⟩ := rd_dec R (x.2 _ hx)
    have h2 := R.mono _ _ (e ▸ eps_lt_dec.le : XR.eps ≤ dec (6871947673599999 / 2^88))
    rw [R.exact _ IsDouble.eps, hy] at h2
    show XR.lt (reload x).1 (.fin XR.eps) = false
    rw [reload_val hx, hy]
    simpa [XR.le, XR.lt] using h2

/-- **C112 refuted** for more digits: 1000000 and 1000001 are written as the same text. -/
theorem _root_.FMV.C112_refuted_digits (x y : F64 R) (hx : x.1 = .fin 1000000) (hy : y.1 = .fin 1000001) : fmtG x = fmtG y := by
  apply fmtG_congr hx hy
  have a := decPos_above (m := 100000) (X := 6) (y := 1000000) (by norm_num) (by norm_num) (by norm_num) (by norm_num)
  have b := decPos_above (m := 100000) (X := 6) (y := 1000001) (by norm_num) (by norm_num) (by norm_num) (by norm_num)
  rw [dec_of_pos (by norm_num), dec_of_pos (by norm_num), a, b]

/-! ### whole numbers -/

theorem decimal_ten {n : ℕ} (h : 0 < n) (i : ℕ) : decimal (n * 10^i) = decimal n ++ List.replicate i '0' := by
  induction i with
  | zero => simp
  | succ i ih =>
    have hp : 0 < n * 10^i := Nat.mul_pos h (by positivity)
    have e : n * 10^(i+1) = n * 10^i * 10 := by ring
    rw [e, decimal_ge (by omega), Nat.mul_div_cancel _ (by norm_num), ih, Nat.mul_mod_left, List.replicate_succ', List.append_assoc]
    rfl

theorem strip_zeros (i : ℕ) : strip (List.replicate i '0') = [] := by
  unfold strip
  rw [List.reverse_replicate, List.dropWhile_replicate]
  simp

/-- **C112**: whole numbers below a million are written as such, without point and exponent. -/
theorem _root_.FMV.C112_whole (x : F64 R) {n : ℕ} (hn : n < 10^6) (hx : x.1 = .fin (n : ℝ)) : fmtG x = decimal n := by
  unfold fmtG
  simp only [hx]
  rcases Nat.eq_zero_or_pos n with rfl | hp
  · rw [if_pos (by simp), decimal_lt (by norm_num)]; rfl
  · have hp' : (0:ℝ) < n := by exact_mod_cast hp
    rw [if_neg hp'.ne', if_neg (not_lt.2 hp'.le), abs_of_pos hp', List.nil_append]
    obtain ⟨i, a, b⟩ := scale_up 5 n hp (by omega) hn
    have hi : i ≤ 5 := by
      by_contra hc
      have := Nat.pow_le_pow_right (show 0 < 10 by norm_num) (show 6 ≤ i by omega)
      have := Nat.le_mul_of_pos_left (10^i) hp
      omega
    have hs : SixDigits (n:ℝ) := ⟨n, 0, by rw [Nat.abs_cast]; exact_mod_cast hn, by simp⟩
    have e : decPos (n:ℝ) = ((n * 10^i : ℕ) : ℝ) * (10:ℝ)^(((5 - i : ℕ) : ℤ) - 5) := by
      rw [← dec_of_pos hp', dec_six hs]
      push_cast [Nat.cast_sub hi]
      rw [mul_assoc, ← zpow_natCast, ← zpow_add₀ (by norm_num), show (i:ℤ) + (5 - i - 5) = 0 by ring, zpow_zero, mul_one]
    rw [six_eq hp' a b e]
    have hl : (decimal n).length = 5 - i + 1 := by
      have := decimal_six a b
      rw [decimal_ten hp, List.length_append, List.length_replicate] at this
      omega
    show gText (n * 10^i) ((5 - i : ℕ) : ℤ) = _
    unfold gText
    rw [if_pos ⟨by omega, by omega⟩, if_pos (by omega), decimal_ten hp, Int.toNat_natCast, ← hl, List.take_left, List.drop_left, strip_zeros]
    simp [point]

theorem gText_plain {m : ℕ} {X : ℤ} (h : -4 ≤ X ∧ X < 6) : 'e' ∉ gText m X := by
  have hd : 'e' ∉ decimal m := fun hc => absurd ((decimal_number m).2 _ hc) (by decide)
  have hp : ∀ s : Str, 'e' ∉ s → 'e' ∉ point (strip s) := by
    intro s hs hc
    have : 'e' ∈ strip s := by
      unfold point at hc
      split at hc
      · cases hc
      · rcases List.mem_cons.1 hc with hc | hc
        · exact absurd hc (by decide)
        · exact hc
    obtain ⟨k, hk⟩ := strip_eq s
    exact hs (by rw [hk]; exact List.mem_append_left _ this)
  unfold gText
  rw [if_pos h]
  split
  · intro hc
    rcases List.mem_append.1 hc with hc | hc
    · exact hd (List.mem_of_mem_take hc)
    · exact hp _ (fun hc => hd (List.mem_of_mem_drop hc)) hc
  · intro hc
    rcases List.mem_cons.1 hc with hc | hc
    · exact absurd hc (by decide)
    · refine hp _ (fun hc => ?_) hc
      rcases List.mem_append.1 hc with hc | hc
      · exact absurd (List.eq_of_mem_replicate hc) (by decide)
      · exact hd hc

theorem six_exp {a : ℝ} (h : 0 < a) : (10:ℝ)^((six a).2) ≤ decPos a ∧ decPos a < (10:ℝ)^((six a).2 + 1) := by
  obtain ⟨h1, h2, h3⟩ := six_spec h
  have hu : (0:ℝ) < (10:ℝ)^((six a).2 - 5) := zpow_pos (by norm_num) _
  have m1 : (10:ℝ)^5 ≤ ((six a).1 : ℝ) := by exact_mod_cast h1
  have m2 : ((six a).1 : ℝ) < 10^6 := by exact_mod_cast h2
  have e1 : (10:ℝ)^((six a).2) = 10^5 * (10:ℝ)^((six a).2 - 5) := by
    rw [show (10:ℝ)^5 = (10:ℝ)^(5:ℤ) by norm_cast, ← zpow_add₀ (by norm_num)]; congr 1; ring
  have e2 : (10:ℝ)^((six a).2 + 1) = 10^6 * (10:ℝ)^((six a).2 - 5) := by
    rw [show (10:ℝ)^6 = (10:ℝ)^(6:ℤ) by norm_cast, ← zpow_add₀ (by norm_num)]; congr 1; ring
  rw [e1, e2, ← h3]
  exact ⟨by gcongr, by gcongr⟩

/-- **C112**: numbers from 0.0001 to 999999 are written without exponent, those from a million on and those below 0.00009999 with one. -/
theorem _root_.FMV.C112_notation (x : F64 R) {r : ℝ} (hx : x.1 = .fin r) :
    (1/10^4 ≤ |r| → |r| ≤ 999999 → 'e' ∉ fmtG x) ∧ (10^6 ≤ |r| → 'e' ∈ fmtG x) ∧ (r ≠ 0 → |r| ≤ 9999 / 10^8 → 'e' ∈ fmtG x) := by
  have hexp : r ≠ 0 → ¬(-4 ≤ (six |r|).2 ∧ (six |r|).2 < 6) → 'e' ∈ fmtG x := by
    intro h0 h
    unfold fmtG
    simp only [hx]
    rw [if_neg h0]
    refine List.mem_append_right _ ?_
    unfold gText
    rw [if_neg h]
    exact List.mem_append_right _ List.mem_cons_self
  refine ⟨fun h1 h2 => ?_, fun h => ?_, fun h0 h => ?_⟩
  · have hp : 0 < |r| := lt_of_lt_of_le (by norm_num) h1
    have h0 : r ≠ 0 := abs_pos.1 hp
    obtain ⟨b1, b2⟩ := six_exp hp
    have s1 : SixDigits (1/10^4) := ⟨1, -4, by norm_num, by norm_num [zpow_neg]⟩
    have s2 : SixDigits 999999 := ⟨999999, 0, by norm_num, by norm_num⟩
    have d1 := dec_mono h1
    have d2 := dec_mono h2
    rw [dec_six s1, dec_of_pos hp] at d1
    rw [dec_six s2, dec_of_pos hp] at d2
    have hX : -4 ≤ (six |r|).2 ∧ (six |r|).2 < 6 := by
      constructor
      · by_contra hc
        have : (10:ℝ)^((six |r|).2 + 1) ≤ (10:ℝ)^(-4:ℤ) := zpow_le_zpow_right₀ (by norm_num) (by omega)
        norm_num [zpow_neg] at this d1
        linarith
      · by_contra hc
        have : (10:ℝ)^(6:ℤ) ≤ (10:ℝ)^((six |r|).2) := zpow_le_zpow_right₀ (by norm_num) (by omega)
        norm_num at this
        linarith
    unfold fmtG
    simp only [hx]
    rw [if_neg h0]
    intro hc
    rcases List.mem_append.1 hc with hc | hc
    · split at hc
      · exact absurd (List.mem_singleton.1 hc) (by decide)
      · cases hc
    · exact gText_plain hX hc
  · have hp : 0 < |r| := lt_of_lt_of_le (by norm_num) h
    refine hexp (abs_pos.1 hp) (fun hX => ?_)
    obtain ⟨b1, b2⟩ := six_exp hp
    have s1 : SixDigits (10^6) := ⟨1, 6, by norm_num, by norm_num⟩
    have d1 := dec_mono h
    rw [dec_six s1, dec_of_pos hp] at d1
    have : (10:ℝ)^((six |r|).2 + 1) ≤ (10:ℝ)^(6:ℤ) := zpow_le_zpow_right₀ (by norm_num) (by omega)
    norm_num at this d1
    linarith
  · have hp : 0 < |r| := abs_pos.2 h0
    refine hexp h0 (fun hX => ?_)
    obtain ⟨b1, b2⟩ := six_exp hp
    have s1 : SixDigits (9999 / 10^8) := ⟨9999, -8, by norm_num, by norm_num [zpow_neg]⟩
    have d1 := dec_mono h
    rw [dec_six s1, dec_of_pos hp] at d1
    have : (10:ℝ)^(-4:ℤ) ≤ (10:ℝ)^((six |r|).2) := zpow_le_zpow_right₀ (by norm_num) hX.1
    norm_num [zpow_neg] at this d1
    linarith

theorem roundEven_tie {x : ℝ} (n : ℤ) (h : x = n + 1/2) : roundEven x = if n % 2 = 0 then n else n + 1 := by
  have hf : ⌊x⌋ = n := by rw [h, Int.floor_eq_iff]; constructor <;> linarith
  have hr : Int.fract x = 1/2 := by unfold Int.fract; rw [hf, h]; ring
  unfold roundEven
  rw [hr, hf, if_neg (lt_irrefl _), if_neg (lt_irrefl _)]

theorem decPos_tie {m : ℕ} {X : ℤ} {y : ℝ} (h1 : 10^5 ≤ m) (h2 : m < 10^6) (hy : y = ((m:ℝ) + 1/2) * (10:ℝ)^(X-5)) :
    decPos y = (if m % 2 = 0 then (m:ℝ) else m + 1) * (10:ℝ)^(X-5) := by
  have hu : (0:ℝ) < (10:ℝ)^(X-5) := zpow_pos (by norm_num) _
  have m1 : (10:ℝ)^5 ≤ m := by exact_mod_cast h1
  have m2 : (m:ℝ) + 1 ≤ 10^6 := by exact_mod_cast h2
  have hl : Int.log 10 y = X := log_of_six (by rw [hy]; gcongr; linarith) (by rw [hy]; gcongr; linarith)
  have he : unit6 y = (10:ℝ)^(X-5) := by unfold unit6; rw [hl]
  unfold decPos
  rw [he, hy, mul_div_cancel_right₀ _ hu.ne', roundEven_tie (m : ℤ) (by push_cast; rfl)]
  congr 1
  by_cases h : m % 2 = 0
  · rw [if_pos h, if_pos (by omega)]; push_cast; rfl
  · rw [if_neg h, if_neg (by omega)]; push_cast; rfl

/-- **C112**: of two nearest numbers the one with the even last digit is written: 1000005 as `1e+06`, 1000015 as `1.00002e+06`. -/
theorem _root_.FMV.C112_ties (x : F64 R) {m : ℕ} {X : ℤ} (h1 : 10^5 ≤ m) (h2 : m < 10^6) (hx : x.1 = .fin (((m:ℝ) + 1/2) * (10:ℝ)^X)) :
    TextValue (fmtG x) ((if m % 2 = 0 then (m:ℝ) else m + 1) * (10:ℝ)^X) := by
  have hp : (0:ℝ) < ((m:ℝ) + 1/2) * (10:ℝ)^X := mul_pos (by positivity) (zpow_pos (by norm_num) _)
  have := (fmtG_value hx).2.1
  rwa [dec_of_pos hp, decPos_tie (X := X + 5) h1 h2 (by rw [add_sub_cancel_right]), add_sub_cancel_right] at this

/-- 1000005 = 100000.5 * 10 -/
example : ∃ x : F64 R, x.1 = .fin ((((100000:ℕ):ℝ) + 1/2) * (10:ℝ)^(1:ℤ)) ∧ 10^5 ≤ 100000 ∧ 100000 < 10^6 := by
  have hd : IsDouble ((((100000:ℕ):ℝ) + 1/2) * (10:ℝ)^(1:ℤ)) := by
    have := isDouble_nat (n := 1000005) (by norm_num)
    norm_num at this ⊢; exact this
  exact ⟨⟨.fin _, fun _ h => by cases h; exact hd⟩, rfl, by norm_num, by norm_num⟩

/-! ### maps -/

/-- a double that is the rounding of a number with six significant digits -/
def Six (x : F64 R) : Prop := ∃ d, SixDigits d ∧ (d = 0 ∨ Usual d) ∧ x.1 = R.rd d

/-- **C112**: maps.  A map of finite speeds in doubles is saved and loaded again: the leaf size and the speeds are the nearest numbers with six significant digits, rounded to doubles; speeds and leaf
sizes with at most six significant digits come back exactly; free cells stay free, and occupied ones with a speed of at most 2.22e-11 (0, usually) occupied; the obstacle list is complete; and the loaded map is saved as
the same file again. -/
theorem _root_.FMV.C112_map (g g0 : Grid (F64 R)) (junk : LoadJunk (F64 R)) (hshape : g.shape = Shape.mk' g.shape.dims) (hdims : g.shape.dims ≠ []) (hlt : ∀ d ∈ g.shape.dims, d < 2^32)
    (hnd : g.shape.ndims < 2^64) (leaf : ℝ) (v : Nat → ℝ) (hleaf : g.leaf.1 = .fin leaf) (hv : ∀ i < g.size, (g.vel i).1 = .fin (v i)) :
    ∃ g', loadMapFromText (conv R) g.shape.ndims junk (some (saveVelocities fmtG g)) g0 = .returned 1 g' ∧ g'.shape = g.shape ∧
      (∃ d, NearestSix leaf d ∧ g'.leaf.1 = R.rd d) ∧ (Six g.leaf → g'.leaf = g.leaf) ∧
      (∀ i < g.size, (∃ d, NearestSix (v i) d ∧ (g'.vel i).1 = R.rd d) ∧ (Six (g.vel i) → g'.vel i = g.vel i) ∧
        (g.occ i = false → g'.occ i = false) ∧ (v i ≤ 222 / 10^13 → g'.occ i = true)) ∧
      g'.occupied = (List.range g.size).filter g'.occ ∧
      ((leaf = 0 ∨ Usual leaf) → (∀ i < g.size, v i = 0 ∨ Usual (v i)) → saveVelocities fmtG g' = saveVelocities fmtG g) := by
  have hpl := prints_reload hleaf
  have hpv : ∀ i < g.size, Prints fmtG (conv R) (g.vel i) (reload (g.vel i)) := fun i hi => prints_reload (hv i hi)
  obtain ⟨g', h1, h2, h3, h4, h5⟩ := C36_roundtrip fmtG (conv R) g g0 junk _ (fun i => reload (g.vel i)) hshape hdims hlt hnd hpl hpv
  have six : ∀ x : F64 R, Six x → reload x = x := by
    rintro x ⟨d, a, b, c⟩
    unfold reload; rw [(C112_keeps x a b c).2]
  refine ⟨g', h1, h3, ⟨_, dec_nearest leaf, by rw [h2]; exact reload_val hleaf⟩, fun h => by rw [h2]; exact six _ h, ?_, h5, ?_⟩
  · intro i hi
    have hvi := (h4 i hi).1
    refine ⟨⟨_, dec_nearest (v i), by rw [hvi]; exact reload_val (hv i hi)⟩, fun h => by rw [hvi]; exact six _ h, ?_, ?_⟩
    · intro ho
      have ho' : Arith.lt (g.vel i) Arith.margin = false := ho
      show Arith.lt (g'.vel i) Arith.margin = false
      rw [hvi]
      refine C112_free _ (hv i hi) ?_
      have : XR.lt (g.vel i).1 (.fin XR.eps) = false := ho'
      rw [hv i hi] at this
      simpa [XR.lt] using this
    · intro hle
      show Arith.lt (g'.vel i) Arith.margin = true
      rw [hvi]
      exact C112_occupied _ (hv i hi) hle
  · intro hl hu
    exact C36_save_again fmtG (conv R) g g0 g' junk _ _ hshape hdims hlt hnd hpl hpv (C112_again _ hleaf hl) (fun i hi => C112_again _ (hv i hi) (hu i hi)) h1

/-- a 3x2 map with the speeds 0, 0.1 (rounded to a double), 1, 2.5, 1000 and 0: everything comes back -/
example : Six (F64.rnd R (.fin (1/10))) ∧ Six (F64.rnd R (.fin (5/2))) ∧ Six (Arith.zero : F64 R) ∧ Six (Arith.one : F64 R) := by
  have u : ∀ r : ℝ, 1 / 10^20 ≤ r → r ≤ 10^20 → Usual r := fun r a b => by
    have : 0 < r := lt_of_lt_of_le (by norm_num) a
    exact usual_of (by rwa [abs_of_pos this]) (by rwa [abs_of_pos this])
  exact ⟨⟨1/10, ⟨1, -1, by norm_num, by norm_num [zpow_neg]⟩, .inr (u _ (by norm_num) (by norm_num)), rfl⟩,
    ⟨5/2, ⟨25, -1, by norm_num, by norm_num [zpow_neg]⟩, .inr (u _ (by norm_num) (by norm_num)), rfl⟩,
    ⟨0, ⟨0, 0, by norm_num, by norm_num⟩, .inl rfl, (R.exact 0 IsDouble.zero).symm⟩,
    ⟨1, ⟨1, 0, by norm_num, by norm_num⟩, .inr (u _ (by norm_num) (by norm_num)), (R.exact 1 IsDouble.one).symm⟩⟩

example : (6:ℕ) < 10^6 ∧ ∃ x : F64 R, x.1 = .fin ((6:ℕ):ℝ) ∧ fmtG x = "6".toList := by
  have hd : IsDouble ((6:ℕ):ℝ) := isDouble_nat (by norm_num)
  let x : F64 R := ⟨.fin ((6:ℕ):ℝ), fun _ h => by cases h; exact hd⟩
  exact ⟨by norm_num, x, rfl, (C112_whole x (n := 6) (by norm_num) rfl).trans (decimal_lt (by norm_num))⟩

end FMV.Decimal
