import Verif.Model.Decimal
import Verif.Lemmas.F64Err
import Mathlib.Tactic.Linarith
import Mathlib.Tactic.Ring
import Mathlib.Tactic.NormNum
/-
Lemmas about the printing and reading of doubles: the six digits.
-/
namespace FMV.Decimal

theorem roundEven_err (x : ℝ) : |(roundEven x : ℝ) - x| ≤ 1/2 := by
  have h := Int.floor_add_fract x
  have h0 := Int.fract_nonneg x
  have h1 := Int.fract_lt_one x
  unfold roundEven
  rw [abs_le]
  split_ifs <;> push_cast <;> constructor <;> linarith

theorem roundEven_unique {x : ℝ} {n : ℤ} (h : |x - n| < 1/2) : roundEven x = n := by
  have h1 := roundEven_err x
  rw [abs_lt] at h
  rw [abs_le] at h1
  have a : (roundEven x : ℝ) < n + 1 := by linarith
  have b : (n : ℝ) < roundEven x + 1 := by linarith
  have a' : roundEven x < n + 1 := by exact_mod_cast a
  have b' : n < roundEven x + 1 := by exact_mod_cast b
  omega

theorem roundEven_int (n : ℤ) : roundEven (n : ℝ) = n := roundEven_unique (by simp)

theorem roundEven_nearest (x : ℝ) (n : ℤ) : |(roundEven x : ℝ) - x| ≤ |(n : ℝ) - x| := by
  by_cases h : |x - n| < 1/2
  · rw [roundEven_unique h]
  · rw [abs_sub_comm] at h
    exact (roundEven_err x).trans (not_lt.1 h)

theorem roundEven_mono {x y : ℝ} (h : x ≤ y) : roundEven x ≤ roundEven y := by
  by_contra hc
  have h1 := abs_le.1 (roundEven_err x)
  have h2 := abs_le.1 (roundEven_err y)
  have : (roundEven y : ℝ) + 1 ≤ roundEven x := by exact_mod_cast (show roundEven y + 1 ≤ roundEven x by omega)
  have : x = y := by linarith
  rw [this] at hc
  exact hc le_rfl

/-- the unit of the sixth digit -/
noncomputable def unit6 (a : ℝ) : ℝ := (10:ℝ)^(Int.log 10 a - 5)

theorem unit6_pos (a : ℝ) : 0 < unit6 a := zpow_pos (by norm_num) _

/-- the number printed for `a > 0` -/
noncomputable def decPos (a : ℝ) : ℝ := (roundEven (a / unit6 a) : ℝ) * unit6 a

theorem log_bounds {a : ℝ} (h : 0 < a) : 10^5 * unit6 a ≤ a ∧ a < 10^6 * unit6 a := by
  have h1 := Int.zpow_log_le_self (b := 10) (by norm_num) h
  have h2 := Int.lt_zpow_succ_log_self (b := 10) (by norm_num) a
  unfold unit6
  generalize Int.log 10 a = e at *
  push_cast at h1 h2
  have e1 : (10:ℝ)^e = 10^5 * (10:ℝ)^(e-5) := by
    rw [show (10:ℝ)^5 = (10:ℝ)^(5:ℤ) by norm_cast, ← zpow_add₀ (by norm_num)]; congr 1; ring
  have e2 : (10:ℝ)^(e+1) = 10^6 * (10:ℝ)^(e-5) := by
    rw [show (10:ℝ)^6 = (10:ℝ)^(6:ℤ) by norm_cast, ← zpow_add₀ (by norm_num)]; congr 1; ring
  rw [e1] at h1; rw [e2] at h2
  exact ⟨h1, h2⟩

theorem quot_bounds {a : ℝ} (h : 0 < a) : 10^5 ≤ roundEven (a / unit6 a) ∧ roundEven (a / unit6 a) ≤ 10^6 := by
  obtain ⟨h1, h2⟩ := log_bounds h
  have hu := unit6_pos a
  constructor
  · have := roundEven_mono (x := ((10^5 : ℤ) : ℝ)) (y := a / unit6 a) (by rw [le_div_iff₀ hu]; push_cast; norm_num at h1 ⊢; exact h1)
    rwa [roundEven_int] at this
  · have := roundEven_mono (x := a / unit6 a) (y := ((10^6 : ℤ) : ℝ)) (by rw [div_le_iff₀ hu]; push_cast; norm_num at h2 ⊢; exact h2.le)
    rwa [roundEven_int] at this

/-- the digits and the exponent give the printed number -/
theorem six_spec {a : ℝ} (h : 0 < a) : 10^5 ≤ (six a).1 ∧ (six a).1 < 10^6 ∧ ((six a).1 : ℝ) * (10:ℝ)^((six a).2 - 5) = decPos a := by
  obtain ⟨h1, h2⟩ := quot_bounds h
  have he : a / unit6 a = a / (10:ℝ)^(Int.log 10 a - 5) := rfl
  unfold six
  simp only [← he]
  generalize hm : roundEven (a / unit6 a) = m at *
  have hmn : ((m.toNat : ℕ) : ℝ) = (m : ℝ) := by
    have : ((m.toNat : ℕ) : ℤ) = m := Int.toNat_of_nonneg (by omega)
    exact_mod_cast this
  split
  · rename_i hc
    refine ⟨le_rfl, by norm_num, ?_⟩
    unfold decPos
    rw [hm]
    have : (m : ℝ) = 10^6 := by rw [← hmn, hc]; norm_num
    rw [this]
    unfold unit6
    show ((10^5 : ℕ) : ℝ) * (10:ℝ)^(Int.log 10 a + 1 - 5) = _
    push_cast
    rw [show Int.log 10 a + 1 - 5 = 1 + (Int.log 10 a - 5) by ring, zpow_add₀ (by norm_num), zpow_one]; ring
  · rename_i hc
    refine ⟨by show 10^5 ≤ m.toNat; omega, by show m.toNat < 10^6; omega, ?_⟩
    unfold decPos
    rw [hm, ← hmn]; rfl

theorem decPos_err (a : ℝ) : |decPos a - a| ≤ unit6 a / 2 := by
  have hu := unit6_pos a
  have h1 := roundEven_err (a / unit6 a)
  have e : decPos a - a = ((roundEven (a / unit6 a) : ℝ) - a / unit6 a) * unit6 a := by
    unfold decPos; rw [sub_mul, div_mul_cancel₀ _ hu.ne']
  rw [e, abs_mul, abs_of_pos hu]
  calc _ ≤ 1/2 * unit6 a := by gcongr
    _ = _ := by ring

/-- relative error of the printed number -/
theorem decPos_rel {a : ℝ} (h : 0 < a) : |decPos a - a| ≤ 5 / 10^6 * a := by
  have := decPos_err a
  have := (log_bounds h).1
  linarith

theorem decPos_bounds {a : ℝ} (h : 0 < a) : 10^5 * unit6 a ≤ decPos a ∧ decPos a ≤ 10^6 * unit6 a := by
  obtain ⟨h1, h2⟩ := quot_bounds h
  have hu := unit6_pos a
  unfold decPos
  constructor
  · have : ((10:ℝ)^5) ≤ (roundEven (a / unit6 a) : ℝ) := by exact_mod_cast h1
    gcongr
  · have : (roundEven (a / unit6 a) : ℝ) ≤ ((10:ℝ)^6) := by exact_mod_cast h2
    gcongr

theorem decPos_pos {a : ℝ} (h : 0 < a) : 0 < decPos a := lt_of_lt_of_le (by have := unit6_pos a; positivity) (decPos_bounds h).1

theorem decPos_mono {a b : ℝ} (ha : 0 < a) (h : a ≤ b) : decPos a ≤ decPos b := by
  have hb := lt_of_lt_of_le ha h
  rcases (Int.log_mono_right (b := 10) ha h).eq_or_lt with e | l
  · have eu : unit6 a = unit6 b := by unfold unit6; rw [e]
    unfold decPos
    rw [eu]
    have hu := unit6_pos b
    have : roundEven (a / unit6 b) ≤ roundEven (b / unit6 b) := roundEven_mono (by gcongr)
    have : (roundEven (a / unit6 b) : ℝ) ≤ roundEven (b / unit6 b) := by exact_mod_cast this
    gcongr
  · have hu : 10 * unit6 a ≤ unit6 b := by
      unfold unit6
      rw [← zpow_one_add₀ (by norm_num)]
      exact zpow_le_zpow_right₀ (by norm_num) (by omega)
    have := (decPos_bounds ha).2
    have := (decPos_bounds hb).1
    linarith

/-- the numbers with six significant digits, in normal form -/
theorem log_of_six {X : ℤ} {y : ℝ} (hy0 : (10:ℝ)^5 * (10:ℝ)^(X-5) ≤ y) (hy : y < (10:ℝ)^6 * (10:ℝ)^(X-5)) : Int.log 10 y = X := by
  have e1 : (10:ℝ)^5 * (10:ℝ)^(X-5) = (10:ℝ)^X := by
    rw [show (10:ℝ)^5 = (10:ℝ)^(5:ℤ) by norm_cast, ← zpow_add₀ (by norm_num)]; congr 1; ring
  have e2 : (10:ℝ)^6 * (10:ℝ)^(X-5) = (10:ℝ)^(X+1) := by
    rw [show (10:ℝ)^6 = (10:ℝ)^(6:ℤ) by norm_cast, ← zpow_add₀ (by norm_num)]; congr 1; ring
  rw [e1] at hy0; rw [e2] at hy
  have hp : 0 < y := lt_of_lt_of_le (zpow_pos (by norm_num) _) hy0
  have a1 := (Int.zpow_le_iff_le_log (b := 10) (by norm_num) hp).1 (by push_cast; exact hy0)
  have a2 := (Int.lt_zpow_iff_log_lt (b := 10) (by norm_num) hp).1 (by push_cast; exact hy)
  omega

theorem decPos_above {m : ℕ} {X : ℤ} {y : ℝ} (h1 : 10^5 ≤ m) (h2 : m < 10^6) (hy0 : (m:ℝ) * (10:ℝ)^(X-5) ≤ y) (hy : y < ((m:ℝ) + 1/2) * (10:ℝ)^(X-5)) :
    decPos y = (m:ℝ) * (10:ℝ)^(X-5) := by
  have hu : (0:ℝ) < (10:ℝ)^(X-5) := zpow_pos (by norm_num) _
  have m1 : (10:ℝ)^5 ≤ m := by exact_mod_cast h1
  have m2 : (m:ℝ) + 1 ≤ 10^6 := by exact_mod_cast h2
  have hl : Int.log 10 y = X := log_of_six (le_trans (by gcongr) hy0) (lt_of_lt_of_le hy (by gcongr; linarith))
  have he : unit6 y = (10:ℝ)^(X-5) := by unfold unit6; rw [hl]
  unfold decPos
  rw [he]
  generalize (10:ℝ)^(X-5) = u at *
  have : roundEven (y / u) = (m : ℤ) := by
    apply roundEven_unique
    rw [abs_lt]
    push_cast
    have a : (m:ℝ) ≤ y / u := by rwa [le_div_iff₀ hu]
    have b : y / u < m + 1/2 := by rwa [div_lt_iff₀ hu]
    constructor <;> linarith
  rw [this]; push_cast; ring

theorem decPos_below {m : ℕ} {X : ℤ} {y : ℝ} (h1 : 10^5 ≤ m) (h2 : m < 10^6) (hy0 : y < (m:ℝ) * (10:ℝ)^(X-5)) (hy : ((m:ℝ) - 1/20) * (10:ℝ)^(X-5) < y) :
    decPos y = (m:ℝ) * (10:ℝ)^(X-5) := by
  have hu : (0:ℝ) < (10:ℝ)^(X-5) := zpow_pos (by norm_num) _
  have m2 : (m:ℝ) + 1 ≤ 10^6 := by exact_mod_cast h2
  rcases h1.eq_or_lt with rfl | h1'
  · have e : (10:ℝ)^(X-5) = 10 * (10:ℝ)^(X-1-5) := by rw [← zpow_one_add₀ (by norm_num)]; congr 1; ring
    rw [e] at hy0 hy hu ⊢
    have hl : Int.log 10 y = X - 1 := log_of_six
      (by push_cast at hy; generalize (10:ℝ)^(X-1-5) = u at *; nlinarith) (by push_cast at hy0; generalize (10:ℝ)^(X-1-5) = u at *; linarith)
    have he : unit6 y = (10:ℝ)^(X-1-5) := by unfold unit6; rw [hl]
    unfold decPos
    rw [he]
    generalize (10:ℝ)^(X-1-5) = u at *
    have hu' : 0 < u := by linarith
    push_cast at hy hy0 ⊢
    have : roundEven (y / u) = (10^6 : ℤ) := by
      apply roundEven_unique
      rw [abs_lt]
      push_cast
      have a : (10:ℝ)^6 - 1/2 < y / u := by rw [lt_div_iff₀ hu']; linarith
      have b : y / u < 10^6 := by rw [div_lt_iff₀ hu']; linarith
      constructor <;> linarith
    rw [this]; push_cast; ring
  · have m1 : (10:ℝ)^5 + 1 ≤ m := by exact_mod_cast h1'
    have hl : Int.log 10 y = X := log_of_six
      (by generalize (10:ℝ)^(X-5) = u at *; nlinarith) (by generalize (10:ℝ)^(X-5) = u at *; nlinarith)
    have he : unit6 y = (10:ℝ)^(X-5) := by unfold unit6; rw [hl]
    unfold decPos
    rw [he]
    generalize (10:ℝ)^(X-5) = u at *
    have : roundEven (y / u) = (m : ℤ) := by
      apply roundEven_unique
      rw [abs_lt]
      push_cast
      have a : y / u < m := by rwa [div_lt_iff₀ hu]
      have b : (m:ℝ) - 1/20 < y / u := by rwa [lt_div_iff₀ hu]
      constructor <;> linarith
    rw [this]; push_cast; ring

/-- A number that is close to one with six significant digits is printed as that one. -/
theorem decPos_stable {m : ℕ} {X : ℤ} {y : ℝ} (h1 : 10^5 ≤ m) (h2 : m < 10^6) (hy : |y - (m:ℝ) * (10:ℝ)^(X-5)| ≤ 1 / 10^8 * ((m:ℝ) * (10:ℝ)^(X-5))) :
    decPos y = (m:ℝ) * (10:ℝ)^(X-5) := by
  have hu : (0:ℝ) < (10:ℝ)^(X-5) := zpow_pos (by norm_num) _
  have m2 : (m:ℝ) + 1 ≤ 10^6 := by exact_mod_cast h2
  rw [abs_le] at hy
  rcases le_or_gt ((m:ℝ) * (10:ℝ)^(X-5)) y with h | h
  · apply decPos_above h1 h2 h
    generalize (10:ℝ)^(X-5) = u at *
    nlinarith [hy.2]
  · apply decPos_below h1 h2 h
    generalize (10:ℝ)^(X-5) = u at *
    nlinarith [hy.1]

/-- the number printed for `x` -/
noncomputable def dec (x : ℝ) : ℝ := if 0 < x then decPos x else if x < 0 then -decPos (-x) else 0

theorem dec_neg (x : ℝ) : dec (-x) = -dec x := by
  unfold dec
  rcases lt_trichotomy x 0 with h | rfl | h
  · rw [if_pos (by linarith), if_neg (by linarith), if_pos h, neg_neg]
  · simp
  · rw [if_neg (by linarith), if_pos (by linarith), if_pos h, neg_neg]

theorem dec_of_pos {x : ℝ} (h : 0 < x) : dec x = decPos x := by unfold dec; rw [if_pos h]

theorem dec_zero : dec 0 = 0 := by unfold dec; simp

theorem dec_mono {x y : ℝ} (h : x ≤ y) : dec x ≤ dec y := by
  have hp : ∀ z, 0 ≤ z → 0 ≤ dec z := by
    intro z hz
    rcases hz.eq_or_lt with rfl | hz
    · rw [dec_zero]
    · rw [dec_of_pos hz]; exact (decPos_pos hz).le
  rcases lt_or_ge 0 x with hx | hx
  · rw [dec_of_pos hx, dec_of_pos (lt_of_lt_of_le hx h)]; exact decPos_mono hx h
  · rcases le_or_gt 0 y with hy | hy
    · have h1 := hp (-x) (by linarith)
      rw [dec_neg] at h1
      have := hp y hy
      linarith
    · have h1 : dec (-y) ≤ dec (-x) := by
        rw [dec_of_pos (by linarith : 0 < -y), dec_of_pos (by linarith : 0 < -x)]; exact decPos_mono (by linarith) (by linarith)
      rw [dec_neg, dec_neg] at h1
      linarith

theorem dec_rel (x : ℝ) : |dec x - x| ≤ 5 / 10^6 * |x| := by
  rcases lt_trichotomy x 0 with h | rfl | h
  · have := decPos_rel (a := -x) (by linarith)
    rw [abs_of_neg h]
    have e : dec x - x = -(decPos (-x) - -x) := by
      have := dec_neg (-x)
      rw [neg_neg, dec_of_pos (by linarith : 0 < -x)] at this
      rw [this]; ring
    rw [e, abs_neg]; exact this
  · simp [dec_zero]
  · rw [dec_of_pos h, abs_of_pos h]; exact decPos_rel h

theorem double_le_max {s : ℝ} (h : IsDouble s) : |s| ≤ maxDouble := by
  obtain ⟨m, e, h1, h2, h3, rfl⟩ := h
  rw [abs_mul, abs_of_pos (show (0:ℝ) < (2:ℝ)^e from zpow_pos (by norm_num) _)]
  have hm : |(m:ℝ)| ≤ 2^53 - 1 := by
    have : |m| ≤ 2^53 - 1 := by omega
    exact_mod_cast this
  unfold maxDouble
  exact mul_le_mul hm (zpow_le_zpow_right₀ (by norm_num) h3) (zpow_pos (by norm_num) _).le (by norm_num)

theorem pow_nat (b n : ℕ) : (b:ℝ)^((n:ℕ):ℤ) = ((b^n : ℕ):ℝ) := by rw [zpow_natCast, Nat.cast_pow]

theorem max_nat : 179769 * 10^303 ≤ (2^53 - 1) * 2^971 ∧ 2 * ((2^53 - 1) * 2^971) < (2 * 179769 + 1) * 10^303 := by decide +kernel

theorem max_powers : ∃ P T : ℕ, (2:ℝ)^(971:ℤ) = P ∧ (10:ℝ)^(303:ℤ) = T ∧ 179769 * T ≤ (2^53 - 1) * P ∧ 2 * ((2^53 - 1) * P) < (2 * 179769 + 1) * T := by
  refine ⟨2^971, 10^303, ?_, ?_, max_nat.1, max_nat.2⟩
  · have := pow_nat 2 971
    rwa [Nat.cast_ofNat, Nat.cast_ofNat] at this
  · have := pow_nat 10 303
    rwa [Nat.cast_ofNat, Nat.cast_ofNat] at this

theorem dec_max_le : dec maxDouble ≤ maxDouble := by
  obtain ⟨P, T, hP, hT, n1, n2⟩ := max_powers
  have hu : ((10:ℝ)^((308:ℤ)-5)) = T := by rw [← hT]; norm_num
  have e : maxDouble = (2^53 - 1) * (P:ℝ) := by unfold maxDouble; rw [hP]
  have n1' : (179769 * (T:ℝ)) ≤ (2^53 - 1) * (P:ℝ) := by
    have h : ((179769 * T : ℕ) : ℝ) ≤ (((2^53 - 1) * P : ℕ) : ℝ) := Nat.cast_le.2 n1
    norm_num at h ⊢; exact h
  have n2' : 2 * ((2^53 - 1) * (P:ℝ)) < (2 * 179769 + 1) * (T:ℝ) := by
    have h : ((2 * ((2^53 - 1) * P) : ℕ) : ℝ) < (((2 * 179769 + 1) * T : ℕ) : ℝ) := Nat.cast_lt.2 n2
    norm_num at h ⊢; exact h
  have hTp : (0:ℝ) < T := by rw [← hT]; exact zpow_pos (by norm_num) _
  have h1 : ((179769 : ℕ) : ℝ) * (10:ℝ)^((308:ℤ)-5) ≤ maxDouble := by
    rw [e, hu]; norm_num at n1' ⊢; exact n1'
  have h2 : maxDouble < (((179769:ℕ):ℝ) + 1/2) * (10:ℝ)^((308:ℤ)-5) := by
    rw [e, hu]; clear hP hT n1 n2 e hu; clear h1 n1' hTp
    generalize (P:ℝ) = p at *; generalize (T:ℝ) = q at *; push_cast; linarith
  have hp : 0 < maxDouble := lt_of_lt_of_le (by rw [hu]; positivity) h1
  rw [dec_of_pos hp, decPos_above (by norm_num) (by norm_num) h1 h2]
  exact h1

/-- What is printed for a double can be read without overflow. -/
theorem rd_dec (R : Rounding) {x : ℝ} (h : IsDouble x) : ∃ y, R.rd (dec x) = .fin y := by
  have hm := abs_le.1 (double_le_max h)
  have h1 : dec x ≤ maxDouble := (dec_mono hm.2).trans dec_max_le
  have h2 : -maxDouble ≤ dec x := by
    have := dec_mono hm.1
    rw [dec_neg] at this
    linarith [dec_max_le]
  have l1 := R.mono _ _ h1
  have l2 := R.mono _ _ h2
  rw [R.exact _ isDouble_max] at l1
  rw [R.exact _ isDouble_max.neg] at l2
  rcases R.mem (dec x) with ⟨s, -, e⟩ | e | e
  · exact ⟨s, e⟩
  · rw [e] at l1; simp [XR.le] at l1
  · rw [e] at l2; simp [XR.le] at l2

end FMV.Decimal
