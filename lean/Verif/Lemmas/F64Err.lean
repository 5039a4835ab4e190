import Verif.Model.F64
import Verif.Lemmas.EikReal
import Mathlib.Data.Int.Log
/-! Rounding errors of single operations on doubles, for every monotone rounding. -/
set_option linter.unusedSectionVars false
set_option linter.unusedVariables false
namespace FMV
open XR

/-- the unit of the error bounds: `2^-51`, i.e. twice the distance of 1 to the next double -/
noncomputable def uu : ℝ := 1 / 2251799813685248

theorem uu_pos : 0 < uu := by unfold uu; norm_num
theorem uu_eq : uu = (2:ℝ)^(-51:ℤ) := by unfold uu; rw [zpow_neg]; norm_num

theorem isDouble_of_le {m e : ℤ} (h1 : |m| ≤ 2^53) (h2 : -1074 ≤ e) (h3 : e ≤ 970) : IsDouble ((m:ℝ) * (2:ℝ)^e) := by
  rcases lt_or_eq_of_le h1 with h | h
  · exact ⟨m, e, h, h2, by omega, rfl⟩
  · have hm : m = 2^53 ∨ m = -2^53 := by
      rcases abs_choice m with h' | h' <;> rw [h'] at h
      · exact .inl h
      · right; omega
    have e2 : (2:ℝ)^(e+1) = 2 * (2:ℝ)^e := by rw [zpow_add₀ (by norm_num)]; ring
    rcases hm with rfl | rfl
    · refine ⟨2^52, e+1, by norm_num, by omega, by omega, ?_⟩
      rw [e2]; push_cast; ring
    · refine ⟨-2^52, e+1, by norm_num, by omega, by omega, ?_⟩
      rw [e2]; push_cast; ring

theorem isDouble_nat {n : Nat} (h : n < 2^53) : IsDouble (n:ℝ) :=
  ⟨n, 0, by rw [Nat.abs_cast]; exact_mod_cast h, by norm_num, by norm_num, by simp⟩

/-- an interval between two adjacent multiples of a power of two contains the rounded number -/
theorem rd_between (R : Rounding) {r : ℝ} {e : ℤ} (h1 : -1074 ≤ e) (h2 : e ≤ 970) (hr : |r| < 2^53 * (2:ℝ)^e) :
    ∃ s, R.rd r = .fin s ∧ |s - r| ≤ (2:ℝ)^e := by
  have hp : (0:ℝ) < (2:ℝ)^e := zpow_pos (by norm_num) _
  set m : ℤ := ⌊r / (2:ℝ)^e⌋ with hm
  have hlo : (m:ℝ) * (2:ℝ)^e ≤ r := by
    have := Int.floor_le (r / (2:ℝ)^e)
    rwa [le_div_iff₀ hp] at this
  have hhi : r < ((m:ℝ) + 1) * (2:ℝ)^e := by
    have := Int.lt_floor_add_one (r / (2:ℝ)^e)
    rwa [div_lt_iff₀ hp] at this
  have hab := abs_lt.1 hr
  have hm1 : -(2^53) ≤ m := by
    rw [hm, Int.le_floor, le_div_iff₀ hp]; push_cast; linarith
  have hm2 : m < 2^53 := by
    rw [hm, Int.floor_lt, div_lt_iff₀ hp]; push_cast; linarith
  have d1 : IsDouble ((m:ℝ) * (2:ℝ)^e) := isDouble_of_le (abs_le.2 ⟨hm1, hm2.le⟩) h1 h2
  have d2 : IsDouble (((m+1:ℤ):ℝ) * (2:ℝ)^e) := isDouble_of_le (abs_le.2 ⟨by omega, by omega⟩) h1 h2
  push_cast at d2
  have l1 := R.mono _ _ hlo
  have l2 := R.mono _ _ hhi.le
  rw [R.exact _ d1] at l1
  rw [R.exact _ d2] at l2
  rcases R.mem r with ⟨s, hs, e'⟩ | e' | e'
  · rw [e'] at l1 l2
    simp only [XR.le, decide_eq_true_eq] at l1 l2
    refine ⟨s, e', ?_⟩
    rw [abs_le]; constructor <;> linarith
  · rw [e'] at l2; simp [XR.le] at l2
  · rw [e'] at l1; simp [XR.le] at l1

/-- **rounding error**: for a bound `B` that is neither extremely small nor extremely large -/
theorem rd_err (R : Rounding) {r B : ℝ} (hr : |r| ≤ B) (hB1 : (2:ℝ)^(-1000:ℤ) ≤ B) (hB2 : B ≤ (2:ℝ)^(1000:ℤ)) :
    ∃ s, R.rd r = .fin s ∧ |s - r| ≤ uu * B := by
  have hBp : 0 < B := lt_of_lt_of_le (zpow_pos (by norm_num) _) hB1
  set l := Int.log 2 B with hl
  have hl1 : (2:ℝ)^l ≤ B := by simpa using Int.zpow_log_le_self (b := 2) (by norm_num) hBp
  have hl2 : B < (2:ℝ)^(l+1) := by simpa using Int.lt_zpow_succ_log_self (b := 2) (by norm_num) B
  have a1 : l ≤ 1000 := by
    by_contra hc
    have : (2:ℝ)^(1000:ℤ) < (2:ℝ)^l := zpow_lt_zpow_right₀ (by norm_num) (by omega)
    linarith
  have a2 : -1001 ≤ l := by
    by_contra hc
    have : (2:ℝ)^(l+1) ≤ (2:ℝ)^(-1000:ℤ) := zpow_le_zpow_right₀ (by norm_num) (by omega)
    linarith
  obtain ⟨s, h1, h2⟩ := rd_between R (r := r) (e := l - 52) (by omega) (by omega) (by
    refine lt_of_le_of_lt hr (lt_of_lt_of_eq hl2 ?_)
    rw [show (2:ℝ)^53 = (2:ℝ)^(53:ℤ) by norm_num, ← zpow_add₀ (by norm_num)]; congr 1; ring)
  refine ⟨s, h1, le_trans h2 ?_⟩
  calc (2:ℝ)^(l-52) ≤ (2:ℝ)^(-51:ℤ) * (2:ℝ)^l := by
        rw [← zpow_add₀ (by norm_num)]; exact zpow_le_zpow_right₀ (by norm_num) (by omega)
    _ ≤ uu * B := by rw [uu_eq]; exact mul_le_mul_of_nonneg_left hl1 (zpow_pos (by norm_num) _).le

namespace F64
variable {R : Rounding}

/-- a finite double within `e` of `r` -/
def Apx (x : F64 R) (r e : ℝ) : Prop := ∃ s, x.1 = .fin s ∧ |s - r| ≤ e

/-- "neither extremely small nor extremely large" -/
def Mid (B : ℝ) : Prop := (2:ℝ)^(-1000:ℤ) ≤ B ∧ B ≤ (2:ℝ)^(1000:ℤ)

theorem Mid.pos {B : ℝ} (h : Mid B) : 0 < B := lt_of_lt_of_le (zpow_pos (by norm_num) _) h.1

theorem Apx.mono {x : F64 R} {r e e' : ℝ} (h : Apx x r e) (he : e ≤ e') : Apx x r e' := by
  obtain ⟨s, h1, h2⟩ := h; exact ⟨s, h1, le_trans h2 he⟩

theorem Apx.exact {x : F64 R} {r : ℝ} (h : x.1 = .fin r) : Apx x r 0 := ⟨r, h, by simp⟩

theorem Apx.abs_le {x : F64 R} {r e s : ℝ} (h : Apx x r e) (hs : x.1 = .fin s) : |s - r| ≤ e := by
  obtain ⟨s', h1, h2⟩ := h
  rw [hs] at h1; cases h1; exact h2

theorem rnd_apx {r r0 e B : ℝ} (he : |r - r0| ≤ e) (hB : Mid B) (hr : |r0| + e ≤ B) : Apx (rnd R (.fin r)) r0 (e + uu * B) := by
  have : |r| ≤ B := by
    have := abs_sub_abs_le_abs_sub r r0; linarith
  obtain ⟨s, h1, h2⟩ := rd_err R this hB.1 hB.2
  refine ⟨s, h1, ?_⟩
  have : s - r0 = (s - r) + (r - r0) := by ring
  rw [this]
  exact le_trans (abs_add_le _ _) (by linarith)

theorem add_apx {a b : F64 R} {ra rb ea eb B : ℝ} (ha : Apx a ra ea) (hb : Apx b rb eb) (hB : Mid B) (h : |ra + rb| + (ea + eb) ≤ B) :
    Apx (Arith.add a b) (ra + rb) (ea + eb + uu * B) := by
  obtain ⟨s, h1, h2⟩ := ha
  obtain ⟨t, h3, h4⟩ := hb
  have e : (Arith.add a b : F64 R) = rnd R (.fin (s + t)) := by
    show rnd R (XR.add a.1 b.1) = _; rw [h1, h3]; rfl
  rw [e]
  refine rnd_apx ?_ hB h
  have : s + t - (ra + rb) = (s - ra) + (t - rb) := by ring
  rw [this]; exact le_trans (abs_add_le _ _) (by linarith)

theorem sub_apx {a b : F64 R} {ra rb ea eb B : ℝ} (ha : Apx a ra ea) (hb : Apx b rb eb) (hB : Mid B) (h : |ra - rb| + (ea + eb) ≤ B) :
    Apx (Arith.sub a b) (ra - rb) (ea + eb + uu * B) := by
  obtain ⟨s, h1, h2⟩ := ha
  obtain ⟨t, h3, h4⟩ := hb
  have e : (Arith.sub a b : F64 R) = rnd R (.fin (s + -t)) := by
    show rnd R (XR.add a.1 (XR.neg b.1)) = _; rw [h1, h3]; rfl
  rw [e]
  refine rnd_apx ?_ hB h
  have : s + -t - (ra - rb) = (s - ra) - (t - rb) := by ring
  rw [this]; exact le_trans (abs_sub _ _) (by linarith)

theorem mul_apx {a b : F64 R} {ra rb ea eb B : ℝ} (ha : Apx a ra ea) (hb : Apx b rb eb) (hB : Mid B)
    (h : |ra * rb| + (|ra| * eb + |rb| * ea + ea * eb) ≤ B) :
    Apx (Arith.mul a b) (ra * rb) (|ra| * eb + |rb| * ea + ea * eb + uu * B) := by
  obtain ⟨s, h1, h2⟩ := ha
  obtain ⟨t, h3, h4⟩ := hb
  have e : (Arith.mul a b : F64 R) = rnd R (.fin (s * t)) := by
    show rnd R (XR.mul a.1 b.1) = _; rw [h1, h3]; rfl
  rw [e]
  refine rnd_apx ?_ hB h
  have : s * t - ra * rb = ra * (t - rb) + rb * (s - ra) + (s - ra) * (t - rb) := by ring
  rw [this]
  refine le_trans (abs_add_le _ _) (add_le_add (le_trans (abs_add_le _ _) (add_le_add ?_ ?_)) ?_)
  · rw [abs_mul]; exact mul_le_mul_of_nonneg_left h4 (abs_nonneg _)
  · rw [abs_mul]; exact mul_le_mul_of_nonneg_left h2 (abs_nonneg _)
  · rw [abs_mul]; exact mul_le_mul h2 h4 (abs_nonneg _) (le_trans (abs_nonneg _) h2)

/-- division by a number known exactly -/
theorem div_apx {a b : F64 R} {ra rb ea B : ℝ} (ha : Apx a ra ea) (hb : b.1 = .fin rb) (hp : 0 < rb) (hB : Mid B) (h : |ra / rb| + ea / rb ≤ B) :
    Apx (Arith.div a b) (ra / rb) (ea / rb + uu * B) := by
  obtain ⟨s, h1, h2⟩ := ha
  have e : (Arith.div a b : F64 R) = rnd R (.fin (s / rb)) := by
    show rnd R (XR.div a.1 b.1) = _; rw [h1, hb]; simp [XR.div, hp.ne']
  rw [e]
  refine rnd_apx ?_ hB h
  rw [← sub_div, abs_div, abs_of_pos hp]
  exact div_le_div_of_nonneg_right h2 hp.le

theorem neg_apx {a : F64 R} {ra ea : ℝ} (ha : Apx a ra ea) : Apx (Arith.neg a) (-ra) ea := by
  obtain ⟨s, h1, h2⟩ := ha
  refine ⟨-s, ?_, ?_⟩
  · show XR.neg a.1 = _; rw [h1]; rfl
  · have : -s - -ra = -(s - ra) := by ring
    rw [this, abs_neg]; exact h2

/-- square root away from zero -/
theorem sqrt_apx {a : F64 R} {ra ea q B : ℝ} (ha : Apx a ra ea) (hq : 0 < q) (hra : q^2 ≤ ra) (hea : ea ≤ ra) (hB : Mid B)
    (h : Real.sqrt ra + ea / q ≤ B) :
    Apx (Arith.sqrt a) (Real.sqrt ra) (ea / q + uu * B) := by
  obtain ⟨s, h1, h2⟩ := ha
  have h3 := abs_le.1 h2
  have hs : 0 ≤ s := by linarith
  have e : (Arith.sqrt a : F64 R) = rnd R (.fin (Real.sqrt s)) := by
    show rnd R (XR.sqrt a.1) = _; rw [h1]; simp [XR.sqrt, not_lt.2 hs]
  rw [e]
  have hra0 : 0 < ra := lt_of_lt_of_le (by positivity) hra
  have hq2 : q ≤ Real.sqrt ra := Real.le_sqrt_of_sq_le hra
  refine rnd_apx ?_ hB (by rw [abs_of_nonneg (Real.sqrt_nonneg _)]; exact h)
  have hsum : 0 < Real.sqrt s + Real.sqrt ra := by have := Real.sqrt_nonneg s; linarith
  have e2 : Real.sqrt s - Real.sqrt ra = (s - ra) / (Real.sqrt s + Real.sqrt ra) := by
    rw [eq_div_iff hsum.ne']
    have a1 := Real.mul_self_sqrt hs
    have a2 := Real.mul_self_sqrt hra0.le
    nlinarith
  rw [e2, abs_div, abs_of_pos hsum]
  exact div_le_div₀ (le_trans (abs_nonneg _) h2) h2 hq (by have := Real.sqrt_nonneg s; linarith)

theorem ofNat_exact {n : Nat} (h : n < 2^53) : (Arith.ofNat n : F64 R).1 = .fin n := by
  show R.rd (((n:ℤ):ℝ) / ((1:Nat):ℝ)) = _
  have : (((n:ℤ):ℝ) / ((1:Nat):ℝ)) = (n:ℝ) := by push_cast; ring
  rw [this, R.exact _ (isDouble_nat h)]

theorem ofRat_exact {p : ℤ} (h : |p| < 2^53) : (Arith.ofRat p 1 : F64 R).1 = .fin p := by
  show R.rd (((p:ℤ):ℝ) / ((1:Nat):ℝ)) = _
  have : (((p:ℤ):ℝ) / ((1:Nat):ℝ)) = (p:ℝ) := by push_cast; ring
  rw [this, R.exact _ ⟨p, 0, h, by norm_num, by norm_num, by simp⟩]

/-- product of small natural numbers -/
theorem mul_exact {a b : F64 R} {x y : Nat} (ha : a.1 = .fin x) (hb : b.1 = .fin y) (h : x * y < 2^53) : (Arith.mul a b).1 = .fin ((x * y : Nat) : ℝ) := by
  show (rnd R (XR.mul a.1 b.1)).1 = _
  rw [ha, hb]
  show R.rd ((x:ℝ) * y) = _
  rw [show ((x:ℝ) * y) = ((x * y : Nat) : ℝ) by push_cast; ring, R.exact _ (isDouble_nat h)]

end F64
end FMV
