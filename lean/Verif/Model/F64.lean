import Verif.Model.XR
import Mathlib.Data.Set.Finite.Lattice
import Mathlib.Algebra.Order.Group.Int
import Mathlib.Data.Int.Interval
import Mathlib.Data.Finset.Max
/-
`F64 R`: the IEEE-754 binary64 numbers (the C++ type `double` on every platform the library supports) with every operation rounded by `R`.

A rounding `R` is any monotone function that returns a double or an infinity and leaves doubles alone; the four IEEE rounding modes are such
functions, and `Rounding.nearest` shows that one that rounds to a nearest double exists. Signed zeros are not distinguished and there is
only one NaN. `sqrt` is correctly rounded, as IEEE-754 requires.
-/
namespace FMV
open Classical

/-- finite binary64 numbers: `m * 2^e` with a 53-bit significand and the exponent range of the format (subnormals included) -/
def IsDouble (s : ℝ) : Prop := ∃ m e : ℤ, |m| < 2^53 ∧ -1074 ≤ e ∧ e ≤ 971 ∧ s = m * (2:ℝ)^e

/-- a rounding mode -/
structure Rounding where
  rd : ℝ → XR
  mem : ∀ r, (∃ s, IsDouble s ∧ rd r = .fin s) ∨ rd r = .pinf ∨ rd r = .ninf
  exact : ∀ s, IsDouble s → rd s = .fin s
  mono : ∀ a b, a ≤ b → XR.le (rd a) (rd b) = true

/-- a `double` (infinities and NaN included) -/
def F64 (_ : Rounding) : Type := {x : XR // ∀ r, x = .fin r → IsDouble r}

theorem IsDouble.zero : IsDouble 0 := ⟨0, 0, by norm_num, by norm_num, by norm_num, by simp⟩
theorem IsDouble.one : IsDouble 1 := ⟨1, 0, by norm_num, by norm_num, by norm_num, by simp⟩
theorem IsDouble.eps : IsDouble XR.eps :=
  ⟨100000, -52, by norm_num, by norm_num, by norm_num, by unfold XR.eps; rw [zpow_neg]; norm_num⟩
theorem IsDouble.neg {s : ℝ} (h : IsDouble s) : IsDouble (-s) := by
  obtain ⟨m, e, h1, h2, h3, rfl⟩ := h
  exact ⟨-m, e, by rwa [abs_neg], h2, h3, by push_cast; ring⟩
theorem IsDouble.abs {s : ℝ} (h : IsDouble s) : IsDouble |s| := by
  rcases abs_choice s with e | e <;> rw [e]
  · exact h
  · exact h.neg
theorem IsDouble.pow {e : ℤ} (h1 : -1074 ≤ e) (h2 : e ≤ 1023) : IsDouble ((2:ℝ)^e) := by
  rcases le_or_gt e 971 with h | h
  · exact ⟨1, e, by norm_num, h1, h, by simp⟩
  · refine ⟨2^(e - 971).toNat, 971, ?_, by norm_num, by norm_num, ?_⟩
    · rw [abs_of_pos (by positivity)]
      exact pow_lt_pow_right₀ (by norm_num) (by omega)
    · push_cast
      rw [← zpow_natCast, ← zpow_add₀ (by norm_num), Int.toNat_of_nonneg (by omega)]
      congr 1; ring

theorem finite_isDouble : {s : ℝ | IsDouble s}.Finite := by
  refine Set.Finite.subset (((Set.finite_Icc (-2^53 : ℤ) (2^53)).prod (Set.finite_Icc (-1074 : ℤ) 971)).image
    (fun p : ℤ × ℤ => (p.1 : ℝ) * (2:ℝ)^p.2)) ?_
  rintro s ⟨m, e, h1, h2, h3, rfl⟩
  have := abs_lt.1 h1
  exact ⟨(m, e), ⟨⟨by linarith [this.1], this.2.le⟩, ⟨h2, h3⟩⟩, rfl⟩

namespace F64
variable {R : Rounding}

/-- the result of an operation: the exact result, rounded -/
noncomputable def rnd (R : Rounding) (x : XR) : F64 R :=
  match x with
  | .fin r => ⟨R.rd r, fun s hs => by
      rcases R.mem r with ⟨t, ht, e⟩ | e | e <;> rw [e] at hs
      · cases hs; exact ht
      · cases hs
      · cases hs⟩
  | .nan => ⟨.nan, fun _ h => by cases h⟩
  | .pinf => ⟨.pinf, fun _ h => by cases h⟩
  | .ninf => ⟨.ninf, fun _ h => by cases h⟩

noncomputable instance : Arith (F64 R) where
  zero := ⟨.fin 0, fun _ h => by cases h; exact IsDouble.zero⟩
  one := ⟨.fin 1, fun _ h => by cases h; exact IsDouble.one⟩
  inf := ⟨.pinf, fun _ h => by cases h⟩
  add a b := rnd R (XR.add a.1 b.1)
  sub a b := rnd R (XR.add a.1 (XR.neg b.1))
  mul a b := rnd R (XR.mul a.1 b.1)
  div a b := rnd R (XR.div a.1 b.1)
  neg a := ⟨XR.neg a.1, fun r h => by
    obtain ⟨x, hx⟩ := a
    cases x <;> simp only [XR.neg] at h <;> try cases h
    exact (hx _ rfl).neg⟩
  abs a := ⟨XR.abs a.1, fun r h => by
    obtain ⟨x, hx⟩ := a
    cases x <;> simp only [XR.abs] at h <;> try cases h
    exact (hx _ rfl).abs⟩
  sqrt a := rnd R (XR.sqrt a.1)
  lt a b := XR.lt a.1 b.1
  le a b := XR.le a.1 b.1
  eq a b := XR.eq a.1 b.1
  isInf a := Arith.isInf a.1
  isNaN a := Arith.isNaN a.1
  ofRat p q := rnd R (.fin ((p : ℝ) / (q : ℝ)))
  margin := ⟨.fin XR.eps, fun _ h => by cases h; exact IsDouble.eps⟩
  floorU32 a := Arith.floorU32 a.1
  truncInt a := Arith.truncInt a.1

end F64

/-! ### rounding to nearest exists -/

/-- a nearest double -/
theorem exists_nearest (r : ℝ) : ∃ s, IsDouble s ∧ ∀ t, IsDouble t → |r - s| ≤ |r - t| := by
  obtain ⟨s, hs, h⟩ := finite_isDouble.toFinset.exists_min_image (fun t => |r - t|) ⟨0, by simpa using IsDouble.zero⟩
  exact ⟨s, by simpa using hs, fun t ht => h t (by simpa using ht)⟩

noncomputable def nearestDouble (r : ℝ) : ℝ := (exists_nearest r).choose
theorem nearestDouble_mem (r : ℝ) : IsDouble (nearestDouble r) := (exists_nearest r).choose_spec.1
theorem nearestDouble_le (r t : ℝ) (ht : IsDouble t) : |r - nearestDouble r| ≤ |r - t| := (exists_nearest r).choose_spec.2 t ht

theorem nearestDouble_mono {a b : ℝ} (h : a ≤ b) : nearestDouble a ≤ nearestDouble b := by
  by_contra hc
  push Not at hc
  have h1 := nearestDouble_le a _ (nearestDouble_mem b)
  have h2 := nearestDouble_le b _ (nearestDouble_mem a)
  rcases eq_or_lt_of_le h with rfl | h
  · exact lt_irrefl _ hc
  have h1' := sq_le_sq.2 h1
  have h2' := sq_le_sq.2 h2
  nlinarith

/-- the bound above which IEEE rounding to nearest overflows: half an ulp above the largest finite double, `2^1024 - 2^970` -/
noncomputable def overflow : ℝ := (2^54 - 1) * (2:ℝ)^(970:ℤ)

theorem IsDouble.lt_overflow {s : ℝ} (h : IsDouble s) : |s| < overflow := by
  obtain ⟨m, e, h1, h2, h3, rfl⟩ := h
  rw [abs_mul, abs_of_pos (show (0:ℝ) < (2:ℝ)^e from zpow_pos (by norm_num) _)]
  have hm : |(m:ℝ)| ≤ 2^53 - 1 := by
    have : |m| ≤ 2^53 - 1 := by omega
    exact_mod_cast this
  have he : (2:ℝ)^e ≤ (2:ℝ)^(971:ℤ) := zpow_le_zpow_right₀ (by norm_num) h3
  have h971 : (2:ℝ)^(971:ℤ) = 2 * (2:ℝ)^(970:ℤ) := by
    rw [show (971:ℤ) = 1 + 970 by norm_num, zpow_add₀ (by norm_num), zpow_one]
  have hp : (0:ℝ) < (2:ℝ)^(970:ℤ) := zpow_pos (by norm_num) _
  rw [h971] at he
  unfold overflow
  generalize (2:ℝ)^(970:ℤ) = p at *
  have : |(m:ℝ)| * (2:ℝ)^e ≤ (2^53 - 1) * (2 * p) := by
    apply mul_le_mul hm he (zpow_pos (by norm_num) _).le (by norm_num)
  clear h971 he hm h1
  generalize |(m:ℝ)| * (2:ℝ)^e = q at *
  norm_num at this ⊢
  linarith

/-- round to a nearest double, overflowing to an infinity -/
noncomputable def rdNearest (r : ℝ) : XR :=
  if overflow ≤ r then .pinf else if r ≤ -overflow then .ninf else .fin (nearestDouble r)

/-- rounding to nearest is a rounding mode -/
noncomputable def Rounding.nearest : Rounding where
  rd := rdNearest
  mem r := by
    unfold rdNearest
    split
    · exact .inr (.inl rfl)
    · split
      · exact .inr (.inr rfl)
      · exact .inl ⟨_, nearestDouble_mem r, rfl⟩
  exact s hs := by
    have h := abs_lt.1 hs.lt_overflow
    unfold rdNearest
    rw [if_neg (by linarith), if_neg (by linarith)]
    have := nearestDouble_le s s hs
    rw [sub_self, abs_zero] at this
    have : s - nearestDouble s = 0 := by simpa using this
    congr 1; linarith
  mono a b h := by
    unfold rdNearest
    split
    · rw [if_pos (by linarith)]; rfl
    · split
      · split
        · rfl
        · split <;> rfl
      · split
        · rfl
        · rw [if_neg (by linarith)]
          simpa [XR.le] using nearestDouble_mono h

end FMV
