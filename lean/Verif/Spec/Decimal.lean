import Verif.Spec.IO
import Verif.Model.F64
import Mathlib.Data.Real.Basic
/-
Specification of numbers in text files: six significant digits, and the number a text stands for.
-/
namespace FMV.Spec
open Console

/-- a number with at most six significant decimal digits -/
def SixDigits (d : ℝ) : Prop := ∃ m k : ℤ, |m| < 10^6 ∧ d = m * (10:ℝ)^k

/-- `d` is a number with at most six significant digits, and none of these is closer to `x` -/
def NearestSix (x d : ℝ) : Prop := SixDigits d ∧ ∀ t, SixDigits t → |d - x| ≤ |t - x|

/-- a number that is neither extremely small nor extremely large -/
def Usual (r : ℝ) : Prop := (10:ℝ)^(-300:ℤ) ≤ |r| ∧ |r| ≤ (10:ℝ)^(300:ℤ)

/-- `y` is what is read where `x` was written: the nearest number with six significant digits, rounded to a double; infinities and NaN as they are. -/
def Printed {R : Rounding} (x y : F64 R) : Prop := (∀ r, x.1 = .fin r → ∃ d, NearestSix r d ∧ y.1 = R.rd d) ∧ ((∀ r, x.1 ≠ .fin r) → y = x)

/-- The text `s` stands for the number `v`: a sign, digits, possibly a point and a fraction, possibly an exponent (positional notation). -/
def TextValue (s : Str) (v : ℝ) : Prop :=
  ∃ (neg : Bool) (int f : Str) (exp : Option (Bool × Str)), IsNumber int ∧ Digits f ∧ (∀ p ∈ exp, IsNumber p.2) ∧
    s = (if neg then ['-'] else []) ++ int ++ (if f = [] then [] else '.' :: f) ++
      (match exp with | none => [] | some (eneg, ds) => 'e' :: (if eneg then '-' else '+') :: ds) ∧
    v = (if neg then -1 else 1) * (readNat (int ++ f) : ℝ) / (10:ℝ)^f.length *
      (match exp with | none => 1 | some (eneg, ds) => if eneg then 1 / (10:ℝ)^(readNat ds) else (10:ℝ)^(readNat ds))

end FMV.Spec
