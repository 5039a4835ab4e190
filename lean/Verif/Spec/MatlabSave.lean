import Mathlib.Data.Real.Basic
/-
Specification of numbers printed with a fixed number of decimals.
-/
namespace FMV
namespace Spec
/-- a number with at most `p` digits after the point -/
def Decimals (p : Nat) (d : ℝ) : Prop := ∃ m : ℤ, d = m / 10^p

/-- `d` is a number with at most `p` digits after the point, and none of these is closer to `x` -/
def NearestDecimals (p : Nat) (x d : ℝ) : Prop := Decimals p d ∧ ∀ t, Decimals p t → |d - x| ≤ |t - x|
end Spec
end FMV
