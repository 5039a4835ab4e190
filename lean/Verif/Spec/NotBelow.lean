import Verif.Model.XR
import Mathlib.Order.WithBot
/-
Specification: a computed arrival time does not underestimate the exact one.
-/
namespace FMV.Spec

/-- The computed time `t` is `+inf` (not reached, or not yet), or a non-negative number which is at most the fraction `ρ` below the exact time; a
number is only reported where the exact time is finite, and NaN never. -/
def NotBelow (ρ : ℝ) (exact : WithTop ℝ) (t : XR) : Prop :=
  t = .pinf ∨ ∃ e r : ℝ, exact = (e : WithTop ℝ) ∧ t = .fin r ∧ 0 ≤ r ∧ (1 - ρ) * e ≤ r

/-- Rounding errors of the local solver in `D` dimensions relative to the exact time, if crossing a cell takes at least `cm` and no time exceeds
`A`; `2^-51` bounds the relative error of one rounding in every rounding mode.  `COMP_MARGIN` does not enter. -/
noncomputable def roundErr (D : Nat) (cm A : ℝ) : ℝ := 140 * (D:ℝ)^3 * (1 / 2^51) * (A / cm)^2

end FMV.Spec
