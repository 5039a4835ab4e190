import Verif.Spec.Distance
/-! Condition on the time step and error bound for C97. -/
namespace FMV.Spec
/-- The time step `d` of GMM suits a map in `D` dimensions on which crossing a cell takes at least `cm` and no time exceeds `A`: adding it to a time is not
lost in rounding, and with the rounding error of the local solver it is at most three quarters of `cm / √D`. -/
def StepFits (D : Nat) (cm A d : ℝ) : Prop := A / 2^49 < d ∧ Real.sqrt D * (d + relErr D cm A * cm) ≤ 3 / 4 * cm

/-- Relative error guaranteed for GMM in double precision with step `d`. -/
noncomputable def stepErr (D : Nat) (cm A d : ℝ) : ℝ := 2 * D * (1 + Real.sqrt D) * d / cm + (3 + Real.sqrt D) * relErr D cm A
end FMV.Spec
