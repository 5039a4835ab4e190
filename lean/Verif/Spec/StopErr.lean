import Verif.Spec.Distance
/-! Error bound for C96. -/
namespace FMV.Spec
/-- Relative error guaranteed for FIM in double precision: the error `relErr` of the local solver, the stop threshold `e` (a cell is given up once a
recomputation changes it by at most `e`) and the rounding of that difference.  `D`: number of dimensions, `cm`: least time to cross a cell, `A`: bound on all times. -/
noncomputable def stopErr (D : Nat) (cm A e : ℝ) : ℝ := relErr D cm A + 2 * D * (e + 3 * A * (1 / 2^51)) / cm
end FMV.Spec
