import Mathlib.Analysis.Real.Sqrt
/-
Specification: Euclidean distance between two cells, measured in cells.
-/
namespace FMV.Spec

/-- Euclidean distance between two coordinate vectors. -/
noncomputable def euclid (a b : List Nat) : ℝ := Real.sqrt ((List.zipWith (fun (x y : Nat) => ((x : ℝ) - (y : ℝ)) ^ 2) a b).sum)

end FMV.Spec
