import Verif.Spec.Map
import Mathlib.Data.Real.Basic
/-
Specification: routes on the grid and the time they take, and heuristics that never promise too much.
-/
namespace FMV.Spec

/-- `Route ... i t n`: cell `i` of the box `dims` can be reached from `start` by a route of `n` axis moves through free cells that takes the time
`t`, where entering cell `j` takes `cross j`. -/
inductive Route (dims : List Nat) (coords : Nat → List Nat) (free : Nat → Prop) (cross : Nat → ℝ) (start : Nat) : Nat → ℝ → Nat → Prop
  | start : Route dims coords free cross start start 0 0
  | move {i j t n} : Route dims coords free cross start i t n → j < dims.prod → free j → AxisAdjacent (coords i) (coords j) →
      Route dims coords free cross start j (t + cross j) (n + 1)

/-- The heuristic `H` never drops by more than the time a move takes. -/
def Consistent (dims : List Nat) (coords : Nat → List Nat) (free : Nat → Prop) (cross : Nat → ℝ) (start : Nat) (H : Nat → ℝ) : Prop :=
  ∀ i j, i < dims.prod → j < dims.prod → (i = start ∨ free i) → free j → AxisAdjacent (coords i) (coords j) → H i ≤ H j + cross j

end FMV.Spec
