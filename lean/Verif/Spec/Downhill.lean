import Verif.Spec.Geometry
import Mathlib.Data.Real.Basic
import Mathlib.Order.WithBot
/-
Specification: walking downhill on arrival times.
-/
namespace FMV.Spec

/-- `next` moves from every cell of the box `dims` to an axis neighbour with the smallest time `T` among all axis neighbours. -/
def MovesDown (dims : List Nat) (coords : Nat → List Nat) (T : Nat → WithTop ℝ) (next : Nat → Nat) : Prop :=
  ∀ i, i < dims.prod → next i < dims.prod ∧ AxisAdjacent (coords i) (coords (next i)) ∧
    ∀ j, j < dims.prod → AxisAdjacent (coords i) (coords j) → T (next i) ≤ T j

/-- From cell `i`, moving on with `next` arrives at a cell of `goals` after fewer moves than there are cells; on the way the times decrease strictly and
every cell passed is allowed. -/
def Arrives (dims : List Nat) (T : Nat → WithTop ℝ) (allowed goals : Nat → Prop) (next : Nat → Nat) (i : Nat) : Prop :=
  ∃ n, n < dims.prod ∧ goals (next^[n] i) ∧ ∀ m, m < n → T (next^[m + 1] i) < T (next^[m] i) ∧ allowed (next^[m] i)

end FMV.Spec
