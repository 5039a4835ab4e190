import Verif.Spec.Map
import Verif.Model.XR
import Mathlib.Order.WithBot
/-
Specification: number of moves to a cell, and relative accuracy of a computed time.
-/
namespace FMV.Spec

/-- Cell `i` can be reached from a cell of `init` by exactly `d` axis moves between cells of the box `dims`, every cell entered being free. -/
inductive ReachIn (dims : List Nat) (coords : Nat → List Nat) (free : Nat → Prop) (init : Nat → Prop) : Nat → Nat → Prop
  | start {i} : init i → i < dims.prod → ReachIn dims coords free init 0 i
  | move {d i j} : ReachIn dims coords free init d i → j < dims.prod → free j →
      AxisAdjacent (coords i) (coords j) → ReachIn dims coords free init (d + 1) j

/-- The computed time `t` approximates the exact time: both infinite, or both finite with relative error at most `ρ`. -/
def RelClose (ρ : ℝ) (exact : WithTop ℝ) (t : XR) : Prop :=
  (exact = ⊤ ∧ t = .pinf) ∨ ∃ e r : ℝ, exact = (e : WithTop ℝ) ∧ t = .fin r ∧ (1 - ρ) * e ≤ r ∧ r ≤ (1 + ρ) * e

/-- Relative error guaranteed in double precision in `D` dimensions, if crossing a cell takes at least `cm` and no time exceeds `A`: `COMP_MARGIN`
is `100000 * 2^-52`, and `2^-51` bounds the relative error of one rounding in every rounding mode. -/
noncomputable def relErr (D : Nat) (cm A : ℝ) : ℝ := 4 * D * (100000 / 2^52) / cm + 420 * (D:ℝ)^4 * (1 / 2^51) * (A / cm)^2

end FMV.Spec
