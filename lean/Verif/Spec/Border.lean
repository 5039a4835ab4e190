import Verif.Spec.Path
/-
Specification vocabulary for paths on maps with a border (C79).
-/
namespace FMV.Spec
open XR

/-- coordinate `i` of a cell -/
def coordN (dims : List Nat) (c i : Nat) : Nat := ((Shape.mk' dims).idx2coord c).getD i 0

/-- The cell is at least `d` cells away from the border of the map in every direction (`Inner dims 1 c`: it is not on the border). -/
def Inner (dims : List Nat) (d c : Nat) : Prop := c < dims.prod ∧ ∀ i, i < dims.length → d ≤ coordN dims c i ∧ coordN dims c i + d < dims.getD i 0

/-- Length of the shortest way between two cells along the axes, in cells. -/
def axisDist (dims : List Nat) (a b : Nat) : ℝ := ∑ i ∈ Finset.range dims.length, |(coordN dims a i : ℝ) - coordN dims b i|

end FMV.Spec
