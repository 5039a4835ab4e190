import Verif.Model.Grid
/-
Specification of memory safety.

In the model the cells are a total function of the index, so that an access outside the grid is visible as an influence of, or a change to, the "cells"
whose index is not below the number of cells.  A computation is confined to the grid if it gives the same result whatever these contain (`outside J`
replaces them by `J`) and leaves them as they are.
-/
namespace FMV.Spec
variable {F : Type} [Arith F]

/-- The same grid with `J` in place of what lies beyond its last cell. -/
def outside (J : Nat → Cell F) (g : Grid F) : Grid F := { g with cells := fun i => if i < g.shape.ncells then g.cells i else J i }

/-- every dimension has at least two cells -/
def NoThin (dims : List Nat) : Prop := ∀ d ∈ dims, 2 ≤ d

end FMV.Spec
