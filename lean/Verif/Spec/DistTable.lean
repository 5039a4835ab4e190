import Verif.Model.DistTable
import Verif.Spec.Geometry
import Verif.Lemmas.Shape
/-
Specification: histories in which the table of distances is used as it was meant to be.  What the programmer knows: the sizes of the current grid, for how many cells the table
has been filled since the object was cleared last, and the goal for which the heuristic was set up on this grid.
-/
namespace FMV.Spec.DistTable
open FMV.DistTable FMV.Shape

structure Known where
  dims : Option (List Nat)
  filled : Option Nat
  goalSet : Bool

/-- a grid of the supported size: at least two dimensions, fewer than 2^32 cells, sides of at most 65536 -/
def GridOk (dims : List Nat) : Prop := Fits dims (2^32) ∧ ∀ n ∈ dims, n ≤ 65536

/-- One call that respects the rules: nothing is used before a grid is set; a run comes after a set-up on the same grid; the grid has no more cells than the table. -/
inductive Ok : Known → Call → Known → Prop
  | setEnvironment {k dims} : GridOk dims → Ok k (.setEnvironment dims) { k with dims := some dims, goalSet := false }
  | setup {k : Known} {dims goal} : k.dims = some dims → goal < dims.prod →
      Ok k (.setup goal) { k with filled := some (k.filled.getD dims.prod), goalSet := true }
  | precompute {k : Known} {dims} : k.dims = some dims → Ok k .precompute { k with filled := some (max dims.prod (k.filled.getD 0)) }
  | compute {k : Known} {dims n visited} : k.dims = some dims → k.filled = some n → dims.prod ≤ n → k.goalSet = true → (∀ i ∈ visited, i < dims.prod) →
      Ok k (.compute visited) k
  | clear {k} : Ok k .clear { k with filled := none }
  | reset {k} : Ok k .reset k

/-- A history that respects the rules. -/
inductive Careful : List Call → Known → Prop
  | nil : Careful [] ⟨none, none, false⟩
  | snoc {cs k c k'} : Careful cs k → Ok k c k' → Careful (cs ++ [c]) k'

end FMV.Spec.DistTable
