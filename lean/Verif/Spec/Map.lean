import Verif.Model.Grid
import Verif.Spec.Geometry
/-
Specification: what "the map is not modified" and "reachable" mean.
-/
namespace FMV.Spec
variable {F : Type} [Arith F]

/-- Both grids are the same map: dimensions, leaf size, obstacle list, and velocity and index of every cell. -/
structure SameMap (g g' : Grid F) : Prop where
  shape : g'.shape = g.shape
  leaf : g'.leaf = g.leaf
  occupied : g'.occupied = g.occupied
  occupancy : ∀ i, (g'.cells i).occupancy = (g.cells i).occupancy
  index : ∀ i, (g'.cells i).index = (g.cells i).index

theorem SameMap.refl (g : Grid F) : SameMap g g := ⟨rfl, rfl, rfl, fun _ => rfl, fun _ => rfl⟩
theorem SameMap.trans {a b c : Grid F} (h : SameMap a b) (k : SameMap b c) : SameMap a c :=
  ⟨k.shape.trans h.shape, k.leaf.trans h.leaf, k.occupied.trans h.occupied,
   fun i => (k.occupancy i).trans (h.occupancy i), fun i => (k.index i).trans (h.index i)⟩

/-- `i` can be reached from a cell of `init` by axis moves between cells of the box `dims`, every cell entered being free
(`free`); the starting cells need not be free. -/
inductive Reachable (dims : List Nat) (coords : Nat → List Nat) (free : Nat → Prop) (init : Nat → Prop) : Nat → Prop
  | start {i} : init i → i < dims.prod → Reachable dims coords free init i
  | move {i j} : Reachable dims coords free init i → j < dims.prod → free j →
      AxisAdjacent (coords i) (coords j) → Reachable dims coords free init j

end FMV.Spec
