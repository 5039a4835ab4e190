import Verif.Spec.Geometry
import Verif.Model.Grid
/-
Specification: mirrored and transposed maps.
-/
namespace FMV.Spec

/-- cell `ρ i` of the box `dims'` is the image of cell `i` of the box `dims` when axis `k` becomes axis `σ k`, mirrored if `flip k` -/
structure Moves (dims dims' : List Nat) (σ : Nat → Nat) (flip : Nat → Bool) (ρ : Nat → Nat) : Prop where
  len : dims'.length = dims.length
  perm : ∀ k, k < dims.length → σ k < dims.length
  inj : ∀ k l, k < dims.length → l < dims.length → σ k = σ l → k = l
  size : ∀ k, k < dims.length → dims'.getD (σ k) 0 = dims.getD k 0
  cell : ∀ i, i < dims.prod → ρ i < dims'.prod ∧ ∀ k, k < dims.length →
    ((Shape.mk' dims').idx2coord (ρ i)).getD (σ k) 0 =
      if flip k then dims.getD k 0 - 1 - ((Shape.mk' dims).idx2coord i).getD k 0 else ((Shape.mk' dims).idx2coord i).getD k 0

end FMV.Spec
