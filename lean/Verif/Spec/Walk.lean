import Verif.Spec.Geometry
import Verif.Model.Grid
import Mathlib.Data.Real.Basic
/-
Specification: walks on the grid, from cell to neighbouring cell, and their duration (what a shortest-path search such as Dijkstra's algorithm on the grid minimises).
-/
namespace FMV.Spec

/-- A walk from cell `p` to a cell through free cells (the first cell need not be free), in steps along the axes, each of which takes the time `h / v i` needed to cross the
cell `i` that is entered. -/
inductive Walk {F : Type} [Arith F] (dims : List Nat) (g : Grid F) (h : ℝ) (v : Nat → ℝ) (p : Nat) : Nat → ℝ → Prop
  | stay : Walk dims g h v p p 0
  | step {q i : Nat} {b : ℝ} : Walk dims g h v p q b → i < dims.prod → AxisAdjacent ((Shape.mk' dims).idx2coord q) ((Shape.mk' dims).idx2coord i) → g.occ i = false →
      Walk dims g h v p i (b + h / v i)

end FMV.Spec
