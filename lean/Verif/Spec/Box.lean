import Verif.Spec.Heuristic
import Verif.Model.Grid
import Mathlib.Analysis.SpecialFunctions.Log.Basic
/-
Specification: the box between two cells, and polygonal lines through clear boxes.
-/
namespace FMV.Spec

/-- `c` lies in the axis-parallel box with corners `a` and `b` -/
def Between (a b c : List Nat) : Prop := ∀ k, min (a.getD k 0) (b.getD k 0) ≤ c.getD k 0 ∧ c.getD k 0 ≤ max (a.getD k 0) (b.getD k 0)

/-- all cells of the box with corners `p` and `q` are free and are crossed in time at most `τ` -/
def ClearBox {F : Type} [Arith F] (dims : List Nat) (g : Grid F) (h : ℝ) (v : Nat → ℝ) (τ : ℝ) (p q : Nat) : Prop :=
  ∀ j, j < dims.prod → Between ((Shape.mk' dims).idx2coord p) ((Shape.mk' dims).idx2coord q) ((Shape.mk' dims).idx2coord j) →
    g.occ j = false ∧ h / v j ≤ τ

/-- a straight piece of `e` cells length: its length plus the discretisation error, in cells -/
noncomputable def pieceBound (D : Nat) (e : ℝ) : ℝ := e + (1 + 2 * Real.sqrt D) * Real.log (1 + e)

/-- A polygonal line from cell `p` through the cells `ws`, every piece in a clear box, and the sum of the bounds of its pieces. -/
inductive ClearLine {F : Type} [Arith F] (dims : List Nat) (g : Grid F) (h : ℝ) (v : Nat → ℝ) (τ : ℝ) : Nat → Nat → ℝ → Prop
  | nil (p : Nat) : ClearLine dims g h v τ p p 0
  | snoc {p q i : Nat} {b : ℝ} : ClearLine dims g h v τ p q b → i < dims.prod → ClearBox dims g h v τ q i →
      ClearLine dims g h v τ p i (b + pieceBound dims.length (euclid ((Shape.mk' dims).idx2coord i) ((Shape.mk' dims).idx2coord q)))

end FMV.Spec
