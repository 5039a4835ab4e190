import Verif.Model.XR
import Verif.Model.Grid
/-
Specification vocabulary for gradient descent (C35).
-/
namespace FMV.Spec
open XR

/-- The slope of the arrival time between the cells before (`a`) and after (`b`) in one direction: half the difference, or only its sign if one of
them was not reached. -/
def IsSlope (a b : XR) (r : ℝ) : Prop :=
  (∃ x y, a = fin x ∧ b = fin y ∧ r = (y - x) / 2) ∨ (∃ x, a = fin x ∧ b = pinf ∧ r = 1) ∨ (∃ y, a = pinf ∧ b = fin y ∧ r = -1)

/-- Number of cells in the first `i` dimensions: the distance between the indices of neighbours in dimension `i`. -/
def strideProd (dims : List Nat) (i : Nat) : Nat := (dims.take i).prod

/-- The point `q` is obtained from `p`, which lies in cell `c`, by moving against the slope of `T` in such a way that the coordinates of steepest slope
change by exactly `δ`. -/
structure DescentStep (dims : List Nat) (T : Nat → XR) (δ : ℝ) (c : Nat) (p q : List ℝ) : Prop where
  len : q.length = dims.length
  before : ∀ i, i < dims.length → strideProd dims i ≤ c
  after : ∀ i, i < dims.length → c + strideProd dims i < dims.prod
  move : ∃ (s : Nat → ℝ) (m : ℝ), (∀ i, i < dims.length → IsSlope (T (c - strideProd dims i)) (T (c + strideProd dims i)) (s i)) ∧
    0 < m ∧ (∀ i, i < dims.length → |s i| ≤ m) ∧ (∃ i, i < dims.length ∧ |s i| = m) ∧
    ∀ i, i < dims.length → q.getD i 0 = p.getD i 0 - δ * s i / m

/-- The coordinates of the centre of a cell. -/
def centre (dims : List Nat) (c : Nat) : List ℝ := ((Shape.mk' dims).idx2coord c).map (fun n : Nat => (n : ℝ))

/-- `c` is the cell around `q`, if `q` lies inside the grid. -/
def CellAt (dims : List Nat) (q : List ℝ) (c : Nat) : Prop :=
  (∀ i, i < dims.length → 0 ≤ q.getD i 0 + 1/2 ∧ q.getD i 0 + 1/2 < dims.getD i 0) →
    ∀ i, i < dims.length → (((Shape.mk' dims).idx2coord c).getD i 0 : ℝ) ≤ q.getD i 0 + 1/2 ∧ q.getD i 0 + 1/2 < ((Shape.mk' dims).idx2coord c).getD i 0 + 1

/-- A sequence of points in a sequence of cells, each obtained from the one before by a descent step, which starts at the centre of a cell. -/
inductive Descent (dims : List Nat) (T : Nat → XR) (δ : ℝ) : List Nat → List (List ℝ) → Prop
  | start (c : Nat) : c < dims.prod → Descent dims T δ [c] [centre dims c]
  | step {cs ps c p} (q c') : Descent dims T δ (cs ++ [c]) (ps ++ [p]) → T c ≠ fin 0 → DescentStep dims T δ c p q → c' < dims.prod → CellAt dims q c' →
      Descent dims T δ (cs ++ [c] ++ [c']) (ps ++ [p] ++ [q])

end FMV.Spec
