import Verif.Spec.Geometry
import Verif.Model.Grid
import Mathlib.Order.Bounds.Basic
import Mathlib.Data.Real.Basic
import Mathlib.Algebra.BigOperators.Group.Finset.Basic
import Mathlib.Order.WithBot
/-
Specification: the upwind discretisation of the Eikonal equation |grad T| = 1/v on a grid.
Independent of every solver; uses only coordinates.
`⊤` is "never reached" (infinite time).
-/
namespace FMV.Spec
open Classical

/-- A discrete Eikonal problem. -/
structure Problem where
  /-- sizes of the grid -/
  dims : List Nat
  /-- cell size -/
  h : ℝ
  /-- speed in each cell -/
  v : Nat → ℝ
  /-- cells that are obstacles -/
  obstacle : Nat → Prop
  /-- cells the wave starts from -/
  source : Nat → Prop

/-- number of cells -/
def Problem.N (P : Problem) : Nat := P.dims.prod

/-- coordinates of cell `i` -/
def Problem.coords (P : Problem) (i : Nat) : List Nat := (Shape.mk' P.dims).idx2coord i

/-- `((X - m)^+)^2`, zero for an unreached neighbour -/
noncomputable def posSq (X : ℝ) : WithTop ℝ → ℝ
  | none => 0
  | some m => (max (X - m) 0)^2

/-- `m` is the smallest arrival time among the neighbours of `i` in direction `k`
(`⊤` if there are none). -/
def Problem.IsDirMin (P : Problem) (U : Nat → WithTop ℝ) (i k : Nat) (m : WithTop ℝ) : Prop :=
  IsGLB {t | ∃ j, j < P.N ∧ AdjacentIn k (P.coords i) (P.coords j) ∧ t = U j} m

/-- `U` solves the upwind discretised Eikonal equation: sources have time 0, other obstacles are never
reached, and at every other cell either no neighbour is reached and neither is the cell, or
`sum_k ((U i - min_k)^+)^2 = (h / v i)^2`. -/
def Problem.IsSolution (P : Problem) (U : Nat → WithTop ℝ) : Prop :=
  ∀ i, i < P.N →
    (P.source i → U i = 0) ∧
    (¬ P.source i → P.obstacle i → U i = ⊤) ∧
    (¬ P.source i → ¬ P.obstacle i → ∀ m : Nat → WithTop ℝ, (∀ k, k < P.dims.length → P.IsDirMin U i k (m k)) →
      (∃ r : ℝ, U i = (r : WithTop ℝ) ∧ ∑ k ∈ Finset.range P.dims.length, posSq r (m k) = (P.h / P.v i)^2) ∨
      (U i = ⊤ ∧ ∀ k, k < P.dims.length → m k = ⊤))

/-- The conditions under which the problem makes sense: a grid the library can index, positive cell size and
positive speed in every cell that is not an obstacle. -/
structure Problem.WellPosed (P : Problem) : Prop where
  two : 2 ≤ P.dims.length
  pos : ∀ x ∈ P.dims, 0 < x
  lt : P.dims.prod ≤ 2^31
  hpos : 0 < P.h
  vpos : ∀ i, i < P.N → ¬ P.obstacle i → 0 < P.v i

end FMV.Spec
