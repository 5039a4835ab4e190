import Verif.Model.FM2
import Verif.Spec.Lifecycle
import Verif.Spec.Eikonal
import Verif.Model.XR
/-
Specification vocabulary for FM2 (C32-C34).
-/
namespace FMV.Spec
open Arith XR
variable {F : Type} [Arith F]

/-- What a program does before `compute()`: construct an FM2 / FM2* solver (`star`, saturation distance `maxDist`, heap type `d`; `gl` and `j` are the
contents of members that the constructors leave uninitialised), `setEnvironment(g)`, `setInitialAndGoalPoints(pts, goal)`.  The grid and the solver afterwards. -/
def configuredFM2 (star : Option Heur) (maxDist : F) (d : Bool) (gl : Nat) (j : Junk F) (g : Grid F) (pts : List Nat) (goal : Nat) : Grid F × FM2.Obj F :=
  let e := (FM2.new star maxDist d gl j).setEnvironment g
  (e.1, e.2.setPoints e.1 pts goal)

/-- A map FM2 can work on: sizes `dims` of at least 2 with at most 2^31 cells in total, positive leaf size `h`, finite speeds `v i` in the free cells, a
`clean` flag that tells the truth, an obstacle list that is complete and correct, at least one obstacle and one free cell. -/
structure FM2Map (dims : List Nat) (g : Grid XR) (h : ℝ) (v : Nat → ℝ) : Prop where
  dims2 : 2 ≤ dims.length
  two : ∀ x ∈ dims, 2 ≤ x
  cells : dims.prod ≤ 2^31
  shape : g.shape = Shape.mk' dims
  hpos : 0 < h
  leaf : g.leaf = fin h
  speed : ∀ i, i < dims.prod → g.occ i = false → g.vel i = fin (v i)
  clean : g.clean = true → ∀ i, g.value i = pinf ∧ g.state i = .opn ∧ (g.cells i).hValue = fin 0
  listed : ∀ i, i ∈ g.occupied ↔ i < dims.prod ∧ g.occ i = true
  obstacle : ∃ i, i < dims.prod ∧ g.occ i = true
  free : ∃ i, i < dims.prod ∧ g.occ i = false

/-- The exact arrival times of a wave that starts in all obstacles of `g`. -/
def obstacleWave (dims : List Nat) (g : Grid XR) (h : ℝ) (v : Nat → ℝ) : Problem :=
  { dims := dims, h := h, v := v, obstacle := fun i => g.occ i = true, source := fun i => g.occ i = true }

end FMV.Spec
