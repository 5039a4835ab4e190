import Verif.Model.Solver
/-
Model of `FM2` (include/fast_methods/fm2/fm2.hpp) and `FM2Star` (include/fast_methods/fm2/fm2star.hpp).

The first wave (from the obstacles) and the second wave (from the goal) are runs of the underlying FMM object, modelled by `Obj` with `Kind.fmm`.
Simplifications: time measurement is left out; `exit(1)` is an explicit outcome.
-/
namespace FMV
open Arith
variable {F : Type} [Arith F]

/-- `compute()` of a solver object (fm/solver.hpp:127-133) on grid `g` returns, leaving grid `G` and object `o'`. -/
def Obj.computes (pop : FMM.St F → Nat → Prop) (o : Obj F) (g G : Grid F) (o' : Obj F) : Prop :=
  (o.ready = true ∧ o.runs pop g G o') ∨ (o.ready = false ∧ ∃ g1 o1, o.setup g = .ok (g1, o1) ∧ o1.runs pop g1 G o')

namespace FM2

/-- An FM2 or FM2* object (fm2/fm2.hpp:194-215, fm2/fm2star.hpp:107-109): `star` is the strategy of FM2*, `none` for FM2; `inner` is `*solver_`. -/
structure Obj (F : Type) where
  star : Option Heur
  maxDist : F
  pts : List Nat
  goal : Nat
  ready : Bool
  sources : List Nat
  inner : FMV.Obj F

/-- Constructors (fm2/fm2.hpp:51-61, fm2/fm2star.hpp:58-64); `d` tells whether the heap is `FMPriorityQueue`. -/
def new (star : Option Heur) (maxDist : F) (d : Bool) (goal : Nat) (j : Junk F) : Obj F :=
  { star := star, maxDist := maxDist, pts := [], goal := goal, ready := false, sources := [], inner := .new (.fmm d .none) j }

/-- `setEnvironment(g)` (fm2/fm2.hpp:66-71): the grid is cleaned (twice) and the obstacle list copied. -/
def Obj.setEnvironment (o : Obj F) (g : Grid F) : Grid F × Obj F :=
  (g.cleanGrid.cleanGrid, { o with sources := g.occupied, inner := o.inner.setEnvironment g.cleanGrid.cleanGrid })

/-- `setInitialAndGoalPoints` (fm/solver.hpp:57-61, overridden in fm2/fm2star.hpp:67-71: the distances are recomputed). -/
def Obj.setPoints (o : Obj F) (g : Grid F) (pts : List Nat) (goal : Nat) : Obj F :=
  match o.star with
  | none => { o with pts := pts, goal := goal }
  | some _ => { o with pts := pts, goal := goal, inner := { o.inner with dist := FMM.precomputeDistances g.shape o.inner.dist, pre := true } }

/-- `sanityChecks()` inherited from `Solver` (fm/solver.hpp:207-226): the same code as in `Obj.sanityChecks`. -/
def Obj.sanityChecks (o : Obj F) (g : Grid F) : Nat := ({ o.inner with pts := o.pts, goal := o.goal } : FMV.Obj F).sanityChecks g

/-- `setup()` (fm2/fm2.hpp:74-88, fm2/fm2star.hpp:74-82): `error` is `exit(1)`; 7: more than one initial point; 8: no obstacles; 9: no goal (FM2*). -/
def Obj.setup (o : Obj F) (g : Grid F) : Except Nat (Grid F × Obj F) :=
  if o.sanityChecks g ≠ 0 then .error (o.sanityChecks g)
  else if o.pts.length > 1 then .error 7
  else if o.sources = [] then .error 8
  else if o.star ≠ none ∧ o.goal = noGoal then .error 9
  else .ok (g.setClean false, { o with ready := true })

/-- The velocity assigned to a cell with arrival time `t` (fm2/fm2.hpp:132-144): `mx` is `maxValue`. -/
def velocity (maxDist leaf mx t : F) : F :=
  let vel := div t mx
  if !(eq maxDist (neg one)) then
    if lt vel (div maxDist leaf) then div vel (div maxDist leaf) else one
  else vel

/-- The loop over all cells in `computeVelocitiesMap` (fm2/fm2.hpp:135-150). -/
def rescale (maxDist : F) (g : Grid F) : Grid F :=
  { g with
    clean := if g.shape.ncells = 0 then g.clean else true
    cells := fun i => if i < g.shape.ncells then
        { g.cells i with occupancy := velocity maxDist g.leaf g.getMaxValue (g.cells i).value, value := inf, state := .opn }
      else g.cells i }

/-- `computeVelocitiesMap()` (fm2/fm2.hpp:118-153) returns, leaving grid `G` and inner solver `s`. -/
def Obj.VelMap (pop : FMM.St F → Nat → Prop) (o : Obj F) (g G : Grid F) (s : FMV.Obj F) : Prop :=
  ∃ g1, (o.inner.setPoints o.sources noGoal).computes pop (g.setClean true) g1 s ∧ G = rescale o.maxDist g1

/-- The inner solver before the second wave (fm2/fm2.hpp:102-106, fm2/fm2star.hpp:95-100). -/
def Obj.second (o : Obj F) (g : Grid F) (s : FMV.Obj F) : FMV.Obj F :=
  match o.star with
  | none => s.setPoints [o.goal] (o.pts.headD 0)
  | some h => (s.setPoints [o.goal] (o.pts.headD 0)).setHeuristics g h

/-- `computeInternal()` (fm2/fm2.hpp:91-111, fm2/fm2star.hpp:85-105) of a solver that has been set up. -/
def Obj.Runs (pop : FMM.St F → Nat → Prop) (o : Obj F) (g G : Grid F) (o' : Obj F) : Prop :=
  ∃ gv s g2 s2, o.VelMap pop g gv s ∧ (o.second gv s).computes pop gv g2 s2 ∧ G = g2.setClean false ∧ o' = { o with inner := s2 }

/-- `compute()` (fm/solver.hpp:127-133) -/
def Obj.Computes (pop : FMM.St F → Nat → Prop) (o : Obj F) (g G : Grid F) (o' : Obj F) : Prop :=
  (o.ready = true ∧ o.Runs pop g G o') ∨ (o.ready = false ∧ ∃ g1 o1, o.setup g = .ok (g1, o1) ∧ o1.Runs pop g1 G o')

/-- `reset()` (fm2/fm2.hpp:180-184) -/
def Obj.reset (o : Obj F) (g : Grid F) : Grid F × Obj F :=
  let r := o.inner.reset g.cleanGrid
  (r.1, { o with ready := false, inner := r.2 })

end FM2
end FMV
