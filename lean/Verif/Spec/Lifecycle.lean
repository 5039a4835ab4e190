import Verif.Model.Solver
/-
Specification of the life cycle of solvers: what "a fresh grid", "a new program" and "a careful history" mean.
-/
namespace FMV.Spec
open Arith
variable {F : Type} [Arith F]

/-- A grid just created with the same sizes, leaf size, velocities and obstacle list: every cell is as the constructor leaves it.
(The uninitialised scratch buffer of the new grid is taken to contain what the old one contains.) -/
def freshGrid (g : Grid F) : Grid F :=
  { g with clean := true
           cells := fun i => { (Cell.default : Cell F) with occupancy := (g.cells i).occupancy, index := (g.cells i).index } }

/-- The start of a program: a new grid (possibly with a map loaded into it) and newly constructed solvers of any classes. -/
structure NewWorld (w : World F) : Prop where
  grid : w.grid = freshGrid w.grid
  objs : ∀ k, ∃ kind junk, w.obj k = Obj.new kind junk

/-- the solver is an LSM -/
def IsLSM (o : Obj F) : Prop := ∃ m, o.kind = .lsm m
/-- the solver was constructed with a heuristic -/
def IsStar (o : Obj F) : Prop := ∃ d h, o.kind = .fmm d h ∧ h ≠ .none

/-- A careful call: (1) a solver that has already been set up is not run on a grid that has been cleaned since (it must be `reset` first);
(2) `reset` is not called on an LSM (allowed if `lsm` is true); (3) solvers with heuristics are set up with a goal. -/
def Careful (lsm : Bool) (w : World F) : Call → Prop
  | .compute k => ((w.obj k).ready = false ∨ w.grid.clean = false) ∧ (IsStar (w.obj k) → (w.obj k).ready = false → (w.obj k).goal ≠ noGoal)
  | .setup k => IsStar (w.obj k) → (w.obj k).goal ≠ noGoal
  | .reset k => IsLSM (w.obj k) → lsm = true
  | _ => True

/-- A sequence of careful calls that all return. -/
inductive CarefulCalls (lsm : Bool) (pop : FMM.St F → Nat → Prop) : World F → World F → Prop
  | nil (w) : CarefulCalls lsm pop w w
  | snoc {w w' w''} (c : Call) : CarefulCalls lsm pop w w' → Careful lsm w' c → Does pop c w' w'' → CarefulCalls lsm pop w w''

/-- `Result pop cs w G`: the calls `cs`, made in world `w`, all return and leave the grid `G`. -/
def Result (pop : FMM.St F → Nat → Prop) (cs : List Call) (w : World F) (G : Grid F) : Prop := ∃ w', Calls pop cs w w' ∧ w'.grid = G

/-- The conditions that `setup()` documents: the grid is clean, there is an initial point, a single initial point is free, a goal, if given, is free,
and no initial point is the goal. -/
structure ValidProblem (g : Grid F) (pts : List Nat) (goal : Nat) : Prop where
  clean : g.clean = true
  some : pts ≠ []
  start : ∀ p, pts = [p] → g.occ p = false
  free : goal ≠ noGoal → g.occ goal = false
  apart : goal ∉ pts

end FMV.Spec
