import Verif.Model.UQ
import Verif.Model.DDQM
import Verif.Model.FIM
import Verif.Model.GMM
import Verif.Model.Heuristic
/-
Model of the life cycle of the solvers: `Solver` (include/fast_methods/fm/solver.hpp) and the overrides of `setEnvironment`, `setup`,
`computeInternal` and `reset` in the derived classes.

The world contains one grid shared by any number of solver objects.
Simplifications: one flat record holds the members of all classes (each class uses its own); time measurement and console output are left
out; `exit(1)` is an explicit outcome; indices given by the user are not checked against the grid by the library, and the total cell function makes
reading a cell outside the grid harmless here (see C48 for when this happens).
-/
namespace FMV
open Arith
variable {F : Type} [Arith F]

/-- The class of a solver with its constructor arguments: FMM/SFMM/FMM*/SFMM* (fm/fmm.hpp:67,74; `dup` for SFMM), FSM (fm/fsm.hpp:43-49),
LSM (fm/lsm.hpp:42-44), DDQM (fm/ddqm.hpp:44), FIM (fm/fim.hpp:38-39), GMM (fm/gmm.hpp:36-38), UFMM (fm/ufmm.hpp:40-47). -/
inductive Kind (F : Type) where
  | fmm (dup : Bool) (h : Heur)
  | fsm (maxSweeps : Nat)
  | lsm (maxSweeps : Nat)
  | ddqm
  | fim (E : F)
  | gmm (dt : F)
  | ufmm (size : Nat) (inc : F) (ub : F → Nat)

/-- A solver object. -/
structure Obj (F : Type) where
  kind : Kind F
  /-- `init_points_`, `goal_idx_`, `setup_` (fm/solver.hpp:243-252) -/
  pts : List Nat
  goal : Nat
  ready : Bool
  /-- FMM: `narrow_band_`, `heurStrategy_`, `distances_`, `precomputed_`, `heur_coord_` (fm/fmm.hpp:240-253) -/
  heap : List Nat
  heur : Heur
  dist : Nat → F
  pre : Bool
  hcoord : List Nat
  /-- FSM, LSM: `sweeps_`, `incs_` (fm/fsm.hpp:200-215) -/
  sweeps : Nat
  incs : List Int
  /-- DDQM: `queues_`, `threshold_`, `thStep_` (fm/ddqm.hpp:182-190) -/
  q0 : List Nat
  q1 : List Nat
  threshold : F
  thStep : F
  /-- FIM: `active_list_` (fm/fim.hpp:124); GMM: `gamma_` (fm/gmm.hpp:177) -/
  list : List Nat
  /-- GMM: `deltau_` (fm/gmm.hpp:174) -/
  deltau : F
  /-- UFMM: `*narrow_band_` (fm/ufmm.hpp:131) -/
  uq : UQ F

/-- What uninitialised members contain. -/
structure Junk (F : Type) where
  goal : Nat
  dist : Nat → F
  hcoord : List Nat
  incs : List Int
  threshold : F
  thStep : F

namespace Obj

/-- A newly constructed solver (constructors as cited at `Kind`; fm/solver.hpp:44-46). -/
def new (k : Kind F) (j : Junk F) : Obj F :=
  { kind := k, pts := [], goal := j.goal, ready := false, heap := [],
    heur := match k with | .fmm _ h => h | _ => .none
    dist := j.dist, pre := false, hcoord := j.hcoord, sweeps := 0, incs := j.incs, q0 := [], q1 := [], threshold := j.threshold, thStep := j.thStep,
    list := []
    deltau := match k with | .gmm dt => dt | _ => zero
    uq := match k with | .ufmm s inc ub => UQ.create s inc ub | _ => UQ.create 0 zero (fun _ => 0) }

/-- `setInitialAndGoalPoints(init_points, goal_idx)` (fm/solver.hpp:57-61); `setInitialPoints` passes `-1` (fm/solver.hpp:64-68). -/
def setPoints (o : Obj F) (pts : List Nat) (goal : Nat) : Obj F := { o with pts := pts, goal := goal }

/-- `setEnvironment(g)`, effect on the object (fm/solver.hpp:50-54, fm/ddqm.hpp:47-52).  `setup_` is not touched. -/
def setEnvironment (o : Obj F) (g : Grid F) : Obj F :=
  match o.kind with
  | .ddqm => { o with thStep := DDQM.thStepEnv g, threshold := DDQM.thStepEnv g }
  | _ => o

/-- `sanityChecks()` (fm/solver.hpp:207-226) with a grid set: 0 or the error number. -/
def sanityChecks (o : Obj F) (g : Grid F) : Nat :=
  if g.clean = false then 2
  else if o.pts = [] then 3
  else if o.pts.length = 1 ∧ g.occ (o.pts.headD 0) = true then 4
  else if o.goal ≠ noGoal ∧ g.occ o.goal = true then 5
  else if o.pts.any (fun ip => ip == o.goal) then 6
  else 0

/-- `FMM::setHeuristics(h)` (fm/fmm.hpp:152-161) -/
def setHeuristics (o : Obj F) (g : Grid F) (h : Heur) : Obj F :=
  if h ≠ .none ∧ o.goal ≠ noGoal then
    { o with heur := h, hcoord := g.shape.idx2coord o.goal,
             dist := if o.pre then o.dist else FMM.precomputeDistances g.shape o.dist, pre := true }
  else o

/-- The part of `setup()` in the derived classes (fm/fmm.hpp:80-90, fm/fsm.hpp:69-75, fm/ddqm.hpp:55-60, fm/gmm.hpp:43-52), effect on the object. -/
def setupKind (o : Obj F) (g : Grid F) : Obj F :=
  match o.kind with
  | .fmm _ _ =>
    let o := o.setHeuristics g o.heur
    if o.goal = noGoal ∧ o.heur ≠ .none then { o with heur := .none } else o
  | .fsm _ => { o with incs := FSM.incs0 g.shape.dims }
  | .lsm _ => { o with incs := FSM.incs0 g.shape.dims }
  | .gmm _ => { o with deltau := GMM.deltau o.deltau g }
  | _ => o

/-- `setup()` (fm/solver.hpp:92-124): `error` is `exit(1)` with the given reason. -/
def setup (o : Obj F) (g : Grid F) : Except Nat (Grid F × Obj F) :=
  if o.sanityChecks g = 0 then .ok (g.setClean false, ({ o with ready := true } : Obj F).setupKind (g.setClean false))
  else .error (o.sanityChecks g)

/-- the FMM configuration of an object; the distances are not used without heuristics -/
def fmmCfg (o : Obj F) (g : Grid F) (dup : Bool) : FMM.Cfg F :=
  { dup := dup, heur := o.heur
    hdist := if o.heur = .none then fun _ => zero else FMM.getPrecomputedDistance g.shape o.dist o.hcoord
    goal := o.goal }

/-- One iteration of the loop of FMM in which the popped element is one the heap `pop` may return. -/
def FMMStep (pop : FMM.St F → Nat → Prop) (cfg : FMM.Cfg F) (s s' : FMM.St F) : Prop :=
  ¬ FMM.Done s ∧ ∃ x ∈ s.heap, pop s x ∧ s' = FMM.expand cfg eikS s x

/-- A terminating run of `computeInternal()` after the call of `setup()`, in each class (fm/fmm.hpp:98-148, fm/fsm.hpp:84-97,
fm/lsm.hpp:52-78, fm/ddqm.hpp:67-130, fm/fim.hpp:49-99, fm/gmm.hpp:56-143, fm/ufmm.hpp:57-96): the grid and the object afterwards.
`pop` says which element the heap of FMM may return. -/
def runs (pop : FMM.St F → Nat → Prop) (o : Obj F) (g : Grid F) (g' : Grid F) (o' : Obj F) : Prop :=
  match o.kind with
  | .fmm dup _ => ∃ n s, FMM.Steps (FMMStep pop (o.fmmCfg g dup)) n (FMM.init (o.fmmCfg g dup) g o.heap o.pts) s ∧ FMM.Done s ∧
      g' = s.g ∧ o' = { o with heap := s.heap }
  | .fsm m => ∃ n s, FMM.Steps (FSM.Step m (FSM.solveFSM o.goal eikS)) n (FSM.initFSM g o.pts o.sweeps o.incs) s ∧ FSM.Done m s ∧
      g' = s.g ∧ o' = { o with sweeps := s.sweeps, incs := s.incs }
  | .lsm m => ∃ n s, FMM.Steps (FSM.Step m (FSM.solveLSM o.goal eikS)) n (FSM.initLSM g o.pts o.sweeps o.incs) s ∧ FSM.Done m s ∧
      g' = s.g ∧ o' = { o with sweeps := s.sweeps, incs := s.incs }
  | .ddqm => ∃ n s, FMM.Steps (DDQM.Step o.goal eikS) n
        { DDQM.init g o.pts o.threshold o.thStep with q0 := o.q0 ++ (DDQM.init g o.pts o.threshold o.thStep).q0, q1 := o.q1 } s ∧ DDQM.Done s ∧
      g' = s.g ∧ o' = { o with q0 := s.q0, q1 := s.q1, threshold := s.threshold, thStep := s.thStep }
  | .fim E => ∃ n s, FMM.Steps (FIM.Step E o.goal eikS) n (FIM.init g o.list o.pts) s ∧ FIM.Done s ∧
      g' = s.g ∧ o' = { o with list := s.before ++ s.after }
  | .gmm _ => ∃ n s, FMM.Steps (GMM.Step o.deltau o.goal eikS) n (GMM.init eikS g o.list o.pts) s ∧ GMM.Done s ∧
      g' = s.g ∧ o' = { o with list := s.gamma }
  | .ufmm _ _ _ => ∃ n s, FMM.Steps (UFMM.Step o.goal eikS) n (UFMM.init g o.uq o.pts) s ∧ UFMM.Done s ∧
      g' = s.g ∧ o' = { o with uq := s.q }

/-- `reset()` (fm/solver.hpp:178-182, fm/fmm.hpp:176-180, fm/fsm.hpp:99-104, fm/lsm.hpp:80-85, fm/ddqm.hpp:150-161, fm/fim.hpp:106-110,
fm/gmm.hpp:150-155, fm/ufmm.hpp:111-115): the grid and the object afterwards. -/
def reset (o : Obj F) (g : Grid F) : Grid F × Obj F :=
  let g1 := g.cleanGrid
  let o1 : Obj F := { o with ready := false }
  match o.kind with
  | .fmm _ _ => (g1, { o1 with heap := [] })
  | .fsm _ => (g1, { o1 with sweeps := 0, incs := FSM.incs0 g.shape.dims })
  | .lsm _ => (FSM.allState .frozen g1, { o1 with sweeps := 0, incs := FSM.incs0 g.shape.dims })
  | .ddqm => (g1, { o1 with q0 := [], q1 := [], thStep := DDQM.thStepReset g1, threshold := DDQM.thStepReset g1 })
  | .fim _ => (g1, { o1 with list := [] })
  | .gmm _ => (g1, { o1 with list := [] })
  | .ufmm _ _ _ => (g1, { o1 with uq := o1.uq.clear })

end Obj

/-- The grid and the solver objects of a program. -/
structure World (F : Type) where
  grid : Grid F
  obj : Nat → Obj F

/-- replace object `k` -/
def World.put (w : World F) (k : Nat) (g : Grid F) (o : Obj F) : World F := ⟨g, fun i => if i = k then o else w.obj i⟩

/-- The calls of the public API (fm/solver.hpp). -/
inductive Call where
  | setEnvironment (k : Nat)
  | setPoints (k : Nat) (pts : List Nat) (goal : Nat)
  | setup (k : Nat)
  | compute (k : Nat)
  | reset (k : Nat)

/-- `Does pop c w w'`: call `c` in world `w` returns, in world `w'`.  A call that exits the program or does not end has no `w'`.
`compute` (fm/solver.hpp:127-133) calls `setup` first unless `setup_` is set. -/
inductive Does (pop : FMM.St F → Nat → Prop) : Call → World F → World F → Prop
  | setEnvironment (w : World F) (k) : Does pop (.setEnvironment k) w (w.put k w.grid.cleanGrid ((w.obj k).setEnvironment w.grid.cleanGrid))
  | setPoints (w : World F) (k pts goal) : Does pop (.setPoints k pts goal) w (w.put k w.grid ((w.obj k).setPoints pts goal))
  | setup (w : World F) (k g o) : (w.obj k).setup w.grid = .ok (g, o) → Does pop (.setup k) w (w.put k g o)
  | computeReady (w : World F) (k g o) : (w.obj k).ready = true → (w.obj k).runs pop w.grid g o → Does pop (.compute k) w (w.put k g o)
  | computeSetup (w : World F) (k g1 o1 g o) : (w.obj k).ready = false → (w.obj k).setup w.grid = .ok (g1, o1) → o1.runs pop g1 g o →
      Does pop (.compute k) w (w.put k g o)
  | reset (w : World F) (k) : Does pop (.reset k) w (w.put k ((w.obj k).reset w.grid).1 ((w.obj k).reset w.grid).2)

/-- A sequence of calls that all return. -/
inductive Calls (pop : FMM.St F → Nat → Prop) : List Call → World F → World F → Prop
  | nil (w) : Calls pop [] w w
  | snoc {cs w w' w''} (c : Call) : Calls pop cs w w' → Does pop c w' w'' → Calls pop (cs ++ [c]) w w''

end FMV
