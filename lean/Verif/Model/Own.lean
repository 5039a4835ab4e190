import Mathlib.Data.Finset.Insert
import Mathlib.Data.Finset.Basic
/-
Model of the ownership of heap memory: which blocks the classes allocate with `new`, which they `delete`, and which a call touches.

A block is a number; `none` as a result is undefined behaviour (use of memory that was never allocated or has been freed, a second `delete`).
Simplifications: only memory allocated with `new` in the library is tracked (not the memory inside `std::vector`, `std::list`, Boost heaps, which their own destructors
manage); a solver object and a grid are one block each; copies of objects are not modelled; `exit` and exceptions are not modelled.
-/
namespace FMV.Own

/-- the heap: live blocks, and the number of the next block (numbers are never used again, so that stale pointers stay recognisable) -/
structure Mem where
  live : Finset Nat
  next : Nat

/-- `new` -/
def Mem.alloc (m : Mem) : Nat × Mem := (m.next, ⟨insert m.next m.live, m.next + 1⟩)
/-- a member of the block is read, written or called -/
def Mem.use (m : Mem) (b : Nat) : Option Mem := if b ∈ m.live then some m else none
/-- `delete` -/
def Mem.free (m : Mem) (b : Nat) : Option Mem := if b ∈ m.live then some { m with live := m.live.erase b } else none

/-- The classes by what they own: `plain` (FMM, FMM*, SFMM, SFMM*, GMM, FIM, FSM, LSM, DDQM) nothing, `ufmm` an untidy queue
(fm/ufmm.hpp:42,46,139), `fm2` and `fm2star` an inner FMM (fm2/fm2.hpp:58,64,202). -/
inductive Kind where
  | plain | ufmm | fm2 | fm2star
deriving DecidableEq

/-- A pointer to a solver object, with the pointers stored in the object: `q` is `narrow_band_` (UFMM) or `solver_` (FM2), `p` is `queue_`
(datastructures/fmuntidyqueue.hpp:34,83), `t` is `m_tab` (thirdparty/untidy_queue.hpp:52,66); `env` is `grid_`, `none` while uninitialised. -/
structure Sol where
  kind : Kind
  self : Nat
  q : Nat
  p : Nat
  t : Nat
  env : Option Nat

/-- A benchmark object (benchmark/benchmark.hpp:233-287): `solvers_` (as names of solver pointers), `grid_`, `fromCFG_`. -/
structure Ben where
  solvers : List Nat
  env : Option Nat
  cfg : Bool

/-- The program's variables: named pointers to solvers and grids (they keep their value after `delete`), and benchmarks (local variables). -/
structure World where
  mem : Mem
  sol : Nat → Option Sol
  grid : Nat → Option Nat
  ben : Nat → Option Ben

/-- `new S(...)`: the object itself and what its constructor allocates (fm/ufmm.hpp:40-47, datastructures/fmuntidyqueue.hpp:32-35,
thirdparty/untidy_queue.hpp:61-67, fm2/fm2.hpp:56-65). -/
def newSol (k : Kind) (m : Mem) : Sol × Mem :=
  let o := m.alloc
  match k with
  | .plain => (⟨k, o.1, 0, 0, 0, none⟩, o.2)
  | .ufmm =>
    let q := o.2.alloc
    let p := q.2.alloc
    let t := p.2.alloc
    (⟨k, o.1, q.1, p.1, t.1, none⟩, t.2)
  | .fm2 | .fm2star =>
    let q := o.2.alloc
    (⟨k, o.1, q.1, 0, 0, none⟩, q.2)

/-- a call that uses the solver and what it owns: `reset()`, `compute()` (fm/ufmm.hpp:52-97,113-117, fm2/fm2.hpp:92-130,174-178) -/
def useSol (s : Sol) (m : Mem) : Option Mem :=
  (m.use s.self).bind fun m =>
    match s.kind with
    | .plain => some m
    | .ufmm => (m.use s.q).bind fun m => (m.use s.p).bind fun m => m.use s.t
    | .fm2 | .fm2star => m.use s.q

/-- `clear()` (fm/solver.hpp:167-172, fm/fmm.hpp:168-173, fm/fim.hpp:101-104, fm/gmm.hpp:147-150: no memory is freed;
fm/ufmm.hpp:108-111: `delete narrow_band_`, whose destructor deletes `queue_`, whose destructor deletes `m_tab`
(datastructures/fmuntidyqueue.hpp:37, thirdparty/untidy_queue.hpp:70-73); fm2/fm2.hpp:166-172: `delete solver_`).  The pointers keep their value. -/
def clearSol (s : Sol) (m : Mem) : Option Mem :=
  (m.use s.self).bind fun m =>
    match s.kind with
    | .plain => some m
    | .ufmm => (m.use s.q).bind fun m => (m.use s.p).bind fun m => (m.free s.t).bind fun m => (m.free s.p).bind fun m => m.free s.q
    | .fm2 | .fm2star => (m.use s.q).bind fun m => m.free s.q

/-- `delete s`: the destructor calls `clear()` (fm/solver.hpp:47, fm/fmm.hpp:75, fm/ufmm.hpp:49, fm2/fm2.hpp:67), once per class with a destructor; the
classes derived from UFMM and FM2 have none, so that `delete narrow_band_` and `delete solver_` are executed once. -/
def deleteSol (s : Sol) (m : Mem) : Option Mem := (clearSol s m).bind fun m => m.free s.self

/-- `setEnvironment(g)` (fm/solver.hpp:50-54, fm/ddqm.hpp:47-52, fm2/fm2.hpp:70-75): `g` is the pointer; the grid is cleaned, and FM2 passes it on to its inner
solver. -/
def setEnv (s : Sol) (g : Nat) (m : Mem) : Option (Sol × Mem) :=
  (m.use s.self).bind fun m =>
    (match s.kind with
      | .plain | .ufmm => some m
      | .fm2 | .fm2star => m.use s.q).bind fun m =>
    (m.use g).bind fun m => some ({ s with env := some g }, m)

/-- `setInitialAndGoalPoints` (fm/solver.hpp:57-61; fm2/fm2star.hpp:70-74 calls `solver_->precomputeDistances()`, which reads the grid) -/
def setPoints (s : Sol) (m : Mem) : Option Mem :=
  (m.use s.self).bind fun m =>
    match s.kind, s.env with
    | .fm2star, none => none
    | .fm2star, some g => (m.use s.q).bind fun m => m.use g
    | _, _ => some m

/-- `reset()` or `compute()`: both read the grid (fm/solver.hpp:174-178, 90-100); an uninitialised `grid_` is undefined behaviour. -/
def runSol (s : Sol) (m : Mem) : Option Mem :=
  (useSol s m).bind fun m =>
    match s.env with
    | none => none
    | some g => m.use g

/-- the calls of a program -/
inductive Call where
  | newGrid (g : Nat)
  | deleteGrid (g : Nat)
  | newSolver (s : Nat) (k : Kind)
  | setEnvironment (s g : Nat)
  | setPoints (s : Nat)
  /-- `reset()` or `compute()` -/
  | run (s : Nat)
  | clear (s : Nat)
  | delete (s : Nat)
  | newBench (b : Nat)
  | addSolver (b s : Nat)
  | benchEnv (b g : Nat)
  /-- `BenchmarkCFG::configure(b)` (benchmark/benchmarkcfg.hpp:131-300): the solvers and the grid are known to the benchmark only; the names stand for their pointers -/
  | configure (b : Nat) (ss : List (Nat × Kind)) (g : Nat)
  | benchRun (b : Nat)
  | benchClear (b : Nat)
  /-- the benchmark goes out of scope -/
  | benchDestroy (b : Nat)

/-- give name `n` the value `v` -/
def put {α : Type} (f : Nat → α) (n : Nat) (v : α) : Nat → α := fun k => if k = n then v else f k

/-- `new S` assigned to a name -/
def World.addNew (w : World) (n : Nat) (k : Kind) : World :=
  let r := newSol k w.mem
  { w with sol := put w.sol n (some r.1), mem := r.2 }

/-- `delete` of the named solvers in turn (benchmark/benchmark.hpp:197-198) -/
def deleteAll (sol : Nat → Option Sol) : List Nat → Mem → Option Mem
  | [], m => some m
  | n :: ns, m =>
    match sol n with
    | none => none
    | some s => (deleteSol s m).bind fun m => deleteAll sol ns m

/-- `Benchmark::clear()` (benchmark/benchmark.hpp:194-204), memory only; `delete` of an uninitialised pointer is undefined -/
def benClear (b : Ben) (sol : Nat → Option Sol) (m : Mem) : Option Mem :=
  (deleteAll sol b.solvers m).bind fun m =>
    if b.cfg then
      match b.env with
      | none => none
      | some g => m.free g
    else some m

/-- `configSolvers()` for one solver after the other (benchmark/benchmark.hpp:225-232) -/
def configAll (g : Nat) : List Nat → World → Option World
  | [], w => some w
  | n :: ns, w =>
    match w.sol n with
    | none => none
    | some s => (setEnv s g w.mem).bind fun r => (Own.setPoints r.1 r.2).bind fun m =>
        configAll g ns { w with sol := put w.sol n (some r.1), mem := m }

/-- the runs of the solvers (benchmark/benchmark.hpp:124-143) -/
def runAll (sol : Nat → Option Sol) : List Nat → Mem → Option Mem
  | [], m => some m
  | n :: ns, m =>
    match sol n with
    | none => none
    | some s => (runSol s m).bind fun m => runAll sol ns m

/-- One call. -/
def exec (w : World) : Call → Option World
  | .newGrid g => some { w with grid := put w.grid g (some w.mem.alloc.1), mem := w.mem.alloc.2 }
  | .deleteGrid g => (w.grid g).bind fun b => (w.mem.free b).bind fun m => some { w with mem := m }
  | .newSolver n k => some (w.addNew n k)
  | .setEnvironment n g => (w.sol n).bind fun s => (w.grid g).bind fun b => (setEnv s b w.mem).bind fun r =>
      some { w with sol := put w.sol n (some r.1), mem := r.2 }
  | .setPoints n => (w.sol n).bind fun s => (Own.setPoints s w.mem).bind fun m => some { w with mem := m }
  | .run n => (w.sol n).bind fun s => (runSol s w.mem).bind fun m => some { w with mem := m }
  | .clear n => (w.sol n).bind fun s => (clearSol s w.mem).bind fun m => some { w with mem := m }
  | .delete n => (w.sol n).bind fun s => (deleteSol s w.mem).bind fun m => some { w with mem := m }
  | .newBench b => some { w with ben := put w.ben b (some ⟨[], none, false⟩) }
  | .addSolver b n => (w.ben b).bind fun x => some { w with ben := put w.ben b (some { x with solvers := x.solvers ++ [n] }) }
  | .benchEnv b g => (w.ben b).bind fun x => (w.grid g).bind fun p => some { w with ben := put w.ben b (some { x with env := some p }) }
  | .configure b ss g => (w.ben b).bind fun x =>
      let w1 := ss.foldl (fun w e => w.addNew e.1 e.2) w
      let a := w1.mem.alloc
      some { w1 with grid := put w1.grid g (some a.1), mem := a.2,
                     ben := put w1.ben b (some ⟨x.solvers ++ ss.map Prod.fst, some a.1, true⟩) }
  | .benchRun b => (w.ben b).bind fun x => x.env.bind fun p => (configAll p x.solvers w).bind fun w =>
      (w.mem.use p).bind fun m => (runAll w.sol x.solvers m).bind fun m => some { w with mem := m }
  | .benchClear b => (w.ben b).bind fun x => (benClear x w.sol w.mem).bind fun m =>
      some { w with mem := m, ben := put w.ben b (some { x with solvers := [] }) }
  | .benchDestroy b => (w.ben b).bind fun x => (benClear x w.sol w.mem).bind fun m => some { w with mem := m, ben := put w.ben b none }

/-- A history of calls. -/
def execAll : List Call → World → Option World
  | [], w => some w
  | c :: cs, w => (exec w c).bind (execAll cs)

/-- The start of the program. -/
def start : World := ⟨⟨∅, 1⟩, fun _ => none, fun _ => none, fun _ => none⟩

end FMV.Own
