import Verif.Model.Text
import Verif.Model.Solver
/-
Model of include/fast_methods/benchmark/benchmark.hpp on top of the model of the solvers' life cycle (Model/Solver.lean).

Simplifications: the creation of directories, the progress bar and the console are left out; the file system is the list of the files written; the measured time
of a run (as printed) is the arbitrary text `time id`.
-/
namespace FMV
open Arith Console Text
variable {F : Type} [Arith F]

/-- A configured `Benchmark` object (benchmark.hpp:246-287): the solvers are given by their number in the world and their name. -/
structure Bench where
  solvers : List (Nat × Str)
  pts : List Nat
  goal : Nat
  nruns : Nat
  saveGrid : Nat
  name : Str

namespace Bench

/-- What changes during a run of the benchmark: the solvers and the grid, `runID_`, the log and the grids saved. -/
structure St (F : Type) where
  w : World F
  runID : Nat
  log : Str
  files : List (Str × Grid F)

/-- `formatID()` (benchmark.hpp:233-241) -/
def formatID (runID : Nat) : Str := padded 4 runID

/-- `logConfig()` (benchmark.hpp:207-221) with `getDimSizesStr()` (ndgridmap/ndgridmap.hpp:298-304) -/
def header (b : Bench) (sh : Shape) : Str :=
  b.name ++ '\t' :: decimal b.nruns ++ '\t' :: decimal sh.ndims ++ '\t' :: sh.dims.flatMap (fun d => decimal d ++ ['\t']) ++
    decimal b.pts.length ++ '\t' :: b.pts.flatMap (fun p => decimal p ++ ['\t']) ++ (if b.goal = noGoal then "nan".toList else decimal b.goal)

/-- `logRun(s)` (benchmark.hpp:153-164): the text it adds -/
def row (runID : Nat) (name time : Str) : Str := '\n' :: formatID runID ++ '\t' :: name ++ '\t' :: time

/-- `configSolvers()` (benchmark.hpp:223-231) -/
inductive Config (pop : FMM.St F → Nat → Prop) (b : Bench) : List (Nat × Str) → World F → World F → Prop
  | nil (w) : Config pop b [] w w
  | cons {s l w w1 w2 w3} : Does pop (.setEnvironment s.1) w w1 → Does pop (.setPoints s.1 b.pts b.goal) w1 w2 → Config pop b l w2 w3 →
      Config pop b (s :: l) w w3

/-- One round of the inner loop of `run()` (benchmark.hpp:128-139) -/
inductive Round (pop : FMM.St F → Nat → Prop) (b : Bench) (time : Nat → Str) (s : Nat × Str) : St F → St F → Prop
  | mk (t : St F) (w1 w2 : World F) : Does pop (.reset s.1) t.w w1 → Does pop (.compute s.1) w1 w2 →
      Round pop b time s t
        { w := w2, runID := u32 (t.runID + 1)
          log := t.log ++ row (u32 (t.runID + 1)) s.2 (time (u32 (t.runID + 1)))
          files := if b.saveGrid = 2 then t.files ++ [(formatID (u32 (t.runID + 1)), w2.grid)] else t.files }

/-- The inner loop of `run()` (benchmark.hpp:126-140): `n` rounds -/
inductive Rounds (pop : FMM.St F → Nat → Prop) (b : Bench) (time : Nat → Str) (s : Nat × Str) : Nat → St F → St F → Prop
  | zero (t) : Rounds pop b time s 0 t t
  | succ {n t t' t''} : Round pop b time s t t' → Rounds pop b time s n t' t'' → Rounds pop b time s (n+1) t t''

/-- The outer loop of `run()` (benchmark.hpp:124-144) -/
inductive Loop (pop : FMM.St F → Nat → Prop) (b : Bench) (time : Nat → Str) : List (Nat × Str) → St F → St F → Prop
  | nil (t) : Loop pop b time [] t t
  | cons {s l} {t t1 t2 : St F} {w : World F} : Rounds pop b time s b.nruns t t1 → Does pop (.reset s.1) t1.w w →
      Loop pop b time l { t1 with w := w, files := if b.saveGrid = 1 then t1.files ++ [(s.2, t1.w.grid)] else t1.files } t2 →
      Loop pop b time (s :: l) t t2

/-- `run()` (benchmark.hpp:107-152) returns. -/
def Runs (pop : FMM.St F → Nat → Prop) (b : Bench) (time : Nat → Str) (t t' : St F) : Prop :=
  ∃ w, Config pop b b.solvers t.w w ∧ Loop pop b time b.solvers { t with w := w, log := t.log ++ b.header w.grid.shape } t'

end Bench
end FMV
