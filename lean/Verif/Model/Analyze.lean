import Verif.Model.Matlab
import Verif.Model.Disk
/-
Model of scripts/analyzeBenchmark.m, which reads the logs of all benchmarks of a directory and plots mean times, and of the directories `run()` creates.

The listing of the directory is given, in the order in which MATLAB's `dir` has it.  Left out: the plot itself.
-/
namespace FMV.Matlab
open Console Text Arith FMV.IO
variable {F : Type} [Arith F]

/-- An element of `dir(path)` (scripts/analyzeBenchmark.m:11): a name, and the content if it is a file. -/
structure Entry where
  name : Str
  content : Option Str

/-- `mean` of a vector: the sum over the number of elements -/
def mean (xs : List F) : F := div (xs.foldl add zero) (ofNat xs.length)

/-- `prod` of a vector -/
def prodAll (xs : List F) : F := xs.foldl mul one

/-- What the script plots (scripts/analyzeBenchmark.m:37-38): `times` has a row for every solver and a column for every experiment. -/
structure Analysis (F : Type) where
  ncells : List F
  algs : List Str
  times : Mat F

/-- The inner loop (scripts/analyzeBenchmark.m:32-34) for experiment `i` (counted from 0). -/
def fillColumn (i : Nat) (e : ParsedLog F) (m : Mat F) : Mat F :=
  (List.range e.exp.length).foldl (fun m j => m.set j i (mean (e.exp.getD j ([], [])).2)) m

/-- The script (scripts/analyzeBenchmark.m:11-34) for the listing `dir`: `files(3:end)`; a directory cannot be read as a log; `exps{1}` must exist. -/
def analyze (num : Str → Option F) (nan : F) (nat : F → Option Nat) (dir : List Entry) : Option (Analysis F) := do
  let exps ← (dir.drop 2).mapM (fun f => f.content.bind (parseBenchmarkLog num nan nat))
  let first ← exps.head?
  let times := (List.range exps.length).foldl (fun m i => match exps[i]? with | some e => fillColumn i e m | none => m) (zeros first.exp.length exps.length)
  some { ncells := exps.map (fun e => prodAll e.dimsize), algs := first.exp.map Prod.fst, times := times }

end FMV.Matlab

namespace FMV.Disk
open Console

/-- The entries of the directory `path_` that `run()` makes (include/fast_methods/benchmark/benchmark.hpp:110-116, 146-147): with `saveGrid_` the directory `name_`, with
`saveLog_` the file `name_.log`. -/
def resultEntries (saveGrid : Nat) (saveLog : Bool) (name log : Str) : List Matlab.Entry :=
  (if saveGrid ≠ 0 then [⟨name, none⟩] else []) ++ if saveLog then [⟨name ++ ".log".toList, some log⟩] else []

end FMV.Disk
