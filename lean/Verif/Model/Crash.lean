import Verif.Model.Disk
import Verif.Model.IO
/-
Model of an interrupted `Benchmark::run()` (include/fast_methods/benchmark/benchmark.hpp:107-190): the files on the disk if the process ends (crash, kill) at any moment.

The characters of the file being written reach the disk in order (`std::ofstream` truncates, then appends its buffer piece by piece), so an interruption leaves a beginning
of its text, possibly nothing.  Files already closed stay.  Simplifications: as in Model/Disk; the operating system does not lose what it was given.
-/
namespace FMV.Crash
open Console Disk Bench
variable {F : Type} [Arith F]

/-- the texts of the grids saved (io/gridwriter.hpp:46-64) -/
def gridTexts (fmt : F → Str) (fs : List (Str × Grid F)) : List (Str × Str) := fs.map (fun f => (f.1, IO.saveGridValues fmt f.2))

/-- interrupted while `x` is written to the file `p`, `n` characters of it having reached the disk -/
def cut (d : Files Str) (p x : Str) (n : Nat) : Files Str := d.write p (x.take n)

/-- The program has finished the loops of the solvers `done` and `k` rounds for the solver `s` (benchmark.hpp:118-140); `t2` is its state, `t` that before `run()`. -/
inductive Reached (pop : FMM.St F → Nat → Prop) (b : Bench) (time : Nat → Str) (t : St F) (done : List (Nat × Str)) (s : Nat × Str) (k : Nat) : St F → Prop
  | mk {w rest t1 t2} : Config pop b b.solvers t.w w → b.solvers = done ++ s :: rest → Loop pop b time done { t with w := w, log := t.log ++ b.header w.grid.shape } t1 →
      k ≤ b.nruns → Rounds pop b time s k t1 t2 → Reached pop b time t done s k t2

/-- `Left … m d'`: `run()`, started with the files `d`, can be interrupted so that `m` rounds are finished, including their files, and `d'` are the files on the disk. -/
inductive Left (pop : FMM.St F → Nat → Prop) (b : Bench) (time : Nat → Str) (path : Str) (fmt : F → Str) (t : St F) (d : Files Str) : Nat → Files Str → Prop
  /-- before the first round (benchmark.hpp:108-122) -/
  | before : Left pop b time path fmt t d 0 d
  /-- between two rounds, or in `reset()` or `compute()` of the next one (benchmark.hpp:129-131), whether or not it would end -/
  | computing {done s k t2} : Reached pop b time t done s k t2 →
      Left pop b time path fmt t d (done.length * b.nruns + k) (saveGrids d path b.name (gridTexts fmt t2.files))
  /-- while the grid of a round is saved (benchmark.hpp:134-135) -/
  | savingRun {done s k t2 t3} (n : Nat) : Reached pop b time t done s k t2 → k < b.nruns → Round pop b time s t2 t3 → b.saveGrid = 2 →
      Left pop b time path fmt t d (done.length * b.nruns + k)
        (cut (saveGrids d path b.name (gridTexts fmt t2.files)) (gridPath path b.name (formatID t3.runID)) (IO.saveGridValues fmt t3.w.grid) n)
  /-- while the grid of a solver is saved (benchmark.hpp:139-140) -/
  | savingSolver {done s t2} (n : Nat) : Reached pop b time t done s b.nruns t2 → b.saveGrid = 1 →
      Left pop b time path fmt t d (done.length * b.nruns + b.nruns)
        (cut (saveGrids d path b.name (gridTexts fmt t2.files)) (gridPath path b.name s.2) (IO.saveGridValues fmt t2.w.grid) n)
  /-- while the log is saved (benchmark.hpp:144-145, 181-186), or after that -/
  | savingLog {t'} (n : Nat) : Runs pop b time t t' →
      Left pop b time path fmt t d (b.solvers.length * b.nruns)
        (cut (saveGrids d path b.name (gridTexts fmt t'.files)) (logPath path b.name) t'.log n)

end FMV.Crash
