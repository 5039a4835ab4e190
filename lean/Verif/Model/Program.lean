import Verif.Model.CFG
import Verif.Model.IO
import Verif.Model.Benchmark
/-
Model of the program `fm_benchmark` (src/benchmark/fm_benchmark.cpp) up to the call of `Benchmark::run`, with the parts of `BenchmarkCFG` (include/fast_methods/benchmark/benchmarkcfg.hpp)
that set up the problem.  `Benchmark::run` itself is Model/Benchmark.lean.

Simplifications: the parser of `boost::program_options` and the decoding of images are not modelled (their results are given); nothing is printed; a solver pointer that was never
initialised, or a vector read out of range, ends the program at once with `undef` (in C++ anything may happen from there on).
-/
namespace FMV.Program
open Arith Console CFG
variable {F : Type} [Arith F]

/-- A CFG file as `boost::program_options::parse_config_file` returns it (benchmarkcfg.hpp:95): the values of the registered options that occur in the file, and the other keys with
their values, in the order of the file. -/
structure CfgFile where
  set : Str → Option Str
  unr : List (Str × Str)

/-- What the program finds: the configuration file (`none`: it cannot be opened), its name without directory and extension, the images (`none`: CImg throws), the text files, the number
conversions, and what uninitialised variables contain. -/
structure Env (F : Type) where
  cfg : Option CfgFile
  stem : Str
  img : Str → Option (IO.Img F)
  txt : Str → Option Str
  conv : Str → F × Bool
  lex : Lex F
  ljunk : IO.LoadJunk F
  gjunk : Nat × Nat

/-- The default values of the registered options (benchmarkcfg.hpp:81-92). -/
def default (stem k : Str) : Option Str :=
  if k = "grid.ndims".toList then some "2".toList
  else if k = "grid.cell".toList then some "FMCell".toList
  else if k = "grid.dimsize".toList then some "200,200".toList
  else if k = "grid.leafsize".toList then some "1".toList
  else if k = "problem.goal".toList then some "nan".toList
  else if k = "benchmark.name".toList then some stem
  else if k = "benchmark.runs".toList then some "10".toList
  else if k = "benchmark.savegrid".toList then some "0".toList
  else none

/-- `options_` after `readOptions` (benchmarkcfg.hpp:94-103): the file's value, else the default. -/
def options (stem : Str) (f : CfgFile) (k : Str) : Option Str :=
  match f.set k with
  | some v => some v
  | none => default stem k

/-- `options_.find(key)->second`, and the text converted by `getValue(key)` (benchmarkcfg.hpp:306-314): `0` for a key without a value. -/
def text (opt : Str → Option Str) (k : String) : Str := (opt k.toList).getD "0".toList

/-- How the program goes on: it ends with this exit code, with an uncaught exception, or with undefined behaviour, or `b.run()` is called, with these solvers and this grid. -/
inductive End (F : Type) where
  | exit (code : Nat)
  | throws
  | undef
  | run (b : Bench) (ms : List (Made F)) (g : Grid F)

/-- `new grid_t()` (ndgridmap/ndgridmap.hpp:67) -/
def newGrid (E : Env F) : Grid F :=
  { shape := Shape.mk' [], leaf := one, clean := true, cells := fun _ => Cell.default, occupied := [], scratch := E.gjunk }

/-- The grid of the problem (benchmarkcfg.hpp:272-285).  A three-dimensional grid read from an image gets an uninitialised size (io/maploader.hpp:54-57). -/
def makeGrid (E : Env F) (opt : Str → Option Str) (nd : Nat) : Except (End F) (Grid F) :=
  match opt "grid.file".toList with
  | some p =>
    match E.img p with
    | none => .error .throws
    | some im => if nd = 2 then .ok (IO.loadMapFromImg im (newGrid E)) else .error .undef
  | none =>
    match opt "grid.text".toList with
    | some p =>
      match IO.loadMapFromText E.conv nd E.ljunk (E.txt p) (newGrid E) with
      | .returned 0 _ => .error (.exit 1)
      | .returned _ g => .ok g
      | .exited => .error (.exit 1)
    | none =>
      match splitAndCast E.lex.uns nd (text opt "grid.dimsize") with
      | none => .error .throws
      | some dims => .ok ((newGrid E).resize dims)

/-- The end of `configure` (benchmarkcfg.hpp:270-307): grid, leaf size, start and goal.  `mk pts goal` is the benchmark configured so far with these points. -/
def problem (E : Env F) (opt : Str → Option Str) (nd : Nat) (ms : List (Made F)) (mk : List Nat → Nat → Bench) : End F :=
  match makeGrid E opt nd with
  | .error e => e
  | .ok g0 =>
    match E.lex.dbl (text opt "grid.leafsize") with
    | none => .throws
    | some h =>
      let g := { g0 with leaf := h }
      match splitAndCast E.lex.uns nd (text opt "problem.start") with
      | none => .throws
      | some sc =>
        let s := g.shape.coord2idx sc
        if text opt "problem.goal" = "nan".toList then .run (mk [s] noGoal) ms g
        else
          match splitAndCast E.lex.uns nd (text opt "problem.goal") with
          | none => .throws
          | some gc => .run (mk [s] (g.shape.coord2idx gc)) ms g

/-- The loop over the solver lines (benchmarkcfg.hpp:137-268) does not get to its end normally: one of the lines throws, or leaves an uninitialised pointer or reads out of range. -/
def Fails (L : Lex F) (lines : List (Str × Str)) (e : End F) : Prop :=
  ∃ l1 n p l2 ms, lines = l1 ++ (n, p) :: l2 ∧ Configures L l1 ms ∧
    ((Round L n p .throws ∧ e = .throws) ∨ ((Round L n p .uninit ∨ Round L n p .outOfRange) ∧ e = .undef))

/-- `configure` followed by `run` (benchmarkcfg.hpp:127-307): the registered values first, then the solvers, then the problem.  Solver `i` of the benchmark is number `i`. -/
def Configure (E : Env F) (f : CfgFile) (nd : Nat) (o : End F) : Prop :=
  let opt := options E.stem f
  match E.lex.uns (text opt "benchmark.savegrid"), E.lex.uns (text opt "benchmark.runs") with
  | some sg, some nr =>
    (∃ ms, Configures E.lex (readSolvers f.unr) ms ∧
      o = problem E opt nd ms (fun pts goal => ⟨(List.range ms.length).zip (ms.map Made.name), pts, goal, nr, sg, text opt "benchmark.name"⟩)) ∨
    Fails E.lex (readSolvers f.unr) o
  | _, _ => o = .throws

/-- `main` (fm_benchmark.cpp:41-98) up to `b.run()`. -/
def Main (E : Env F) (argc : Nat) (o : End F) : Prop :=
  if argc < 2 then o = .exit 1
  else
    match E.cfg with
    | none => o = .exit 0
    | some f =>
      if f.set "problem.start".toList = none then o = .throws
      else
        let opt := options E.stem f
        if text opt "grid.cell" ≠ "FMCell".toList then o = .exit 0
        else
          match E.lex.uns (text opt "grid.ndims") with
          | none => o = .throws
          | some n => if n = 2 ∨ n = 3 then Configure E f n o else o = .exit 0

/-- The world in which `b.run()` is called: the solvers made (`junk`: their uninitialised members). -/
def world (ms : List (Made F)) (g : Grid F) (junk : Nat → Junk F) : World F :=
  ⟨g, fun k => Obj.new ((ms.map Made.kind).getD k .ddqm) (junk k)⟩

end FMV.Program
