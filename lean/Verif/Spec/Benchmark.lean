import Verif.Model.Benchmark
import Verif.Spec.Lifecycle
import Mathlib.Data.List.Defs
/-
Specification of the benchmark.
-/
namespace FMV.Spec
open Console Text
variable {F : Type} [Arith F]

/-- The calls a benchmark should make: every solver is given the grid and the problem; then each solver is run `nruns` times, each run preceded by a reset, and
reset at the end. -/
def benchCalls (b : Bench) : List Call :=
  b.solvers.flatMap (fun s => [.setEnvironment s.1, .setPoints s.1 b.pts b.goal]) ++
  b.solvers.flatMap (fun s => (List.replicate b.nruns [.reset s.1, .compute s.1]).flatten ++ [.reset s.1])

/-- The names of the solvers in the order of the runs. -/
def runNames (b : Bench) : List Str := b.solvers.flatMap (fun s => List.replicate b.nruns s.2)

/-- the number that a text of decimal digits stands for -/
def readNat (s : Str) : Nat := s.foldl (fun a c => 10 * a + (c.toNat - 48)) 0

/-- a text consisting of decimal digits -/
def IsNumber (s : Str) : Prop := s ≠ [] ∧ ∀ c ∈ s, c ∈ "0123456789".toList

/-- `l` is the line of the log for run number `id` of the solver `name`: the number, in at least four digits, the name and the time, separated by tabs. -/
def LogLine (id : Nat) (name time : Str) (l : Str) : Prop :=
  ∃ num, l = num ++ '\t' :: name ++ '\t' :: time ∧ IsNumber num ∧ 4 ≤ num.length ∧ readNat num = id

/-- `s` is a text of decimal digits for the number `n` -/
def Denotes (s : Str) (n : Nat) : Prop := IsNumber s ∧ readNat s = n

/-- `l` is the first line of the log for a grid with the dimension sizes `dims`: the name of the benchmark, the number of runs, the number of dimensions, the size
of every dimension, the number of initial points, the initial points and the goal (`nan` if there is none, which is the index 2^32-1), separated by tabs. -/
def ConfigLine (b : Bench) (dims : List Nat) (l : Str) : Prop :=
  ∃ (nums : List Str) (goal : Str), l = List.intercalate ['\t'] (b.name :: nums ++ [goal]) ∧
    _root_.List.Forall₂ Denotes nums (b.nruns :: dims.length :: dims ++ b.pts.length :: b.pts) ∧
    (if b.goal = 2^32 - 1 then goal = "nan".toList else Denotes goal b.goal)

end FMV.Spec
