import Verif.Model.Program
import Verif.Spec.CFG
import Verif.Spec.Geometry
/-
Specification of the configuration files of `fm_benchmark`.
-/
namespace FMV.Spec
open Console CFG Program
variable {F : Type} [Arith F]

/-- The value of an option: what the file says, or else the documented default. -/
def Says (f : CfgFile) (key : String) (dflt v : Str) : Prop := f.set key.toList = some v ∨ (f.set key.toList = none ∧ v = dflt)

/-- `s` is a comma-separated list of these numbers -/
def Numbers (L : Lex F) (s : Str) (ns : List Nat) : Prop := ∃ l, Items s l ∧ l.map L.uns = ns.map some

/-- The options that do not concern the map: number of dimensions, leaf size, start (coordinates), goal (coordinates; `none`: no goal), number of runs, which grids to save, name. -/
structure Settings (E : Env F) (f : CfgFile) (nd : Nat) (h : F) (start : List Nat) (goal : Option (List Nat)) (nr sg : Nat) (name : Str) : Prop where
  cell : Says f "grid.cell" "FMCell".toList "FMCell".toList
  ndims : ∃ s, Says f "grid.ndims" "2".toList s ∧ E.lex.uns s = some nd
  two_or_three : nd = 2 ∨ nd = 3
  leaf : ∃ s, Says f "grid.leafsize" "1".toList s ∧ E.lex.dbl s = some h
  start : ∃ s, f.set "problem.start".toList = some s ∧ Numbers E.lex s start
  goal : ∃ s, Says f "problem.goal" "nan".toList s ∧ match goal with | none => s = "nan".toList | some c => Numbers E.lex s c
  runs : ∃ s, Says f "benchmark.runs" "10".toList s ∧ E.lex.uns s = some nr
  save : ∃ s, Says f "benchmark.savegrid" "0".toList s ∧ E.lex.uns s = some sg
  name : Says f "benchmark.name" E.stem name

/-- The configuration describes a problem on an empty map of these sizes. -/
structure Describes (E : Env F) (f : CfgFile) (dims : List Nat) (h : F) (start : List Nat) (goal : Option (List Nat)) (nr sg : Nat) (name : Str) : Prop extends
    Settings E f dims.length h start goal nr sg name where
  file : f.set "grid.file".toList = none
  text : f.set "grid.text".toList = none
  size : ∃ s, Says f "grid.dimsize" "200,200".toList s ∧ Numbers E.lex s dims

end FMV.Spec
