import Verif.Model.Console
/-
Specification of the files of a benchmark.
-/
namespace FMV.Spec
open Console

/-- `s` is the file name `n` without its extension: without the last dot and what follows it, if there is a dot -/
def Stem (n s : Str) : Prop := (n = s ∧ '.' ∉ n) ∨ ∃ e, n = s ++ '.' :: e ∧ '.' ∉ e

/-- a name that is one component of a path: not empty, without separator, and neither `.` nor `..` -/
structure PlainName (n : Str) : Prop where
  ne : n ≠ []
  sep : '/' ∉ n
  dot : n ≠ ['.']
  dots : n ≠ ['.', '.']

/-- a directory and the name of a benchmark: `path/name` is a directory in it -/
structure PlainDir (path name : Str) : Prop where
  ne : path ≠ []
  sep : path.getLast? ≠ some '/'
  named : name ≠ []
  nsep : '/' ∉ name

/-- the file of `who` in the directory of the benchmark -/
def fileOf (path name stem : Str) : Str := path ++ '/' :: name ++ '/' :: stem ++ ".grid".toList

end FMV.Spec
