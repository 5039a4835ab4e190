import Verif.Model.Console
/-
Specification of command-line parsing.
-/
namespace FMV.Spec
open Console

/-- the flag is given on the command line, for the first time at position `k` -/
structure FlagAt (argv : List Str) (flag : Str) (k : Nat) : Prop where
  pos : 0 < k
  here : argv[k]? = some flag
  first : ∀ j, 0 < j → j < k → argv[j]? ≠ some flag

/-- the flag is not given on the command line -/
def FlagAbsent (argv : List Str) (flag : Str) : Prop := ∀ j, 0 < j → argv[j]? ≠ some flag

/-- the arguments from position `i` on, up to the next one starting with '-' -/
def ArgsFrom (argv : List Str) (i : Nat) (l : List Str) : Prop :=
  (∀ j, j < l.length → l[j]? = argv[i + j]?) ∧ (∀ a ∈ l, a.head? ≠ some '-') ∧
    (argv.length = i + l.length ∨ ∃ a, argv[i + l.length]? = some a ∧ a.head? = some '-')

end FMV.Spec
