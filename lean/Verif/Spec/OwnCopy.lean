import Verif.Model.OwnCopy
import Verif.Spec.Own
/-
Specification: the rules of `Spec/Own.lean` for programs that also copy objects.  A copied solver is a solver of its own: it has the grid of the original, belongs to no
benchmark, and whoever makes the copy deletes it.
-/
namespace FMV.Spec.Own
open FMV.Own

/-- One call that respects the rules; a solver that owns nothing may be copied. -/
inductive OkC : Ledger → CCall → Ledger → Prop
  | call {l l' : Ledger} {c : Call} : Ok l c l' → OkC l (.call c) l'
  | copy {l : Ledger} {n' n : Nat} {s : SolL} : l.sol n' = none → l.sol n = some s → s.kind = .plain →
      OkC l (.copy n' n) { l with sol := put l.sol n' (some { s with held := none }) }

/-- A history that respects the rules, from the empty ledger to `l`. -/
inductive CarefulC : List CCall → Ledger → Prop
  | nil : CarefulC [] ⟨fun _ => none, fun _ => .unused, fun _ => none⟩
  | snoc {cs l c l'} : CarefulC cs l → OkC l c l' → CarefulC (cs ++ [c]) l'

/-- the call gives solver name `n` a new value -/
def assigns (n : Nat) : CCall → Prop
  | .call (.newSolver n' _) => n' = n
  | .call (.configure _ ss _) => n ∈ ss.map Prod.fst
  | .copy n' _ => n' = n
  | _ => False

end FMV.Spec.Own
