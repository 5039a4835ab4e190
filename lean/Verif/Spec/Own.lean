import Verif.Model.Own
/-
Specification: which histories of calls treat memory as the documentation asks.  The ledger is what the programmer knows; it has no addresses.

The rules: a name is used for one thing at a time; a solver or grid is used only between its creation and its deletion; whoever creates a solver deletes it once, except that a
solver handed to a benchmark is deleted by the benchmark, and that a benchmark configured from a file deletes its grid; a solver runs only after
`setEnvironment` with a grid that still exists; `clear()` is not called on solvers that own memory (the documentation: "it is not recommended to be used out of
the destructor"), nor `Benchmark::clear()` on a benchmark configured from a file.
-/
namespace FMV.Spec.Own
open FMV.Own

/-- what the programmer knows about a solver: its class, the grid it was given last, the benchmark it was handed to -/
structure SolL where
  kind : Kind
  env : Option Nat
  held : Option Nat

/-- a grid name has not been used yet, its grid exists (and is deleted by benchmark `b`, if `some b`), or it has been deleted -/
inductive GridL where
  | unused | here (held : Option Nat) | gone

structure BenL where
  solvers : List Nat
  env : Option Nat
  cfg : Bool

structure Ledger where
  sol : Nat → Option SolL
  grid : Nat → GridL
  ben : Nat → Option BenL

/-- grid `g` exists -/
def Ledger.hasGrid (l : Ledger) (g : Nat) : Prop := ∃ h, l.grid g = .here h

/-- after benchmark `b` has freed what it holds -/
def Ledger.release (l : Ledger) (b : Nat) : Ledger :=
  { l with sol := fun n => (l.sol n).bind fun s => if s.held = some b then none else some s
           grid := fun g => match l.grid g with
             | .here (some c) => if c = b then .gone else .here (some c)
             | x => x }

/-- One call that respects the rules. -/
inductive Ok : Ledger → Call → Ledger → Prop
  | newGrid {l : Ledger} {g : Nat} : l.grid g = .unused → Ok l (.newGrid g) { l with grid := put l.grid g (.here none) }
  | deleteGrid {l : Ledger} {g : Nat} : l.grid g = .here none → Ok l (.deleteGrid g) { l with grid := put l.grid g .gone }
  | newSolver {l : Ledger} {n : Nat} {k : Kind} : l.sol n = none → Ok l (.newSolver n k) { l with sol := put l.sol n (some ⟨k, none, none⟩) }
  | setEnvironment {l : Ledger} {n g : Nat} {s : SolL} : l.sol n = some s → l.hasGrid g →
      Ok l (.setEnvironment n g) { l with sol := put l.sol n (some { s with env := some g }) }
  | setPoints {l : Ledger} {n : Nat} {s : SolL} : l.sol n = some s → (s.kind = .fm2star → ∃ g, s.env = some g ∧ l.hasGrid g) → Ok l (.setPoints n) l
  | run {l : Ledger} {n g : Nat} {s : SolL} : l.sol n = some s → s.env = some g → l.hasGrid g → Ok l (.run n) l
  | clear {l : Ledger} {n : Nat} {s : SolL} : l.sol n = some s → s.kind = .plain → Ok l (.clear n) l
  | delete {l : Ledger} {n : Nat} {s : SolL} : l.sol n = some s → s.held = none → Ok l (.delete n) { l with sol := put l.sol n none }
  | newBench {l : Ledger} {b : Nat} : l.ben b = none → Ok l (.newBench b) { l with ben := put l.ben b (some ⟨[], none, false⟩) }
  | addSolver {l : Ledger} {b n : Nat} {x : BenL} {s : SolL} : l.ben b = some x → l.sol n = some s → s.held = none →
      Ok l (.addSolver b n) { l with ben := put l.ben b (some { x with solvers := x.solvers ++ [n] }), sol := put l.sol n (some { s with held := some b }) }
  | benchEnv {l : Ledger} {b g : Nat} {x : BenL} : l.ben b = some x → x.cfg = false → l.hasGrid g →
      Ok l (.benchEnv b g) { l with ben := put l.ben b (some { x with env := some g }) }
  | configure {l : Ledger} {b g : Nat} {x : BenL} {ss : List (Nat × Kind)} : l.ben b = some x → x.cfg = false → l.grid g = .unused →
      (ss.map Prod.fst).Nodup → (∀ e ∈ ss, l.sol e.1 = none) →
      Ok l (.configure b ss g)
        { sol := ss.foldl (fun f e => put f e.1 (some ⟨e.2, none, some b⟩)) l.sol, grid := put l.grid g (.here (some b)),
          ben := put l.ben b (some ⟨x.solvers ++ ss.map Prod.fst, some g, true⟩) }
  | benchRun {l : Ledger} {b g : Nat} {x : BenL} : l.ben b = some x → x.env = some g → l.hasGrid g →
      Ok l (.benchRun b) { l with sol := fun n => (l.sol n).map fun s => if s.held = some b then { s with env := some g } else s }
  | benchClear {l : Ledger} {b : Nat} {x : BenL} : l.ben b = some x → x.cfg = false →
      Ok l (.benchClear b) { l.release b with ben := put l.ben b (some { x with solvers := [] }) }
  | benchDestroy {l : Ledger} {b : Nat} {x : BenL} : l.ben b = some x → Ok l (.benchDestroy b) { l.release b with ben := put l.ben b none }

/-- A history that respects the rules, from the empty ledger to `l`. -/
inductive Careful : List Call → Ledger → Prop
  | nil : Careful [] ⟨fun _ => none, fun _ => .unused, fun _ => none⟩
  | snoc {cs l c l'} : Careful cs l → Ok l c l' → Careful (cs ++ [c]) l'

/-- nothing is left -/
def Ledger.empty (l : Ledger) : Prop := (∀ n, l.sol n = none) ∧ ∀ g, ¬ l.hasGrid g

end FMV.Spec.Own
