import Mathlib.Data.Nat.Basic
/-
Model of the time measurement of the solvers (include/fast_methods/fm/solver.hpp:127-134,187-190,234-237; fm2/fm2.hpp:93-150,182-185; fm2/fm2star.hpp:85-110).

`std::chrono::steady_clock` counts nanoseconds and never goes back.  A piece of program starts at a moment in a state and ends at a moment in a state; what it does besides
measuring is not modelled here (it takes at least a given time, and any longer time is possible).
-/
namespace FMV.Clock

/-- `start_`, `end_` and `time_` (solver.hpp:234-237).  The constructors (solver.hpp:44-46) do not initialise `time_`: `none` until it is written. -/
structure Watch where
  start : Nat
  stop : Nat
  time : Option Nat

/-- `duration_cast<milliseconds>(b - a).count()` (solver.hpp:133) -/
def ms (a b : Nat) : Nat := (b - a) / 1000000

/-- a piece of program: moment and state at its start, moment and state at its end -/
abbrev Piece (σ : Type) := Nat → σ → Nat → σ → Prop

/-- something that does not touch the watch and takes at least `n` nanoseconds -/
def work (σ : Type) (n : Nat) : Piece σ := fun a s b s' => a + n ≤ b ∧ s' = s

/-- `Solver::compute()` (solver.hpp:127-134) around `computeInternal()`; `get` and `set` access the members of the base class. -/
inductive Compute {σ : Type} (get : σ → Watch) (set : σ → Watch → σ) (body : Piece σ) : Piece σ
  | mk {t a b c s s'} : t ≤ a → body a (set s { get s with start := a }) b s' → b ≤ c →
      Compute get set body t s c (set s' { get s' with stop := c, time := some (ms (get s').start c) })

/-- `compute()` of a solver whose `computeInternal()` takes at least `n` nanoseconds (all classes but FM2 and FM2*) -/
def plain (n : Nat) : Piece Watch := Compute id (fun _ w => w) (work Watch n)

/-- the members of an FM2 object that concern time: its own, those of `solver_`, and `time_vels_` (fm2.hpp:192-206) -/
structure FM2Watch where
  own : Watch
  inner : Watch
  vels : Option Nat

/-- `computeVelocitiesMap()` (fm2.hpp:117-150): first wave (at least `n1`), then the rescaling (at least `n2`) -/
inductive Velocities (n1 n2 : Nat) : Piece FM2Watch
  | mk {a a' b c d s w} : a ≤ a' → plain n1 a' s.inner b w → b ≤ c → c + n2 ≤ d →
      Velocities n1 n2 a s d { own := { s.own with start := c, stop := d }, inner := w, vels := w.time.map (· + ms c d) }

/-- `FM2::computeInternal()` (fm2.hpp:94-113), `FM2Star::computeInternal()` (fm2star.hpp:86-108): velocities, then the second wave (at least `n3`) -/
inductive FM2Body (n1 n2 n3 : Nat) : Piece FM2Watch
  | mk {a a' b c d e f s s1 w} : a ≤ a' → Velocities n1 n2 a' s b s1 → b ≤ c → c ≤ d → plain n3 d s1.inner e w → e ≤ f →
      FM2Body n1 n2 n3 a s f { s1 with own := { s1.own with start := c }, inner := w }

/-- `compute()` of FM2 and FM2* -/
def fm2 (n1 n2 n3 : Nat) : Piece FM2Watch := Compute FM2Watch.own (fun s w => { s with own := w }) (FM2Body n1 n2 n3)

/-- `getTime()` (solver.hpp:187-190) and `getTimeVelocities()` (fm2.hpp:182-185): reading a member that was never written is undefined -/
def getTime (w : Watch) : Option Nat := w.time

end FMV.Clock
