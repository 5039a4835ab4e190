import Verif.Model.DDQM
import Verif.Model.XR
/-
Specification of the threshold rule of DDQM (S. Bak, J. McLaughlin, D. Renzi: "Some improvements for the fast sweeping method", cited at
fm/ddqm.hpp:26-30): after each turn of the queues the step is made 1.5 times larger if at most 65 % of the cells queued during that turn went
to the lower queue, halved if it was at least 75 % or if nothing was queued, and kept otherwise.
-/
namespace FMV.Spec
open FMV

/-- the step after a turn in which `low` of `total` queued cells went to the lower queue -/
noncomputable def stepAfter (low total : Nat) (step : ℝ) : ℝ :=
  open Classical in
  if total = 0 then step / 2
  else if (low : ℝ) / total ≤ 65 / 100 then step * (3 / 2)
  else if 75 / 100 ≤ (low : ℝ) / total then step / 2
  else step

/-- one cell is taken from the lower queue and treated -/
def Pops {F : Type} [Arith F] (goal : Nat) (eik : Eik F) (a b : DDQM.St F) : Prop :=
  DDQM.Step goal eik a b ∧ a.inner = true ∧ b.inner = true

/-- A turn of the queues, from the head of the outer loop (state `s`) to the head of the outer loop (state `u`), in which `k` cells are taken from
the lower queue; `t` is the state in which the inner loop ends. -/
structure Turn {F : Type} [Arith F] (goal : Nat) (eik : Eik F) (k : Nat) (s t u : DDQM.St F) : Prop where
  start : s.inner = false
  pops : ∃ e, DDQM.Step goal eik s e ∧ FMM.Steps (Pops goal eik) k e t
  last : DDQM.Step goal eik t u
  fin : u.inner = false

/-- how many cells were put into the lower queue: those taken from it and those left in it, less those in it at the start -/
def queuedLow {F : Type} (k : Nat) (s t : DDQM.St F) : Nat := k + t.low.length - s.low.length
/-- how many cells were put into the higher queue -/
def queuedHigh {F : Type} (s t : DDQM.St F) : Nat := t.high.length - s.high.length

end FMV.Spec
