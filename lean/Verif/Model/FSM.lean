import Verif.Model.FMM
/-
Model of `FSM` (include/fast_methods/fm/fsm.hpp) and `LSM` (include/fast_methods/fm/lsm.hpp).
-/
namespace FMV
open Arith
variable {F : Type} [Arith F]
namespace FSM

/-- The values taken by `i` in `for (int i = init; i != end; i += inc)` (fm/fsm.hpp:119,123), at most `fuel` of them
(`C21_loop_ends` shows that the loops of the library stop before the fuel runs out). -/
def forInts : Nat → Int → Int → Int → List Int
  | 0, _, _, _ => []
  | f + 1, i, e, inc => if i = e then [] else i :: forInts f (i + inc) e inc

/-- `inits_[i]` (fm/fsm.hpp:164-173) for direction `inc` and `dimsize_[i] = size`. -/
def initOf (inc : Int) (size : Nat) : Int := if inc = 1 then 0 else (size : Int) - 1
/-- `ends_[i]` (fm/fsm.hpp:164-173). -/
def endOf (inc : Int) (size : Nat) : Int := if inc = 1 then (size : Int) else -1

/-- The coordinate values visited in one dimension (fm/fsm.hpp:119,123). -/
def loopVals (inc : Int) (size : Nat) : List Int := forInts (size + 1) (initOf inc size) (endOf inc size) inc

/-- `recursiveIteration(depth, it)` (fm/fsm.hpp:115-127): the list of cell indices it visits, in order.  `d_[k]` is the product of the
first `k+1` sizes (fm/fsm.hpp:58-63). -/
def order (dims : List Nat) (incs : List Int) : Nat → Int → List Nat
  | 0, it => (loopVals (incs.getD 0 1) (dims.getD 0 0)).map (fun i => (it + i).toNat)
  | k + 1, it => (loopVals (incs.getD (k+1) 1) (dims.getD (k+1) 0)).flatMap
      (fun i => order dims incs k (it + i * ((dims.take (k+1)).prod : Nat)))

/-- The cells visited by one sweep: `recursiveIteration(getNDims()-1)` (fm/fsm.hpp:95). -/
def sweepOrder (dims : List Nat) (incs : List Int) : List Nat := order dims incs (dims.length - 1) 0

/-- The update of `incs_` in `setSweep` (fm/fsm.hpp:152-159). -/
def bump : List Int → List Int
  | [] => []
  | c :: cs => if c + 2 ≤ 1 then (c + 2) :: cs else (-1) :: bump cs

/-- `initializeSweepArrays` (fm/fsm.hpp:181-188): `incs_` all 1. -/
def incs0 (dims : List Nat) : List Int := List.replicate dims.length 1

/-- State of the solver during `computeInternal`: grid, `keepSweeping_`, `stopPropagation_`, `sweeps_`, `incs_`. -/
structure St (F : Type) where
  g : Grid F
  keep : Bool
  stop : Bool
  sweeps : Nat
  incs : List Int

/-- `FSM::solveForIdx` (fm/fsm.hpp:130-141). -/
def solveFSM (goal : Nat) (eik : Eik F) (s : St F) (i : Nat) : St F :=
  let t := (eik s.g i).1
  let g := s.g.setScratch (eik s.g i).2
  if better t (s.g.value i) then { s with g := g.setValue i t, keep := true }
  else if !(isNaN t) && !(isInf t) && (i == goal) then { s with g := g, stop := true }
  else { s with g := g }

/-- `LSM::solveForIdx` (fm/lsm.hpp:96-119). -/
def solveLSM (goal : Nat) (eik : Eik F) (s : St F) (i : Nat) : St F :=
  if s.g.state i = .opn then
    let t := (eik s.g i).1
    let g := s.g.setScratch (eik s.g i).2
    let s' :=
      if better t (s.g.value i) then
        { s with
          g := (s.g.shape.nbrs i).foldl (fun g n => if better t (g.value n) then g.setState n .opn else g) (g.setValue i t)
          keep := true }
      else if !(isNaN t) && !(isInf t) && (i == goal) then { s with g := g, stop := true }
      else { s with g := g }
    { s' with g := s'.g.setState i .frozen }
  else s

/-- The innermost loop body (fm/fsm.hpp:124-125): occupied cells are skipped; `solve` is the virtual method `solveForIdx`. -/
def visit (solve : St F → Nat → St F) (s : St F) (i : Nat) : St F := if s.g.occ i then s else solve s i

/-- The loop body of `computeInternal` (fm/fsm.hpp:91-96, fm/lsm.hpp:72-77): one sweep. -/
def sweep (solve : St F → Nat → St F) (s : St F) : St F :=
  let s1 : St F := { s with keep := false, incs := bump s.incs, sweeps := u32 (s.sweeps + 1) }
  (sweepOrder s.g.shape.dims s1.incs).foldl (visit solve) s1

/-- Negation of the loop condition `keepSweeping_ && !stopPropagation_ && sweeps_ < maxSweeps_` (fm/fsm.hpp:91). -/
def Done (maxSweeps : Nat) (s : St F) : Prop := ¬ (s.keep = true ∧ s.stop = false ∧ s.sweeps < maxSweeps)

instance (m : Nat) (s : St F) : Decidable (Done m s) := inferInstanceAs (Decidable (¬ _))

/-- One iteration of the `while` loop (fm/fsm.hpp:91-96). -/
def Step (maxSweeps : Nat) (solve : St F → Nat → St F) (s s' : St F) : Prop := ¬ Done maxSweeps s ∧ s' = sweep solve s

/-- Initialisation of `FSM::computeInternal` (fm/fsm.hpp:84-89); `sweeps_` and `incs_` are what earlier calls left in the object. -/
def initFSM (g : Grid F) (pts : List Nat) (sweeps : Nat) (incs : List Int) : St F :=
  { g := pts.foldl (fun g i => g.setValue i zero) g, keep := true, stop := false, sweeps := sweeps, incs := incs }

/-- `for (i < grid_->size()) getCell(i).setState(s)` (fm/lsm.hpp:57-58, 83-84; fm/ddqm.hpp:67-68). -/
def allState (st : FMState) (g : Grid F) : Grid F :=
  { g with cells := fun i => if i < g.shape.ncells then { g.cells i with state := st } else g.cells i }

/-- Body of the initialisation loop of LSM (fm/lsm.hpp:61-66). -/
def initPointLSM (g : Grid F) (i : Nat) : Grid F :=
  (g.shape.nbrs i).foldl (fun g n => g.setState n .opn) (g.setValue i zero)

/-- Initialisation of `LSM::computeInternal` (fm/lsm.hpp:48-70). -/
def initLSM (g : Grid F) (pts : List Nat) (sweeps : Nat) (incs : List Int) : St F :=
  { g := pts.foldl initPointLSM (allState .frozen g), keep := true, stop := false, sweeps := sweeps, incs := incs }

end FSM
end FMV
