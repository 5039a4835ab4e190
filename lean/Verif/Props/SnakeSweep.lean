import Verif.Props.OpenSweep
import Verif.Props.GoalWrong
/-!
# C76: with obstacles 2^n sweeps are not enough
-/
namespace FMV
open FMM Arith Spec XR Shape

namespace SnakeMap

/-- The map, 3 columns and 7 rows, cells of size 1: a corridor that turns six times. -/
def speeds : List Rat := [1,1,1, 0,0,1, 1,1,1, 1,0,0, 1,1,1, 0,0,1, 1,1,1]

def mapQ : Grid XQ :=
  { shape := Shape.mk' [3, 7], leaf := .fin 1, clean := true,
    cells := fun i => { (Cell.default : Cell XQ) with occupancy := .fin (speeds.getD i 1), index := i }, occupied := [3, 4, 10, 11, 15, 16], scratch := (0, 0) }

/-- the map -/
noncomputable def map : Grid XR := mapQ.toXR

noncomputable def speed (i : Nat) : ℝ := ((speeds.getD i 1 : Rat) : ℝ)

theorem input : XInput [3, 7] map 1 speed [0] :=
  ⟨⟨by decide, by decide, by decide⟩, by decide, rfl, by decide, by norm_num, by show XR.fin _ = XR.fin _; norm_num, fun i _ _ => rfl⟩

theorem fresh : Fresh map := ⟨fun _ => rfl, fun _ => rfl, fun _ => by show XR.fin _ = XR.fin _; norm_num⟩

def startQ (lsm : Bool) : FSM.St XQ := if lsm then FSM.initLSM mapQ [0] 0 [1, 1] else FSM.initFSM mapQ [0] 0 [1, 1]
noncomputable def start (lsm : Bool) : FSM.St XR := if lsm then FSM.initLSM map [0] 0 [1, 1] else FSM.initFSM map [0] 0 [1, 1]
def runQ (lsm : Bool) (m : Nat) : FSM.St XQ := FSM.run lsm m noGoal 12 (startQ lsm)

theorem reflect (lsm : Bool) (m : Nat) (y : XQ) (h : FSM.okRun lsm m noGoal 12 (startQ lsm) = true)
    (hd : ¬ ((runQ lsm m).keep = true ∧ (runQ lsm m).stop = false ∧ (runQ lsm m).sweeps < m)) (hv : (runQ lsm m).g.value 18 = y) :
    ∃ k s, Steps (FSM.Step m (FSM.solver lsm noGoal)) k (start lsm) s ∧ FSM.Done m s ∧ s.g.value 18 = y.toXR := by
  obtain ⟨k, hk⟩ := FSM.run_steps lsm m noGoal 12 (start lsm)
  have e : start lsm = (startQ lsm).toXR := by
    cases lsm
    · exact FSM.initFSM_hom _ _ _ _
    · exact FSM.initLSM_hom _ _ _ _
  rw [e, FSM.run_hom _ _ _ _ _ h, ← e] at hk
  refine ⟨k, _, hk, hd, ?_⟩
  show ((runQ lsm m).g.value 18).toXR = _
  rw [hv]

end SnakeMap

open SnakeMap in
/-- **C76 is false with obstacles**: on a 3x7 map with one start in a corridor, FSM and LSM with a budget of 4 = 2^2 sweeps, freshly constructed, leave the end of the corridor
unreached (infinite), although it is at time 14 when the budget is the default one. -/
theorem C76_refuted_obstacles (lsm : Bool) :
    (∃ (_ : XInput [3, 7] SnakeMap.map 1 speed [0]), Fresh SnakeMap.map) ∧
    (∃ k s, Steps (FSM.Step 4 (if lsm then FSM.solveLSM noGoal eikS else FSM.solveFSM noGoal eikS)) k
        (if lsm then FSM.initLSM SnakeMap.map [0] 0 [1, 1] else FSM.initFSM SnakeMap.map [0] 0 [1, 1]) s ∧ FSM.Done 4 s ∧ s.g.value 18 = pinf) ∧
    ∃ k s, Steps (FSM.Step (2^32 - 1) (if lsm then FSM.solveLSM noGoal eikS else FSM.solveFSM noGoal eikS)) k
        (if lsm then FSM.initLSM SnakeMap.map [0] 0 [1, 1] else FSM.initFSM SnakeMap.map [0] 0 [1, 1]) s ∧ FSM.Done (2^32 - 1) s ∧ s.g.value 18 = fin 14 := by
  refine ⟨⟨input, fresh⟩, ?_, ?_⟩
  · cases lsm
    · exact reflect false 4 .pinf (by decide +kernel) (by decide +kernel) (by decide +kernel)
    · exact reflect true 4 .pinf (by decide +kernel) (by decide +kernel) (by decide +kernel)
  · have e : (XQ.fin 14).toXR = fin 14 := toXR_fin _ _ (by norm_num)
    rw [← e]
    cases lsm
    · exact reflect false (2^32 - 1) (.fin 14) (by decide +kernel) (by decide +kernel) (by decide +kernel)
    · exact reflect true (2^32 - 1) (.fin 14) (by decide +kernel) (by decide +kernel) (by decide +kernel)

end FMV
