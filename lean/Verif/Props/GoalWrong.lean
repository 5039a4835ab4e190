import Verif.Lemmas.ReflectSweep
import Verif.Lemmas.Accuracy
import Verif.Props.FSM
/-!
# C74: stopping at the goal: FSM, LSM, DDQM and FIM stop too early
-/
namespace FMV
open FMM Arith Spec XR Shape

theorem avgSpeed_hom (g : Grid XQ) : g.toXR.getAvgSpeed = g.getAvgSpeed.toXR := by
  let f : {F : Type} → [Arith F] → F × Nat → Cell F → F × Nat := fun acc c => if !c.isOccupied then (Arith.add acc.1 c.occupancy, acc.2) else (acc.1, acc.2 + 1)
  have key : ∀ (l : List Nat) (z : XQ × Nat), (l.map g.toXR.cells).foldl f (z.1.toXR, z.2) =
      (((l.map g.cells).foldl f z).1.toXR, ((l.map g.cells).foldl f z).2) := by
    intro l
    induction l with
    | nil => intro z; rfl
    | cons a l ih =>
      intro z
      rw [List.map_cons, List.map_cons, List.foldl_cons, List.foldl_cons, ← ih]
      congr 1
      have : (g.toXR.cells a).isOccupied = (g.cells a).isOccupied := Grid.toXR_occ g a
      dsimp only [f]
      rw [this]
      split
      · refine Prod.ext ?_ rfl
        exact (XQ.toXR_add _ _).symm
      · rfl
  unfold Grid.getAvgSpeed Grid.toList
  rw [Grid.toXR_shape]
  have := key (List.range g.shape.ncells) (Arith.zero, 0)
  rw [zero_hom] at this
  dsimp only [f] at this ⊢
  rw [this]
  show XR.div _ _ = (XQ.div _ _).toXR
  rw [XQ.toXR_div]
  unfold Arith.ofNat
  rw [XQ.toXR_ofRat]

theorem thStepEnv_hom (g : Grid XQ) : DDQM.thStepEnv g.toXR = (DDQM.thStepEnv g).toXR := by
  unfold DDQM.thStepEnv
  show XR.div (XR.mul _ _) _ = (XQ.div (XQ.mul _ _) _).toXR
  rw [XQ.toXR_div, XQ.toXR_mul, XQ.toXR_ofRat, avgSpeed_hom]
  rfl

theorem toXR_fin (r : Rat) (x : ℝ) (h : (r : ℝ) = x) : (XQ.fin r).toXR = fin x := by
  show XR.fin _ = XR.fin _; rw [h]

namespace GoalMap

/-- The map, 4 columns and 4 rows, cells of size 1; obstacles 5, 7 and 9. -/
def speeds : List Rat := [1, 1, 1, 1/10, 1, 0, 1/10, 0, 1/5, 0, 1/10, 1, 1/5, 1/10, 1, 1]

def mapQ : Grid XQ :=
  { shape := Shape.mk' [4, 4], leaf := .fin 1, clean := true,
    cells := fun i => { (Cell.default : Cell XQ) with occupancy := .fin (speeds.getD i 1), index := i }, occupied := [5, 7, 9], scratch := (0, 0) }

/-- the map -/
noncomputable def map : Grid XR := mapQ.toXR

noncomputable def speed (i : Nat) : ℝ := ((speeds.getD i 1 : Rat) : ℝ)

theorem input : XInput [4, 4] map 1 speed [13] :=
  ⟨⟨by decide, by decide, by decide⟩, by decide, rfl, by decide, by norm_num, by show XR.fin _ = XR.fin _; norm_num, fun i _ _ => rfl⟩

theorem fresh : Fresh map := ⟨fun _ => rfl, fun _ => rfl, fun _ => by show XR.fin _ = XR.fin _; norm_num⟩

/-- the sweeps, as FSM and LSM construct them; `m` is the default bound on the number of sweeps -/
abbrev m : Nat := 2^32 - 1

def runQ (lsm : Bool) (goal : Nat) : FSM.St XQ :=
  FSM.run lsm m goal 12 (if lsm then FSM.initLSM mapQ [13] 0 [1, 1] else FSM.initFSM mapQ [13] 0 [1, 1])

theorem run_ok (lsm : Bool) (goal : Nat) (n : Nat) (h : FSM.okRun lsm m goal 12 (if lsm then FSM.initLSM mapQ [13] 0 [1, 1] else FSM.initFSM mapQ [13] 0 [1, 1]) = true) :
    FSM.run lsm m goal 12 (if lsm then FSM.initLSM map [13] 0 [1, 1] else FSM.initFSM map [13] 0 [1, 1]) = (runQ lsm goal).toXR := by
  unfold runQ
  rw [← FSM.run_hom _ _ _ _ _ h]
  congr 1
  cases lsm
  · exact FSM.initFSM_hom _ _ _ _
  · exact FSM.initLSM_hom _ _ _ _

/-- what the rational run shows about the real one -/
theorem sweep_run (lsm : Bool) (goal : Nat) (x : ℝ) (r : Rat) (hr : (r : ℝ) = x)
    (h : FSM.okRun lsm m goal 12 (if lsm then FSM.initLSM mapQ [13] 0 [1, 1] else FSM.initFSM mapQ [13] 0 [1, 1]) = true)
    (hd : ¬ ((runQ lsm goal).keep = true ∧ (runQ lsm goal).stop = false ∧ (runQ lsm goal).sweeps < m)) (hv : (runQ lsm goal).g.value 6 = .fin r) :
    ∃ k s, Steps (FSM.Step m (FSM.solver lsm goal)) k (if lsm then FSM.initLSM map [13] 0 [1, 1] else FSM.initFSM map [13] 0 [1, 1]) s ∧ FSM.Done m s ∧
      s.g.value 6 = fin x := by
  obtain ⟨k, hk⟩ := FSM.run_steps lsm m goal 12 (if lsm then FSM.initLSM map [13] 0 [1, 1] else FSM.initFSM map [13] 0 [1, 1])
  rw [run_ok lsm goal 12 h] at hk
  refine ⟨k, _, hk, hd, ?_⟩
  show ((runQ lsm goal).g.value 6).toXR = _
  rw [hv]; exact toXR_fin r x hr

def ddQ (goal : Nat) : DDQM.St XQ := DDQM.run goal 200 (DDQM.init mapQ [13] (.fin (5/2)) (.fin (5/2)))

theorem ddqm_run (goal : Nat) (x : ℝ) (r : Rat) (hr : (r : ℝ) = x)
    (h : DDQM.okRun goal 200 (DDQM.init mapQ [13] (.fin (5/2)) (.fin (5/2))) = true)
    (hd : (ddQ goal).inner = false ∧ ((ddQ goal).stop = true ∨ ((ddQ goal).q0 = [] ∧ (ddQ goal).q1 = []))) (hv : (ddQ goal).g.value 6 = .fin r) :
    ∃ k s, Steps (DDQM.Step goal eikS) k (DDQM.init map [13] (DDQM.thStepEnv map) (DDQM.thStepEnv map)) s ∧ DDQM.Done s ∧ s.g.value 6 = fin x := by
  have e : DDQM.init map [13] (DDQM.thStepEnv map) (DDQM.thStepEnv map) = (DDQM.init mapQ [13] (.fin (5/2)) (.fin (5/2))).toXR := by
    have h1 : DDQM.thStepEnv map = (XQ.fin (5/2)).toXR := by
      unfold map; rw [thStepEnv_hom]; congr 1; decide +kernel
    rw [h1]; exact DDQM.init_hom _ _ _ _
  obtain ⟨k, hk⟩ := DDQM.run_steps goal 200 (DDQM.init map [13] (DDQM.thStepEnv map) (DDQM.thStepEnv map))
  rw [e, DDQM.run_hom goal 200 _ h, ← e] at hk
  refine ⟨k, _, hk, hd, ?_⟩
  show ((ddQ goal).g.value 6).toXR = _
  rw [hv]; exact toXR_fin r x hr

end GoalMap

open GoalMap in
/-- **C74 is false for FSM**: on this 4 x 4 map (a fresh grid with unit cells) FSM with the goal stops with time 21 at the goal, without the goal with time 19. -/
theorem C74_refuted_FSM : ∃ (g : Grid XR) (v : Nat → ℝ) (_ : XInput [4, 4] g 1 v [13]), Fresh g ∧
    (∃ k s, Steps (FSM.Step (2^32 - 1) (FSM.solveFSM 6 eikS)) k (FSM.initFSM g [13] 0 (FSM.incs0 [4, 4])) s ∧ FSM.Done (2^32 - 1) s ∧ s.g.value 6 = fin 21) ∧
    (∃ k s, Steps (FSM.Step (2^32 - 1) (FSM.solveFSM noGoal eikS)) k (FSM.initFSM g [13] 0 (FSM.incs0 [4, 4])) s ∧ FSM.Done (2^32 - 1) s ∧ s.g.value 6 = fin 19) :=
  ⟨map, speed, input, fresh, sweep_run false 6 21 21 (by norm_num) (by decide +kernel) (by decide +kernel) (by decide +kernel),
    sweep_run false noGoal 19 19 (by norm_num) (by decide +kernel) (by decide +kernel) (by decide +kernel)⟩

open GoalMap in
/-- **C74 is false for LSM**, on the same map with the same times. -/
theorem C74_refuted_LSM : ∃ (g : Grid XR) (v : Nat → ℝ) (_ : XInput [4, 4] g 1 v [13]), Fresh g ∧
    (∃ k s, Steps (FSM.Step (2^32 - 1) (FSM.solveLSM 6 eikS)) k (FSM.initLSM g [13] 0 (FSM.incs0 [4, 4])) s ∧ FSM.Done (2^32 - 1) s ∧ s.g.value 6 = fin 21) ∧
    (∃ k s, Steps (FSM.Step (2^32 - 1) (FSM.solveLSM noGoal eikS)) k (FSM.initLSM g [13] 0 (FSM.incs0 [4, 4])) s ∧ FSM.Done (2^32 - 1) s ∧ s.g.value 6 = fin 19) :=
  ⟨map, speed, input, fresh, sweep_run true 6 21 21 (by norm_num) (by decide +kernel) (by decide +kernel) (by decide +kernel),
    sweep_run true noGoal 19 19 (by norm_num) (by decide +kernel) (by decide +kernel) (by decide +kernel)⟩

open GoalMap in
/-- **C74 is false for DDQM** with the threshold it chooses itself, on the same map with the same times. -/
theorem C74_refuted_DDQM : ∃ (g : Grid XR) (v : Nat → ℝ) (_ : XInput [4, 4] g 1 v [13]), Fresh g ∧
    (∃ k s, Steps (DDQM.Step 6 eikS) k (DDQM.init g [13] (DDQM.thStepEnv g) (DDQM.thStepEnv g)) s ∧ DDQM.Done s ∧ s.g.value 6 = fin 21) ∧
    (∃ k s, Steps (DDQM.Step noGoal eikS) k (DDQM.init g [13] (DDQM.thStepEnv g) (DDQM.thStepEnv g)) s ∧ DDQM.Done s ∧ s.g.value 6 = fin 19) :=
  ⟨map, speed, input, fresh, ddqm_run 6 21 21 (by norm_num) (by decide +kernel) (by decide +kernel) (by decide +kernel),
    ddqm_run noGoal 19 19 (by norm_num) (by decide +kernel) (by decide +kernel) (by decide +kernel)⟩

namespace GoalMapFIM

/-- The map, 3 columns and 3 rows, cells of size 1; obstacles 0, 6 and 8. -/
def speeds : List Rat := [0, 1, 1, 1, 1, 1/10, 0, 1/5, 0]

def mapQ : Grid XQ :=
  { shape := Shape.mk' [3, 3], leaf := .fin 1, clean := true,
    cells := fun i => { (Cell.default : Cell XQ) with occupancy := .fin (speeds.getD i 1), index := i }, occupied := [0, 6, 8], scratch := (0, 0) }

/-- the map -/
noncomputable def map : Grid XR := mapQ.toXR

noncomputable def speed (i : Nat) : ℝ := ((speeds.getD i 1 : Rat) : ℝ)

theorem input : XInput [3, 3] map 1 speed [4] :=
  ⟨⟨by decide, by decide, by decide⟩, by decide, rfl, by decide, by norm_num, by show XR.fin _ = XR.fin _; norm_num, fun i _ _ => rfl⟩

theorem fresh : Fresh map := ⟨fun _ => rfl, fun _ => rfl, fun _ => by show XR.fin _ = XR.fin _; norm_num⟩

def runQ (goal : Nat) : FIM.St XQ := FIM.run (.fin 0) goal 100 (FIM.init mapQ [] [4])

theorem fim_run (goal : Nat) (x : ℝ) (r : Rat) (hr : (r : ℝ) = x) (h : FIM.okRun (.fin 0) goal 100 (FIM.init mapQ [] [4]) = true)
    (hd : (runQ goal).after = [] ∧ ((runQ goal).stop = true ∨ (runQ goal).before = [])) (hv : (runQ goal).g.value 5 = .fin r) :
    ∃ k s, Steps (FIM.Step (fin 0) goal eikS) k (FIM.init map [] [4]) s ∧ FIM.Done s ∧ s.g.value 5 = fin x := by
  obtain ⟨k, hk⟩ := FIM.run_steps (XQ.fin 0).toXR goal 100 (FIM.init map [] [4])
  have e : FIM.init map [] [4] = (FIM.init mapQ [] [4]).toXR := FIM.init_hom _ _
  rw [e, FIM.run_hom (.fin 0) goal 100 _ h, ← e, toXR_fin 0 0 (by norm_num)] at hk
  refine ⟨k, _, hk, hd, ?_⟩
  show ((runQ goal).g.value 5).toXR = _
  rw [hv]; exact toXR_fin r x hr

end GoalMapFIM

open GoalMapFIM in
/-- **C74 is false for FIM** (with its default error bound 0; no warning is printed): on this 3 x 3 map FIM with the goal stops with time 10 at the goal, without the goal with
time 8. -/
theorem C74_refuted_FIM : ∃ (g : Grid XR) (v : Nat → ℝ) (_ : XInput [3, 3] g 1 v [4]), Fresh g ∧
    (∃ k s, Steps (FIM.Step (fin 0) 5 eikS) k (FIM.init g [] [4]) s ∧ FIM.Done s ∧ s.g.value 5 = fin 10) ∧
    (∃ k s, Steps (FIM.Step (fin 0) noGoal eikS) k (FIM.init g [] [4]) s ∧ FIM.Done s ∧ s.g.value 5 = fin 8) :=
  ⟨map, speed, input, fresh, fim_run 5 10 10 (by norm_num) (by decide +kernel) (by decide +kernel) (by decide +kernel),
    fim_run noGoal 8 8 (by norm_num) (by decide +kernel) (by decide +kernel) (by decide +kernel)⟩

end FMV
