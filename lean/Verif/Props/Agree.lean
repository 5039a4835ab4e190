import Verif.Props.DDQM
import Verif.Props.FIMTerm
import Verif.Props.FSM
import Verif.Props.FMMTerm
import Verif.Props.WellPosed
/-!
# C28: the solvers agree
-/
set_option linter.unusedSectionVars false
set_option linter.unusedVariables false
namespace FMV
open Spec Shape XR FMM
variable {dims : List Nat} {g : Grid XR} {h : ℝ} {v : Nat → ℝ} {pts : List Nat}

/-- `g'` is the grid left by a finished run on `g` from `pts`, without goal, of FMM without heuristics (starting points not adjacent; also of
SFMM if its queue released minima, which the real one does not: C58),
of FSM or LSM within their sweep budget, of DDQM, or of FIM with its default threshold 0 (starting points not adjacent). -/
inductive FinalGrid (dims : List Nat) (g : Grid XR) (pts : List Nat) : Grid XR → Prop
  | fmm {cfg n s} : cfg.heur = .none → StartsApart dims g pts →
      Steps (StepMin cfg) n (FMM.init cfg g [] pts) s → s.heap = [] → FinalGrid dims g pts s.g
  | fsm {goal m sw incs n s} : dims.prod ≤ goal → FSM.IsDirs dims.length incs →
      Steps (FSM.Step m (FSM.solveFSM goal eikS)) n (FSM.initFSM g pts sw incs) s → FSM.Done m s → s.sweeps < m → FinalGrid dims g pts s.g
  | lsm {goal m sw incs n s} : dims.prod ≤ goal → FSM.IsDirs dims.length incs →
      Steps (FSM.Step m (FSM.solveLSM goal eikS)) n (FSM.initLSM g pts sw incs) s → FSM.Done m s → s.sweeps < m → FinalGrid dims g pts s.g
  | ddqm {goal th ths n s} : dims.prod ≤ goal → Steps (DDQM.Step goal eikS) n (DDQM.init g pts th ths) s → DDQM.Done s →
      FinalGrid dims g pts s.g
  | fim {goal n s} : dims.prod ≤ goal → StartsApart dims g pts → Steps (FIM.Step (fin 0) goal eikS) n (FIM.init g [] pts) s → FIM.Done s →
      FinalGrid dims g pts s.g

theorem FinalGrid.accuracy (X : XInput dims g h v pts) (hfr : Fresh g) {a : Grid XR} (ha : FinalGrid dims g pts a) (U : Nat → WithTop ℝ)
    (hU : X.problem.IsSolution U) (i : Nat) (hi : i < dims.prod) :
    U i ≤ toT (a.value i) ∧ toT (a.value i) ≤ U i + ((dims.prod * (2 * eps) : ℝ) : WithTop ℝ) := by
  cases ha with
  | fmm h1 h2 h3 h4 => exact (C16_FMM_final X hfr h2 U hU _ h1 _ _ h3 h4 i hi).2
  | fsm h1 h2 h3 h4 h5 => exact C28_FSM_accuracy X hfr U hU _ _ _ h1 _ h2 _ _ h3 h4 h5 i hi
  | lsm h1 h2 h3 h4 h5 => exact C28_LSM_accuracy X hfr U hU _ _ _ h1 _ h2 _ _ h3 h4 h5 i hi
  | ddqm h1 h2 h3 => exact C28_DDQM_accuracy X hfr U hU _ h1 _ _ _ _ h2 h3 i hi
  | fim h1 h2 h3 h4 => simpa using C29_FIM_accuracy X h2 hfr 0 (le_refl _) U hU _ h1 _ _ h3 h4 i hi

/-- **C28**: the results of any two of FMM, FSM, LSM, DDQM and FIM on the same problem differ in no cell by more than `2*N*COMP_MARGIN`, and they
are infinite in the same cells. -/
theorem C28_solvers_agree_partial (X : XInput dims g h v pts) (hfr : Fresh g) (a b : Grid XR) (ha : FinalGrid dims g pts a)
    (hb : FinalGrid dims g pts b) (i : Nat) (hi : i < dims.prod) :
    toT (a.value i) ≤ toT (b.value i) + ((dims.prod * (2 * eps) : ℝ) : WithTop ℝ) ∧
    toT (b.value i) ≤ toT (a.value i) + ((dims.prod * (2 * eps) : ℝ) : WithTop ℝ) ∧
    (toT (a.value i) = ⊤ ↔ toT (b.value i) = ⊤) := by
  obtain ⟨U, hU, _⟩ := C17_unique_solution X.problem X.wellPosed
  obtain ⟨a1, a2⟩ := ha.accuracy X hfr U hU i hi
  obtain ⟨b1, b2⟩ := hb.accuracy X hfr U hU i hi
  refine ⟨le_trans a2 (by gcongr), le_trans b2 (by gcongr), ?_⟩
  constructor
  · intro h0
    rw [h0] at a2
    have : U i = ⊤ := by
      by_contra hc
      cases hUi : U i with
      | top => exact hc hUi
      | coe r =>
        rw [hUi] at a2
        have : ((r : WithTop ℝ) + ((dims.prod * (2 * eps) : ℝ) : WithTop ℝ)) = ((r + dims.prod * (2 * eps) : ℝ) : WithTop ℝ) := by
          norm_cast
        rw [this] at a2
        exact absurd (top_le_iff.1 a2) (WithTop.coe_ne_top)
    rw [this] at b1
    exact top_le_iff.1 b1
  · intro h0
    rw [h0] at b2
    have : U i = ⊤ := by
      by_contra hc
      cases hUi : U i with
      | top => exact hc hUi
      | coe r =>
        rw [hUi] at b2
        have : ((r : WithTop ℝ) + ((dims.prod * (2 * eps) : ℝ) : WithTop ℝ)) = ((r + dims.prod * (2 * eps) : ℝ) : WithTop ℝ) := by
          norm_cast
        rw [this] at b2
        exact absurd (top_le_iff.1 b2) (WithTop.coe_ne_top)
    rw [this] at a1
    exact top_le_iff.1 a1

/-- non-vacuity: all six solvers have a final grid on a 3x3 example -/
example : ∃ (g : Grid XR), XInput [3,3] g 1 (fun _ => 1) [4] ∧ Fresh g ∧
    (∃ n s, Steps (StepMin ⟨true, .none, fun _ => fin 0, noGoal⟩) n (FMM.init ⟨true, .none, fun _ => fin 0, noGoal⟩ g [] [4]) s ∧
      FinalGrid [3,3] g [4] s.g) ∧
    (∃ n s, Steps (DDQM.Step noGoal eikS) n (DDQM.init g [4] (fin 1) (fin 1)) s ∧ FinalGrid [3,3] g [4] s.g) ∧
    (∃ n s, Steps (FSM.Step (2^32) (FSM.solveFSM noGoal eikS)) n (FSM.initFSM g [4] 0 (FSM.incs0 [3,3])) s ∧ FinalGrid [3,3] g [4] s.g) ∧
    (∃ n s, Steps (FSM.Step (2^32) (FSM.solveLSM noGoal eikS)) n (FSM.initLSM g [4] 0 (FSM.incs0 [3,3])) s ∧ FinalGrid [3,3] g [4] s.g) ∧
    (∃ n s, Steps (FIM.Step (fin 0) noGoal eikS) n (FIM.init g [] [4]) s ∧ FinalGrid [3,3] g [4] s.g) := by
  have X : XInput [3,3] (Grid.create [3,3] (fin 1) (0,0)) 1 (fun _ => 1) [4] :=
    ⟨⟨by decide, by decide, by decide⟩, by decide, rfl, by decide, one_pos, rfl, fun _ _ _ => rfl⟩
  have hfr : Fresh (Grid.create (F := XR) [3,3] (fin 1) (0,0)) := ⟨fun _ => rfl, fun _ => rfl, fun _ => rfl⟩
  have hap : StartsApart [3,3] (Grid.create (F := XR) [3,3] (fin 1) (0,0)) [4] := by
    intro i hi j hj _ hadj
    obtain ⟨k, h0, h1, h2, h3⟩ := hadj
    rw [List.mem_singleton] at hi hj
    subst hi; subst hj
    omega
  have hlt : ∀ {eik : Eik XR} {solve : FSM.St XR → Nat → FSM.St XR} (S : FSM.Solver eik solve) {n : Nat} {s t : FSM.St XR}
      (h0 : s.sweeps < 2^32), Steps (FSM.Step (2^32) solve) n s t → t.sweeps < 2^32 := by
    intro eik solve S n s t h0 hs
    refine Steps.inv (I := fun t : FSM.St XR => t.sweeps < 2^32) ?_ hs h0
    rintro a b _ ⟨_, rfl⟩
    rw [S.sweep_sweeps]; exact Nat.mod_lt _ (by norm_num)
  obtain ⟨U, hU, _⟩ := C17_unique_solution X.problem X.wellPosed
  refine ⟨_, X, hfr, ?_, ?_, ?_, ?_, ?_⟩
  · obtain ⟨_, n, s, hs, he, _⟩ := C47_SFMM_exact X hfr hap U hU ⟨true, .none, fun _ => fin 0, noGoal⟩ rfl (by decide)
    exact ⟨n, s, hs, .fmm rfl hap hs he⟩
  · obtain ⟨⟨n, s, hs, hd⟩, _⟩ := C27_DDQM_exact X hfr noGoal (fin 1) (fin 1)
    exact ⟨n, s, hs, .ddqm (by decide) hs hd⟩
  · obtain ⟨⟨n, s, hs, hd⟩, _⟩ := C23_FSM_exact X hfr noGoal (2^32) 0 _ (FSM.incs0_isDirs [3,3])
    exact ⟨n, s, hs, .fsm (by decide) (FSM.incs0_isDirs [3,3]) hs hd (hlt (FSM.solveFSM_solver _ _) (show (0:Nat) < 2^32 by norm_num) hs)⟩
  · obtain ⟨⟨n, s, hs, hd⟩, _⟩ := C26_LSM_exact X hfr noGoal (2^32) 0 _ (FSM.incs0_isDirs [3,3])
    exact ⟨n, s, hs, .lsm (by decide) (FSM.incs0_isDirs [3,3]) hs hd (hlt (FSM.solveLSM_solver _ _) (show (0:Nat) < 2^32 by norm_num) hs)⟩
  · obtain ⟨n, s, hs, hd⟩ := (C29_FIM_terminates X hap hfr 0 (le_refl _) noGoal).2
    exact ⟨n, s, hs, .fim (by decide) hap hs hd⟩

end FMV
