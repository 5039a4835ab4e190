import Verif.Props.UFMMDefined
import Verif.Props.GMMAcc64
/-! C99: in doubles, all solver classes agree, each up to its own error. -/
set_option linter.unusedSectionVars false
set_option linter.unusedVariables false
namespace FMV
open Spec Shape XR FMM
variable {R : Rounding}

section final
variable {dims : List Nat} {g : Grid (F64 R)} {h : ℝ} {v : Nat → ℝ} {pts : List Nat} {cm cM A : ℝ}

/-- `Finished64 dims g pts cm cM A ρ a`: `a` is the grid left by a finished run in doubles on `g` from `pts`, without goal, of one of the solvers, and `ρ` is the relative error
allowed for it.  FMM (and SFMM with an ordered queue), FSM, LSM, DDQM: the error of doubles alone.  UFMM: plus the width of a bucket, for a queue that suits the map and a
run without undefined conversion.  FIM: plus the stop threshold.  GMM: plus the time step. -/
inductive Finished64 (dims : List Nat) (g : Grid (F64 R)) (pts : List Nat) (cm cM A : ℝ) : ℝ → Grid (F64 R) → Prop
  | fmm {cfg n s} : cfg.heur = .none → StartsApart dims g pts →
      Steps (StepMin cfg) n (FMM.init cfg g [] pts) s → s.heap = [] → Finished64 dims g pts cm cM A (relErr dims.length cm A) s.g
  | fsm {goal m sw incs n s} : dims.prod ≤ goal → FSM.IsDirs dims.length incs →
      Steps (FSM.Step m (FSM.solveFSM goal eikS)) n (FSM.initFSM g pts sw incs) s → FSM.Done m s → s.sweeps < m →
      Finished64 dims g pts cm cM A (relErr dims.length cm A) s.g
  | lsm {goal m sw incs n s} : dims.prod ≤ goal → FSM.IsDirs dims.length incs →
      Steps (FSM.Step m (FSM.solveLSM goal eikS)) n (FSM.initLSM g pts sw incs) s → FSM.Done m s → s.sweeps < m →
      Finished64 dims g pts cm cM A (relErr dims.length cm A) s.g
  | ddqm {goal th ths n s} : dims.prod ≤ goal → Steps (DDQM.Step goal eikS) n (DDQM.init g pts th ths) s → DDQM.Done s →
      Finished64 dims g pts cm cM A (relErr dims.length cm A) s.g
  | ufmm {K n m : Nat} {inc : ℝ} {incF : F64 R} {ub goal u} : Within dims g pts K → (2 * cM + 2 * (inc / n)) * (K + 2) ≤ A → QueueFits dims.length n cm cM A inc →
      StartsApart dims g pts → incF.1 = .fin inc → UFMM.initDefined g (UQ.create n incF ub) pts →
      Steps (UFMM.DStep goal eikS) m (UFMM.init g (UQ.create n incF ub) pts) u → u.q.nb = 0 →
      Finished64 dims g pts cm cM A (queueErr dims.length n cm A inc) u.g
  | fim {E : F64 R} {e : ℝ} {goal n s} : E.1 = .fin e → 0 ≤ e → dims.prod ≤ goal → 2 * cM * ((2 * n : Nat) + dims.prod) ≤ A → StartsApart dims g pts →
      Steps (FIM.Step E goal eikS) n (FIM.init g [] pts) s → FIM.Done s → Finished64 dims g pts cm cM A (stopErr dims.length cm A e) s.g
  | gmm {dt : F64 R} {d : ℝ} {goal n s} : dt.1 = .fin d → StepFits dims.length cm A d → dims.prod ≤ goal →
      Steps (GMM.Step dt goal eikS) n (GMM.init eikS g [] pts) s → GMM.Done s → Finished64 dims g pts cm cM A (stepErr dims.length cm A d) s.g

/-- a smaller bound on the times is also adequate -/
theorem DInput.shrink (I : DInput dims g h v pts cm cM A) {B : ℝ} (hcc : cm ≤ cM) (hB : cM ≤ B) (hBA : B ≤ A) : DInput dims g h v pts cm cM B := by
  have h0 : 0 < B := by have := I.cm0; linarith
  refine { X := I.X, h1 := I.h1, h2 := I.h2, v2 := I.v2, cm0 := I.cm0, lo := I.lo, hi := I.hi, cA := hB, cmA := le_trans hcc hB, A2 := le_trans hBA I.A2, small := ?_,
           margin := I.margin }
  refine le_trans ?_ I.small
  have h1 : B^2 ≤ A^2 := pow_le_pow_left₀ h0.le hBA 2
  have h2 : (0:ℝ) ≤ 640 * (dims.length:ℝ)^4 * uu := by unfold uu; positivity
  exact mul_le_mul_of_nonneg_left h1 h2

theorem relErr_mono (D : Nat) {cm B A : ℝ} (hcm : 0 < cm) (hB : 0 ≤ B) (hBA : B ≤ A) : relErr D cm B ≤ relErr D cm A := by
  unfold relErr
  have h1 : (B / cm)^2 ≤ (A / cm)^2 := pow_le_pow_left₀ (by positivity) (div_le_div_of_nonneg_right hBA hcm.le) 2
  have h2 : (0:ℝ) ≤ 420 * (D:ℝ)^4 * (1 / 2^51) := by positivity
  have := mul_le_mul_of_nonneg_left h1 h2
  linarith

theorem relClose_mono {ρ σ : ℝ} {U : WithTop ℝ} {t : XR} (h : RelClose ρ U t) (hU : 0 ≤ U) (hρ : ρ ≤ σ) : RelClose σ U t := by
  rcases h with h | ⟨e, r, h1, h2, h3, h4⟩
  · exact .inl h
  · rw [h1] at hU
    have he : (0:ℝ) ≤ e := by exact_mod_cast hU
    have := mul_le_mul_of_nonneg_right hρ he
    exact .inr ⟨e, r, h1, h2, by linarith, by linarith⟩

/-- **C99** (accuracy): the result of every finished run is the exact solution up to the error of that solver. -/
theorem C99_accuracy (I : DInput dims g h v pts cm cM A) (hcc : cm ≤ cM) (hA : 2 * cM * dims.prod ≤ A) (hfr : Fresh g) {ρ : ℝ} {a : Grid (F64 R)}
    (ha : Finished64 dims g pts cm cM A ρ a) (U : Nat → WithTop ℝ) (hU : I.X.problem.IsSolution U) (i : Nat) (hi : i < dims.prod) : RelClose ρ (U i) (a.value i).1 := by
  have h0 := I.cm0
  have hp : (1:ℝ) ≤ (dims.prod : ℝ) := by exact_mod_cast (by omega : 1 ≤ dims.prod)
  have hB : cM ≤ 2 * cM * dims.prod := by nlinarith
  have I' : DInput dims g h v pts cm cM (2 * cM * dims.prod) := I.shrink hcc hB hA
  have hU' : I'.X.problem.IsSolution U := hU
  have hnn : 0 ≤ U i := by
    obtain ⟨W, hW, hWn, huniq⟩ := C17_unique_solution I.X.problem I.X.wellPosed
    have := huniq U hU i hi
    rw [this]; exact hWn i hi
  have key : ∀ {t : XR}, RelClose (relErr dims.length cm (2 * cM * dims.prod)) (U i) t → RelClose (relErr dims.length cm A) (U i) t :=
    fun h => relClose_mono h hnn (relErr_mono _ h0 (by nlinarith) hA)
  cases ha with
  | fmm h1 h2 h3 h4 => exact key (C59_FMM_cells I' hcc hfr h2 U hU' _ h1 _ _ h3 h4 i hi)
  | fsm h1 h2 h3 h4 h5 => exact key (C59_FSM I' hcc hfr U hU' _ _ _ h1 _ h2 _ _ h3 h4 h5 i hi)
  | lsm h1 h2 h3 h4 h5 => exact key (C59_LSM I' hcc hfr U hU' _ _ _ h1 _ h2 _ _ h3 h4 h5 i hi)
  | ddqm h1 h2 h3 => exact key (C59_DDQM I' hcc hfr U hU' _ h1 _ _ _ _ h2 h3 i hi)
  | ufmm h1 h2 h3 h4 h5 h6 h7 h8 => exact C95_accuracy I hcc h1 h2 h3 hfr h4 U hU _ h5 _ _ _ _ h6 h7 h8 i hi
  | fim h1 h2 h3 h4 h5 h6 h7 => exact C96_FIM_accuracy I hcc hfr h5 U hU _ _ h1 h2 _ h3 _ h4 _ h6 h7 i hi
  | gmm h1 h2 h3 h4 h5 => exact C97_GMM_accuracy I hcc hA hfr U hU _ _ h1 h2 _ h3 _ _ h4 h5 i hi

/-- **C99**: in doubles, the results of any two finished runs, of the same or of different solvers, are `+inf` in the same cells, and in every other cell both are finite, not
negative, and differ by at most `(ρ + σ) / (1 - ρ)` times the first, if the error `ρ` allowed for the first is below 1. -/
theorem C99_solvers_agree (I : DInput dims g h v pts cm cM A) (hcc : cm ≤ cM) (hA : 2 * cM * dims.prod ≤ A) (hfr : Fresh g) {ρ σ : ℝ} {a b : Grid (F64 R)}
    (ha : Finished64 dims g pts cm cM A ρ a) (hb : Finished64 dims g pts cm cM A σ b) (hρ : ρ < 1) (hρσ : 0 ≤ ρ + σ) (i : Nat) (hi : i < dims.prod) :
    ((a.value i).1 = .pinf ∧ (b.value i).1 = .pinf) ∨
    ∃ x y : ℝ, (a.value i).1 = .fin x ∧ (b.value i).1 = .fin y ∧ 0 ≤ x ∧ |y - x| ≤ (ρ + σ) / (1 - ρ) * x := by
  obtain ⟨U, hU, hnn, _⟩ := C17_unique_solution I.X.problem I.X.wellPosed
  rcases C99_accuracy I hcc hA hfr ha U hU i hi with ⟨h1, h2⟩ | ⟨e, x, h1, h2, h3, h4⟩
  · rcases C99_accuracy I hcc hA hfr hb U hU i hi with ⟨k1, k2⟩ | ⟨e', y, k1, _⟩
    · exact Or.inl ⟨h2, k2⟩
    · rw [h1] at k1; exact absurd k1.symm WithTop.coe_ne_top
  · rcases C99_accuracy I hcc hA hfr hb U hU i hi with ⟨k1, k2⟩ | ⟨e', y, k1, k2, k3, k4⟩
    · rw [k1] at h1; exact absurd h1.symm WithTop.coe_ne_top
    · rw [h1] at k1
      obtain rfl : e = e' := WithTop.coe_injective k1
      have he := hnn i hi
      rw [h1] at he
      have he' : (0:ℝ) ≤ e := by exact_mod_cast he
      have h5 : 0 < 1 - ρ := by linarith
      have h6 : e ≤ x / (1 - ρ) := by rw [le_div_iff₀ h5]; linarith
      refine Or.inr ⟨x, y, h2, k2, by nlinarith, ?_⟩
      have h7 : |y - x| ≤ (ρ + σ) * e := by rw [abs_le]; constructor <;> linarith
      refine le_trans h7 ?_
      calc (ρ + σ) * e ≤ (ρ + σ) * (x / (1 - ρ)) := mul_le_mul_of_nonneg_left h6 hρσ
        _ = _ := by ring
end final

/-- non-vacuity: rounding to nearest, a 2 x 2 map with one obstacle: FMM, FSM, LSM, DDQM, UFMM, FIM and GMM all end there, with allowed errors below 2 percent -/
example : ∃ (g : Grid (F64 Rounding.nearest)) (v : Nat → ℝ) (I : DInput [2,2] g 1 v [0] 1 1 32), Fresh g ∧ g.occ 1 = true ∧
    2 * 1 * (([2,2] : List Nat).prod : ℝ) ≤ 32 ∧ relErr 2 1 32 < 1/50 ∧ queueErr 2 1024 1 32 4 < 1/50 ∧ stopErr 2 1 32 0 < 1/50 ∧ stepErr 2 1 32 (1/1024) < 1/50 ∧
    (∃ cfg n s, Steps (StepMin cfg) n (FMM.init cfg g [] [0]) s ∧ Finished64 [2,2] g [0] 1 1 32 (relErr 2 1 32) s.g) ∧
    (∃ n s, Steps (FSM.Step (2^32) (FSM.solveFSM noGoal eikS)) n (FSM.initFSM g [0] 0 (FSM.incs0 [2,2])) s ∧ Finished64 [2,2] g [0] 1 1 32 (relErr 2 1 32) s.g) ∧
    (∃ n s, Steps (FSM.Step (2^32) (FSM.solveLSM noGoal eikS)) n (FSM.initLSM g [0] 0 (FSM.incs0 [2,2])) s ∧ Finished64 [2,2] g [0] 1 1 32 (relErr 2 1 32) s.g) ∧
    (∃ n s, Steps (DDQM.Step noGoal eikS) n (DDQM.init g [0] Arith.one Arith.one) s ∧ Finished64 [2,2] g [0] 1 1 32 (relErr 2 1 32) s.g) ∧
    (∃ incF ub n s, Steps (UFMM.DStep noGoal eikS) n (UFMM.init g (UQ.create 1024 incF ub) [0]) s ∧ Finished64 [2,2] g [0] 1 1 32 (queueErr 2 1024 1 32 4) s.g) ∧
    (∃ E n s, Steps (FIM.Step E noGoal eikS) n (FIM.init g [] [0]) s ∧ Finished64 [2,2] g [0] 1 1 32 (stopErr 2 1 32 0) s.g) ∧
    (∃ dt n s, Steps (GMM.Step dt noGoal eikS) n (GMM.init eikS g [] [0]) s ∧ Finished64 [2,2] g [0] 1 1 32 (stepErr 2 1 32 (1/1024)) s.g) := by
  set g : Grid (F64 Rounding.nearest) := FIM.crossMap Arith.one Arith.zero Arith.one Arith.one with hg
  have hep := eps_pos
  have occ1 : g.occ 1 = true := by
    show XR.lt (fin 0) (fin eps) = true
    simpa [XR.lt] using hep
  have X : XInput [2,2] (gridX g) 1 (fun _ => 1) [0] := by
    refine ⟨⟨by decide, by decide, by decide⟩, by decide, rfl, by decide, one_pos, rfl, ?_⟩
    intro i hi ho
    have h4 : i = 0 ∨ i = 1 ∨ i = 2 ∨ i = 3 := by
      have : i < 4 := hi
      omega
    rcases h4 with rfl | rfl | rfl | rfl
    · rfl
    · exact absurd (show g.occ 1 = false from ho) (by rw [occ1]; simp)
    · rfl
    · rfl
  have hin : Input [2,2] g [0] := ⟨X.fits, rfl, X.inside⟩
  have b1 : (2:ℝ)^(-200:ℤ) ≤ 1 := by
    have : (2:ℝ)^(-200:ℤ) ≤ (2:ℝ)^(0:ℤ) := zpow_le_zpow_right₀ (by norm_num) (by norm_num)
    simpa using this
  have b2 : (1:ℝ) ≤ (2:ℝ)^(200:ℤ) := by
    have : (2:ℝ)^(0:ℤ) ≤ (2:ℝ)^(200:ℤ) := zpow_le_zpow_right₀ (by norm_num) (by norm_num)
    simpa using this
  have b3 : (32:ℝ) ≤ (2:ℝ)^(300:ℤ) := by
    have : (2:ℝ)^(5:ℤ) ≤ (2:ℝ)^(300:ℤ) := zpow_le_zpow_right₀ (by norm_num) (by norm_num)
    refine le_trans ?_ this
    norm_num
  have I : DInput [2,2] g 1 (fun _ => 1) [0] 1 1 32 := by
    refine ⟨X, b1, b2, fun _ _ _ => b2, one_pos, fun _ _ _ => by norm_num, fun _ _ _ => by norm_num, by norm_num, by norm_num, b3, ?_, ?_⟩
    · show 640 * ((2:ℕ):ℝ)^4 * uu * 32^2 ≤ 1^2
      unfold uu; norm_num
    · unfold XR.eps; norm_num
  have hap : StartsApart [2,2] g [0] := by
    intro i hi j hj _ hadj
    simp only [List.mem_singleton] at hi hj
    subst hi; subst hj
    obtain ⟨k, h0, h1, h2, h3⟩ := hadj
    have h4 : k = 0 ∨ k = 1 := by
      have : k < 2 := h1
      omega
    rcases h4 with rfl | rfl <;> revert h2 <;> decide
  have hfr : Fresh g := ⟨fun _ => rfl, fun _ => rfl, fun _ => rfl⟩
  have h4 : ((Arith.ofNat 4 : F64 Rounding.nearest)).1 = .fin 4 := by
    show Rounding.nearest.rd (((4 : Int) : ℝ) / ((1 : Nat) : ℝ)) = _
    have e : ((4 : Int) : ℝ) / ((1 : Nat) : ℝ) = ((4:ℕ):ℝ) := by norm_num
    rw [e, Rounding.nearest.exact _ (isDouble_nat (by norm_num))]; norm_num
  have hlt : ∀ {solve : FSM.St (F64 Rounding.nearest) → Nat → FSM.St (F64 Rounding.nearest)} (S : FSM.Solver eikS solve) {n : Nat}
      {s t : FSM.St (F64 Rounding.nearest)} (h0 : s.sweeps < 2^32), Steps (FSM.Step (2^32) solve) n s t → t.sweeps < 2^32 := by
    intro solve S n s t h0 hs
    refine Steps.inv (I := fun t : FSM.St (F64 Rounding.nearest) => t.sweeps < 2^32) ?_ hs h0
    rintro a b _ ⟨_, rfl⟩
    rw [S.sweep_sweeps]; exact Nat.mod_lt _ (by norm_num)
  have hsq : Real.sqrt ((2:ℕ):ℝ) < 3/2 := by
    rw [Real.sqrt_lt' (by norm_num)]; norm_num
  have hsq0 := Real.sqrt_nonneg ((2:ℕ):ℝ)
  have hrel : relErr 2 1 32 < 1 / 10^6 := by unfold relErr; norm_num
  have hrel0 : 0 ≤ relErr 2 1 32 := by unfold relErr; norm_num
  have hfit : StepFits 2 1 32 (1/1024) := by
    refine ⟨by norm_num, ?_⟩
    have : Real.sqrt ((2:ℕ):ℝ) * (1/1024 + relErr 2 1 32 * 1) ≤ 3/2 * (1/1024 + 1/10^6) := by
      apply mul_le_mul hsq.le (by linarith) (by linarith) (by norm_num)
    refine le_trans this ?_
    norm_num
  have herr : stepErr 2 1 32 (1/1024) < 1 / 50 := by
    unfold stepErr
    have h1 : (3 + Real.sqrt ((2:ℕ):ℝ)) * relErr 2 1 32 ≤ (3 + 3/2) * (1 / 10^6) := by
      apply mul_le_mul (by linarith) hrel.le hrel0 (by norm_num)
    have h2 : 2 * ((2:ℕ):ℝ) * (1 + Real.sqrt ((2:ℕ):ℝ)) * (1/1024) / 1 = (1 + Real.sqrt ((2:ℕ):ℝ)) / 256 := by push_cast; ring
    rw [h2]
    have h3 : (1 + Real.sqrt ((2:ℕ):ℝ)) / 256 ≤ (1 + 3/2) / 256 := by
      apply div_le_div_of_nonneg_right _ (by norm_num); linarith
    have h4 : (1 + 3/2 : ℝ) / 256 + (3 + 3/2) * (1 / 10^6) < 1 / 50 := by norm_num
    linarith
  set dt : F64 Rounding.nearest := ⟨.fin (1/1024), fun r h => by
    cases h
    have : IsDouble ((2:ℝ)^(-10:ℤ)) := IsDouble.pow (by norm_num) (by norm_num)
    have e : (2:ℝ)^(-10:ℤ) = 1/1024 := by norm_num
    rwa [e] at this⟩ with hdt
  have hA : 2 * (1:ℝ) * (([2,2] : List Nat).prod : ℝ) ≤ 32 := by norm_num
  refine ⟨g, fun _ => 1, I, hfr, occ1, hA, by unfold relErr; norm_num, by unfold queueErr relErr; norm_num, by unfold stopErr relErr; norm_num, herr, ?_, ?_, ?_, ?_, ?_, ?_, ?_⟩
  · obtain ⟨n, s, _, hs, hd⟩ := C13_doubles Rounding.nearest ⟨false, .none, fun _ => Arith.zero, noGoal⟩ rfl [2,2] g [0] hin
    have he : s.heap = [] := C14_no_goal_ends_empty _ [2,2] g [0] hin (by decide) n s (hs.mono (fun _ _ => StepMin.any)) hd
    exact ⟨_, n, s, hs, .fmm rfl hap hs he⟩
  · obtain ⟨⟨n, s, hs, hd⟩, _⟩ := C23_doubles Rounding.nearest noGoal (2^32) [2,2] g [0] hin 0 _ (FSM.incs0_isDirs [2,2])
    exact ⟨n, s, hs, .fsm (by decide) (FSM.incs0_isDirs [2,2]) hs hd (hlt (FSM.solveFSM_solver _ _) (show (0:Nat) < 2^32 by norm_num) hs)⟩
  · obtain ⟨⟨n, s, hs, hd⟩, _⟩ := C26_doubles Rounding.nearest noGoal (2^32) [2,2] g [0] hin 0 _ (FSM.incs0_isDirs [2,2])
    exact ⟨n, s, hs, .lsm (by decide) (FSM.incs0_isDirs [2,2]) hs hd (hlt (FSM.solveLSM_solver _ _) (show (0:Nat) < 2^32 by norm_num) hs)⟩
  · obtain ⟨⟨n, s, hs, hd⟩, _⟩ := C27_doubles Rounding.nearest noGoal [2,2] g [0] hin Arith.one Arith.one
    exact ⟨n, s, hs, .ddqm (by decide) hs hd⟩
  · obtain ⟨h5, s, h6, h7, h8⟩ := UFMM.chain_run (FIM.chain64 Rounding.nearest Arith.zero (e := 0) rfl (le_refl _)) (UFMM.chainQ64 Rounding.nearest) (fun _ => 0) noGoal (by decide)
    refine ⟨_, _, 3, s, h6, .ufmm (K := 3) (DInput.within_cells X) (by norm_num) ⟨by norm_num, by norm_num, by norm_num, le_trans (by norm_num) b3, by norm_num, ?_⟩ hap h4 h5 h6 h7⟩
    show relErr 2 1 32 * 1 + _ < _
    unfold relErr; norm_num
  · obtain ⟨s, h1, h2, h3⟩ := FIM.chain_ends (FIM.chain64 Rounding.nearest Arith.zero (e := 0) rfl (le_refl _)) noGoal (by decide)
    exact ⟨_, 6, s, h1, .fim (e := 0) rfl (le_refl _) (by decide) (by norm_num) hap h1 h2⟩
  · obtain ⟨n, s, hs, hd⟩ := C97_GMM_ends I (le_refl _) hA hfr dt (1/1024) rfl hfit noGoal
    exact ⟨dt, n, s, hs, .gmm rfl hfit (by decide) hs hd⟩
end FMV
