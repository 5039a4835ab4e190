import Verif.Lemmas.LowF64
import Verif.Spec.NotBelow
/-! C93: in doubles no solver underestimates an arrival time, in any state of any run. -/
set_option linter.unusedSectionVars false
set_option linter.unusedVariables false
namespace FMV
open Spec Shape XR FMM
variable {R : Rounding}

namespace DInput
variable {dims : List Nat} {g : Grid (F64 R)} {h : ℝ} {v : Nat → ℝ} {pts : List Nat} {cm cM A : ℝ}

theorem θ_eq (I : DInput dims g h v pts cm cM A) : I.θ / cm = roundErr dims.length cm A := by
  have hc := I.cm0
  have e1 : (1 : ℝ) / 2^51 = uu := by unfold uu; norm_num
  unfold roundErr θ e F64.eerr
  rw [e1]
  field_simp
  ring

theorem notBelow (I : DInput dims g h v pts cm cM A) {U : Nat → WithTop ℝ} {x : XR} (hx : GoodT x) {i : Nat}
    (h1 : scl I.lowF (U i) ≤ toT x) : NotBelow (roundErr dims.length cm A) (U i) x := by
  rcases hx with hx | ⟨r, h0, hx⟩
  · exact Or.inl hx
  · right
    rw [hx] at h1
    cases hU : U i with
    | top =>
      rw [hU, scl_top, top_le_iff] at h1
      exact absurd h1 WithTop.coe_ne_top
    | coe e =>
      rw [hU, scl_coe] at h1
      refine ⟨e, r, rfl, hx, h0, ?_⟩
      have h3 : I.lowF * e ≤ r := WithTop.coe_le_coe.1 h1
      unfold lowF at h3
      rwa [I.θ_eq] at h3

theorem LInv.notBelow (I : DInput dims g h v pts cm cM A) {w : ℝ} {c : Nat} {g' : Grid (F64 R)} (J : I.LInv w c g') {U : Nat → WithTop ℝ}
    (hU : I.X.problem.IsSolution U) {i : Nat} (hi : i < dims.prod) : NotBelow (roundErr dims.length cm A) (U i) (g'.value i).1 :=
  I.notBelow (J.good i) (J.low U hU i hi)

theorem TInv.notBelow (I : DInput dims g h v pts cm cM A) {w : ℝ} {g' : Grid (F64 R)} (J : I.TInv w g') {U : Nat → WithTop ℝ}
    (hU : I.X.problem.IsSolution U) {i : Nat} (hi : i < dims.prod) : NotBelow (roundErr dims.length cm A) (U i) (g'.value i).1 :=
  I.notBelow (J.good i) (J.low U hU i hi)

theorem nob (I : DInput dims g h v pts cm cM A) : DInput dims g.nob h v pts cm cM A :=
  ⟨UFMM.nobX I.X, I.h1, I.h2, I.v2, I.cm0, I.lo, I.hi, I.cA, I.cmA, I.A2, I.small, I.margin⟩
end DInput

section final
variable {dims : List Nat} {g : Grid (F64 R)} {h : ℝ} {v : Nat → ℝ} {pts : List Nat} {cm cM : ℝ}

/-- **C93** for FMM, SFMM, FMM* and SFMM*: in doubles, whatever the heuristic, the goal, the (possibly adjacent) starting points and the order in which
the queue returns cells, no state of any run contains an arrival time below the exact solution by more than the rounding error, or NaN. -/
theorem C93_FMM (I : DInput dims g h v pts cm cM (2 * cM * dims.prod)) (hcc : cm ≤ cM) (hfr : Fresh g) (U : Nat → WithTop ℝ)
    (hU : I.X.problem.IsSolution U) (cfg : Cfg (F64 R)) (n : Nat) (s : St (F64 R)) (hs : Steps (StepLib cfg) n (FMM.init cfg g [] pts) s)
    (i : Nat) (hi : i < dims.prod) : NotBelow (roundErr dims.length cm (2 * cM * dims.prod)) (U i) (s.g.value i).1 :=
  (DInput.MInv.reach I (I.wpos hcc) (I.wok hcc) (le_refl _) hfr hs).l.notBelow I hU hi

/-- **C93** for UFMM, any number of buckets and any window. -/
theorem C93_UFMM (I : DInput dims g h v pts cm cM (2 * cM * dims.prod)) (hcc : cm ≤ cM) (hfr : Fresh g) (U : Nat → WithTop ℝ)
    (hU : I.X.problem.IsSolution U) (size : Nat) (hsz : 0 < size) (inc : F64 R) (ub : F64 R → Nat) (goal : Nat) (n : Nat) (s : UFMM.St (F64 R))
    (hs : Steps (UFMM.Step goal eikS) n (UFMM.init g (UQ.create size inc ub) pts) s)
    (i : Nat) (hi : i < dims.prod) : NotBelow (roundErr dims.length cm (2 * cM * dims.prod)) (U i) (s.g.value i).1 := by
  obtain ⟨heap, _, hsim⟩ := UFMM.simulates_weak hfr.state hsz hs
  exact C93_FMM I.nob hcc ⟨hfr.value, hfr.state, hfr.hValue⟩ U hU (UFMM.fcfg goal) n _ hsim i hi

/-- **C93** for GMM, any step. -/
theorem C93_GMM (I : DInput dims g h v pts cm cM (2 * cM * dims.prod)) (hcc : cm ≤ cM) (hfr : Fresh g) (U : Nat → WithTop ℝ)
    (hU : I.X.problem.IsSolution U) (dt : F64 R) (goal n : Nat) (s : GMM.St (F64 R)) (hs : Steps (GMM.Step dt goal eikS) n (GMM.init eikS g [] pts) s)
    (i : Nat) (hi : i < dims.prod) : NotBelow (roundErr dims.length cm (2 * cM * dims.prod)) (U i) (s.g.value i).1 :=
  DInput.LInv.notBelow I (I.gmm_reach (I.wpos hcc) (I.wok hcc) (le_refl _) (by omega) hfr hs) hU hi

/-- **C93** for FSM, in every state of a run, with any goal and sweep budget. -/
theorem C93_FSM (I : DInput dims g h v pts cm cM (2 * cM * dims.prod)) (hcc : cm ≤ cM) (hfr : Fresh g) (U : Nat → WithTop ℝ)
    (hU : I.X.problem.IsSolution U) (goal m sw : Nat) (incs : List Int) (hd : FSM.IsDirs dims.length incs) (n : Nat)
    (s : FSM.St (F64 R)) (hs : Steps (FSM.Step m (FSM.solveFSM goal eikS)) n (FSM.initFSM g pts sw incs) s)
    (i : Nat) (hi : i < dims.prod) : NotBelow (roundErr dims.length cm (2 * cM * dims.prod)) (U i) (s.g.value i).1 := by
  have S := FSM.solveFSM_solver (F := F64 R) goal eikS
  have hsh0 : (FSM.initFSM g pts sw incs).g.shape = Shape.mk' dims := (FSM.initFSM_sameMap g pts sw incs).shape.trans I.X.shape
  have J : I.TInv (2 * cM) s.g := by
    refine S.run_grid hs (dims_ne I.X.fits) hsh0 hd (J := I.TInv (2 * cM)) ?_ ?_
    · exact DInput.TInv.start I (I.wpos hcc) (FSM.initFSM_sameMap _ _ _ _) (fun k => by rw [FSM.initFSM_value, hfr.value]; split <;> rfl)
    · intro t k hk ht ho
      obtain ⟨b, hT, _⟩ := S.tried t k
      exact DInput.TInv.tried I (I.wpos hcc) (I.wok hcc) (le_refl _) ht hT hk (by rw [← SameMap.occ_eq ht.map]; exact ho)
  exact J.notBelow I hU hi

/-- **C93** for LSM. -/
theorem C93_LSM (I : DInput dims g h v pts cm cM (2 * cM * dims.prod)) (hcc : cm ≤ cM) (hfr : Fresh g) (U : Nat → WithTop ℝ)
    (hU : I.X.problem.IsSolution U) (goal m sw : Nat) (incs : List Int) (hd : FSM.IsDirs dims.length incs) (n : Nat)
    (s : FSM.St (F64 R)) (hs : Steps (FSM.Step m (FSM.solveLSM goal eikS)) n (FSM.initLSM g pts sw incs) s)
    (i : Nat) (hi : i < dims.prod) : NotBelow (roundErr dims.length cm (2 * cM * dims.prod)) (U i) (s.g.value i).1 :=
  (I.lsm_run hcc hfr hd hs).t.notBelow I hU hi

/-- **C93** for DDQM, any thresholds. -/
theorem C93_DDQM (I : DInput dims g h v pts cm cM (2 * cM * dims.prod)) (hcc : cm ≤ cM) (hfr : Fresh g) (U : Nat → WithTop ℝ)
    (hU : I.X.problem.IsSolution U) (goal : Nat) (th ths : F64 R) (n : Nat) (s : DDQM.St (F64 R))
    (hs : Steps (DDQM.Step goal eikS) n (DDQM.init g pts th ths) s)
    (i : Nat) (hi : i < dims.prod) : NotBelow (roundErr dims.length cm (2 * cM * dims.prod)) (U i) (s.g.value i).1 := by
  have J : I.QKInv s := Steps.inv (I := fun s : DDQM.St (F64 R) => I.QKInv s) (fun a b J hst => J.step I hcc hst) hs (DInput.QKInv.start I hcc hfr th ths)
  exact J.lock.t.notBelow I hU hi

/-- **C93** for FIM, any threshold: FIM rewrites a time without comparing, so the bound on times (and with it the rounding error) grows with the
number `n` of iterations; `A` is any bound for which `DInput` holds. -/
theorem C93_FIM {A : ℝ} (I : DInput dims g h v pts cm cM A) (hcc : cm ≤ cM) (hfr : Fresh g) (U : Nat → WithTop ℝ)
    (hU : I.X.problem.IsSolution U) (E : F64 R) (goal n : Nat) (hA : 2 * cM * ((2 * n : Nat) + dims.prod) ≤ A) (s : FIM.St (F64 R))
    (hs : Steps (FIM.Step E goal eikS) n (FIM.init g [] pts) s)
    (i : Nat) (hi : i < dims.prod) : NotBelow (roundErr dims.length cm A) (U i) (s.g.value i).1 := by
  have w0 : 0 ≤ 2 * cM := by have := I.cm0; linarith
  have hw : ∀ i, i < dims.prod → g.occ i = false → h / v i + I.β ≤ 2 * cM := by
    intro i hi ho
    have h1 := I.hi i hi ho
    have := I.β_small
    have := I.β_pos
    linarith
  exact (I.fim_reach w0 hw hfr hA hs).2.notBelow I hU hi

end final

/-- non-vacuity: rounding to nearest, a 3 x 3 grid of doubles with unit cells and speeds and starts in *adjacent* cells (where FMM loses a start): the
hypotheses hold for all solvers (for FIM up to 1000 iterations), the error allowed is below `1e-8`, and the exact solution is not trivial -/
example : ∃ (g : Grid (F64 Rounding.nearest)), ∃ I : DInput [3,3] g 1 (fun _ => 1) [3, 4] 1 1 (2 * 1 * (([3,3] : List Nat).prod : ℝ)),
    (∃ A, ∃ _ : DInput [3,3] g 1 (fun _ => 1) [3, 4] 1 1 A, 2 * 1 * ((2 * 1000 : Nat) + (([3,3] : List Nat).prod : ℝ)) ≤ A) ∧ Fresh g ∧
    roundErr 2 1 (2 * 1 * (([3,3] : List Nat).prod : ℝ)) < 1 / 10^8 ∧ (∃ U, I.X.problem.IsSolution U) ∧
    (∀ cfg : Cfg (F64 Rounding.nearest), cfg.goal = noGoal → ∃ n s, 0 < n ∧ Steps (StepLib cfg) n (FMM.init cfg g [] [3, 4]) s) := by
  set g : Grid (F64 Rounding.nearest) := Grid.create [3,3] Arith.one (0,0) with hg
  have X : XInput [3,3] (gridX g) 1 (fun _ => 1) [3, 4] :=
    ⟨⟨by decide, by decide, by decide⟩, by decide, rfl, by decide, one_pos, rfl, fun _ _ _ => rfl⟩
  have hfr : Fresh g := ⟨fun _ => rfl, fun _ => rfl, fun _ => rfl⟩
  have hp : (([3,3] : List Nat).prod : ℝ) = 9 := by norm_num
  have b1 : (2:ℝ)^(-200:ℤ) ≤ 1 := by
    have : (2:ℝ)^(-200:ℤ) ≤ (2:ℝ)^(0:ℤ) := zpow_le_zpow_right₀ (by norm_num) (by norm_num)
    simpa using this
  have b2 : (1:ℝ) ≤ (2:ℝ)^(200:ℤ) := by
    have : (2:ℝ)^(0:ℤ) ≤ (2:ℝ)^(200:ℤ) := zpow_le_zpow_right₀ (by norm_num) (by norm_num)
    simpa using this
  have b3 : (8192:ℝ) ≤ (2:ℝ)^(300:ℤ) := by
    have : (2:ℝ)^(13:ℤ) ≤ (2:ℝ)^(300:ℤ) := zpow_le_zpow_right₀ (by norm_num) (by norm_num)
    refine le_trans ?_ this
    norm_num
  have I : ∀ A : ℝ, 1 ≤ A → A ≤ 8192 → DInput [3,3] g 1 (fun _ => 1) [3, 4] 1 1 A := by
    intro A hA1 hA2
    refine ⟨X, b1, b2, fun _ _ _ => b2, one_pos, fun _ _ _ => by norm_num, fun _ _ _ => by norm_num, hA1, hA1, le_trans hA2 b3, ?_, ?_⟩
    · have h1 : A^2 ≤ 8192^2 := by nlinarith
      have h2 := uu_pos
      have h3 : 640 * ((([3,3] : List Nat).length : ℝ))^4 * uu * A^2 ≤ 640 * ((([3,3] : List Nat).length : ℝ))^4 * uu * 8192^2 :=
        mul_le_mul_of_nonneg_left h1 (by positivity)
      refine le_trans h3 ?_
      unfold uu; norm_num
    · unfold XR.eps; norm_num
  obtain ⟨U, hU, _⟩ := C17_unique_solution X.problem X.wellPosed
  refine ⟨g, I _ (by rw [hp]; norm_num) (by rw [hp]; norm_num), ⟨8192, I _ (by norm_num) (by norm_num), by rw [hp]; norm_num⟩, hfr, ?_, ⟨U, hU⟩, ?_⟩
  · unfold roundErr; rw [hp]; norm_num
  · intro cfg _
    refine ⟨1, _, by norm_num, .tail (.refl _) ⟨?_, 4, ?_, rfl⟩⟩
    · unfold Done; rw [init_stop, init_heap]; simp
    · rw [init_heap]; simp
end FMV
