import Verif.Props.Agree
import Verif.Lemmas.Approx
/-!
# C16, C28: relative accuracy

Sharper than the absolute bounds of `FMMExact` and `Agree`: the error does not grow with the number of cells.
-/
set_option linter.unusedSectionVars false
set_option linter.unusedVariables false
namespace FMV
open Spec Shape XR FMM
variable {dims : List Nat} {g : Grid XR} {h : ℝ} {v : Nat → ℝ} {pts : List Nat}

theorem conv_of_fix (X : XInput dims g h v pts) {g' : Grid XR} (I : X.SInv g')
    (hfix : ∀ i, i < dims.prod → g.occ i = false → Arith.better (solveEikonal g' i) (g'.value i) = false) :
    (∀ i ∈ pts, tv g' i ≤ 0) ∧ ∀ i, i < dims.prod → g.occ i = false → i ∉ pts → X.Conv (tv g') (2 * eps) i := by
  refine ⟨fun k hk => (I.src k hk).le, ?_⟩
  intro k hk hko _
  have := X.conv_of_not_better hk hko eps_pos.le (T := tv g') (by
    intro hb
    have h1 := hfix k hk hko
    rw [← eikS_eq_solve X.fits X.two (I.map.shape.trans X.shape) hk] at h1
    rw [(X.better_iff I.map I.good hk hko).2 hb] at h1
    cases h1)
  rw [← two_mul] at this
  exact this

/-- every final grid is converged up to twice the margin -/
theorem FinalGrid.conv (X : XInput dims g h v pts) (hfr : Fresh g) {a : Grid XR} (ha : FinalGrid dims g pts a) :
    (∀ i ∈ pts, tv a i ≤ 0) ∧ ∀ i, i < dims.prod → g.occ i = false → i ∉ pts → X.Conv (tv a) (2 * eps) i := by
  cases ha with
  | @fmm cfg n s hcfg hap hs hend =>
    have I := XInput.FInv.reach X (hap.nonAdj X) hfr hcfg hs
    have A := I.ain
    have hnn : ∀ k, s.g.state k ≠ .narrow := by
      intro k hk; have := (A.nar k hk).1; rw [hend] at this; simp at this
    have hfp : ∀ k ∈ pts, s.g.state k = .frozen := by
      intro k hk
      rcases (A.ini k hk).2 with h1 | h1
      · exact h1
      · rw [hend] at h1; simp at h1
    have hnf : ∀ k, s.g.state k ≠ .frozen → tv s.g k = ⊤ := by
      intro k hk
      cases hst : s.g.state k with
      | frozen => exact absurd hst hk
      | narrow => exact absurd hst (hnn k)
      | opn => exact A.opn k hst (fun hp => hk (hfp k hp))
    have hTf : XInput.Tf (tv s.g) s.g.state = tv s.g := by
      funext k; unfold XInput.Tf; split
      · rfl
      · next hk => exact (hnf k hk).symm
    refine ⟨fun k hk => le_of_eq (A.ini k hk).1, ?_⟩
    intro j hj ho hjp Y hY
    by_cases hjf : s.g.state j = .frozen
    · exact A.pf j hjf hjp Y (by rw [hTf]; exact hY)
    · exfalso
      obtain ⟨t, ht, _⟩ := residL_pos_lt (lt_of_lt_of_le (X.csq hj ho) hY)
      obtain ⟨k, hk, e⟩ := XInput.mem_mins ht WithTop.coe_ne_top
      have hkf : s.g.state k = .frozen := by
        by_contra hh; rw [hnf k hh] at e; exact WithTop.coe_ne_top e
      rcases A.closed k j hkf (nbrs_symm X.fits hj hk) ho hjp with h1 | h1
      · exact hjf h1
      · exact hnn j h1
  | @fsm goal m sw incs n s h1 h2 h3 h4 h5 =>
    have I := (FSM.solveFSM_solver goal eikS).sinv X ((FSM.initFSM_sameMap g pts sw incs).shape.trans X.shape) h2 (FSM.initFSM_sinv X hfr sw incs) h3
    exact conv_of_fix X I (fun i hi ho => C24_FSM_fixpoint goal m dims g pts ⟨X.fits, X.shape, X.inside⟩ X.two h1 sw incs h2 n s h3 h4 h5 i hi ho)
  | @lsm goal m sw incs n s h1 h2 h3 h4 h5 =>
    exact conv_of_fix X (LInv.run X hfr h2 h3).sinv (fun i hi ho => C26_LSM_fixpoint X hfr goal m sw h1 incs h2 n s h3 h4 h5 i hi ho)
  | @ddqm goal th ths n s h1 h2 h3 =>
    exact conv_of_fix X (DDQM.DInv.run X hfr h2).lock.sinv (fun i hi ho => C27_DDQM_fixpoint X hfr goal h1 th ths n s h2 h3 i hi ho)
  | @fim goal n s hgoal hap hs hdone =>
    have I := FIM.AInv.run X (hap.nonAdj X) hfr (le_refl (0:ℝ)) hs
    have hstop := FIM.stop_false X hgoal hs
    obtain ⟨h1, h2⟩ := hdone
    have h3 : s.before = [] := by
      rcases h2 with h2 | h2
      · rw [hstop] at h2; cases h2
      · exact h2
    have hnn : ∀ k, k < dims.prod → s.g.state k ≠ .narrow := by
      intro k hk hn
      have := I.nar k hk hn
      unfold FIM.Active at this
      rw [h1, h3] at this
      simp at this
    refine ⟨fun k hk => le_of_eq (I.src k hk).2, ?_⟩
    intro k hk ho hp
    refine FIM.Conv.mono X hk (by linarith) ?_ ?_ (I.conv k hk ho hp (hnn k hk))
    · unfold FIM.mask; rw [if_neg (hnn k hk)]
    · intro j hj
      unfold FIM.mask; rw [if_neg (hnn j (nbr_lt X.fits hk hj))]

/-- **C16, C28, relative form** (exact arithmetic): if crossing a free cell takes at least `cm`, the times computed by FMM, FSM, LSM, DDQM and FIM are
the exact times up to the factor `1 + 4·D·COMP_MARGIN/cm` (`D` dimensions), whatever the size of the grid; both are infinite in the same cells. -/
theorem C16_relative (X : XInput dims g h v pts) (hfr : Fresh g) (cm : ℝ) (hcm : 0 < cm)
    (hlo : ∀ i, i < dims.prod → g.occ i = false → cm ≤ h / v i) (a : Grid XR) (ha : FinalGrid dims g pts a) (U : Nat → WithTop ℝ)
    (hU : X.problem.IsSolution U) (i : Nat) (hi : i < dims.prod) :
    (U i = ⊤ ∧ a.value i = pinf) ∨
    ∃ e r : ℝ, U i = (e : WithTop ℝ) ∧ a.value i = fin r ∧ e ≤ r ∧ r ≤ (1 + 4 * dims.length * (100000 / 2^52) / cm) * e := by
  obtain ⟨h1, h2⟩ := ha.conv X hfr
  have h3 := X.accuracy_rel hU (δ := 2 * eps) (by linarith [eps_pos]) hcm hlo h1 h2 i hi
  have h4 := (ha.accuracy X hfr U hU i hi).1
  have e0 : (100000 : ℝ) / 2^52 = eps := by unfold XR.eps; norm_num
  rw [e0]
  have e1 : 2 * (dims.length : ℝ) * (2 * eps) / cm = 4 * dims.length * eps / cm := by ring
  rw [e1] at h3
  have hg : GoodT (a.value i) := by
    cases ha with
    | fmm k1 k2 k3 k4 => exact (C16_FMM_final X hfr k2 U hU _ k1 _ _ k3 k4 i hi).1
    | fsm k1 k2 k3 k4 k5 => exact (C18_FSM X hfr U hU _ _ _ _ k2 _ _ k3 i hi).1
    | lsm k1 k2 k3 k4 k5 => exact (C18_LSM X hfr U hU _ _ _ _ k2 _ _ k3 i hi).1
    | ddqm k1 k2 k3 => exact (C18_DDQM X hfr U hU _ _ _ _ _ k2 i hi).1
    | fim k1 k2 k3 k4 => exact (FIM.AInv.run X (k2.nonAdj X) hfr (le_refl (0:ℝ)) k3).low.good i
  unfold tv at h3
  rcases hg with hg | ⟨r, hr, hg⟩
  · left
    refine ⟨?_, hg⟩
    rw [hg] at h3
    cases hUi : U i with
    | top => rfl
    | coe e => rw [hUi, scl_coe] at h3; exact absurd (top_le_iff.1 h3) WithTop.coe_ne_top
  · right
    rw [hg] at h3 h4
    cases hUi : U i with
    | top => rw [hUi] at h4; exact absurd (top_le_iff.1 h4) WithTop.coe_ne_top
    | coe e =>
      rw [hUi] at h3 h4
      rw [scl_coe] at h3
      exact ⟨e, r, rfl, hg, WithTop.coe_le_coe.1 h4, WithTop.coe_le_coe.1 h3⟩

/-- non-vacuity: see the example of `Agree` for the final grids; here `cm = h/v = 1` on the same 3x3 grid -/
example : ∃ (g : Grid XR), XInput [3,3] g 1 (fun _ => 1) [4] ∧ Fresh g ∧ (∀ i, i < ([3,3] : List Nat).prod → g.occ i = false → (1:ℝ) ≤ 1 / 1) ∧
    ∃ a, FinalGrid [3,3] g [4] a := by
  have X : XInput [3,3] (Grid.create [3,3] (fin 1) (0,0)) 1 (fun _ => 1) [4] :=
    ⟨⟨by decide, by decide, by decide⟩, by decide, rfl, by decide, one_pos, rfl, fun _ _ _ => rfl⟩
  have hfr : Fresh (Grid.create (F := XR) [3,3] (fin 1) (0,0)) := ⟨fun _ => rfl, fun _ => rfl, fun _ => rfl⟩
  obtain ⟨⟨n, s, hs, hd⟩, _⟩ := C27_DDQM_exact X hfr noGoal (fin 1) (fin 1)
  exact ⟨_, X, hfr, fun _ _ _ => by norm_num, s.g, .ddqm (by decide) hs hd⟩

end FMV
