import Verif.Lemmas.GMMRun64
import Verif.Spec.StepFits
import Verif.Props.FIMAcc64
/-! C97: GMM in doubles with a small time step ends and is accurate (C61 refutes both for the default step). -/
set_option linter.unusedSectionVars false
set_option linter.unusedVariables false
namespace FMV
open Spec Shape XR FMM
variable {R : Rounding}
namespace GMM64
open GMM
open GMMA (SCv Small bz kap)
variable {dims : List Nat} {g : Grid (F64 R)} {h : ℝ} {v : Nat → ℝ} {pts : List Nat} {cm cM A : ℝ}

theorem scale_facts (I : DInput dims g h v pts cm cM A) :
    1 ≤ Real.sqrt dims.length ∧ 4 * A * uu ≤ I.β / 2 ∧ 4 * (I.θ + 2 * I.β) ≤ relErr dims.length cm A * cm ∧
    2 * dims.length * (I.θ + 2 * I.β) ≤ relErr dims.length cm A * cm := by
  have hD := I.D2
  have h1 : (1:ℝ) ≤ Real.sqrt dims.length := by
    rw [show (1:ℝ) = Real.sqrt 1 by simp]
    exact Real.sqrt_le_sqrt (by linarith)
  have h2 := I.uA_le
  have h3 := I.e_le_β
  have h4 := (div_le_iff₀ I.cm0).1 I.relErr_ge.1
  have h5 : 0 ≤ I.θ + 2 * I.β := by linarith [I.θ_nonneg, I.β_pos]
  refine ⟨h1, by linarith, ?_, h4⟩
  refine le_trans ?_ h4
  nlinarith

theorem sctx (I : DInput dims g h v pts cm cM A) (hcc : cm ≤ cM) (hA : 2 * cM * dims.prod ≤ A) {d0 : ℝ} (hf : StepFits dims.length cm A d0) :
    SCtx I (2 * cM) (d0 + 4 * A * uu) d0 := by
  obtain ⟨w0, hw⟩ := I.fimW hcc
  obtain ⟨f1, f2⟩ := hf
  obtain ⟨s1, s2, s3, _⟩ := scale_facts I
  have hc := I.cm0
  have hAp := I.Apos
  have hu := uu_pos
  have hβ := I.β_pos
  have hθ := I.θ_nonneg
  have hθs := I.θ_small
  have eu : 4 * A * uu = A / 2^49 := by unfold uu; ring
  have hd0 : 4 * A * uu < d0 := by rw [eu]; exact f1
  have hu0 : 0 ≤ 4 * A * uu := by positivity
  have hkey : Real.sqrt dims.length * (d0 + 4 * A * uu + (I.θ + I.β)) ≤ 3 / 4 * cm := by
    refine le_trans (mul_le_mul_of_nonneg_left ?_ (by linarith)) f2
    linarith
  refine ⟨⟨w0, hw, hA, ⟨by linarith, hθ, hβ, ?_⟩⟩, le_refl _, hd0, ?_⟩
  · intro i hi ho
    have h1 := I.lo i hi ho
    have : cm - I.θ ≤ h / v i - I.θ := by linarith
    refine le_trans hkey (le_trans ?_ this)
    linarith
  · have hd : d0 + 4 * A * uu ≤ 3 / 4 * cm := by
      have h2 : 1 * (d0 + 4 * A * uu + (I.θ + I.β)) ≤ Real.sqrt dims.length * (d0 + 4 * A * uu + (I.θ + I.β)) :=
        mul_le_mul_of_nonneg_right s1 (by linarith)
      linarith
    have hp : (1:ℝ) ≤ dims.prod := by
      have : 0 < dims.prod := list_prod_pos I.X.fits.pos
      exact_mod_cast this
    have h3 : (d0 + 4 * A * uu) * (dims.prod + 3) ≤ 3 / 4 * cm * (4 * dims.prod) := by
      apply mul_le_mul hd (by linarith) (by linarith) (by linarith)
    have h4 : 2 * cm * dims.prod ≤ 2 * cM * dims.prod := by
      apply mul_le_mul_of_nonneg_right _ (by linarith)
      linarith
    linarith

end GMM64

section final
open GMM GMM64
open GMMA (SCv Small bz kap)
variable {dims : List Nat} {g : Grid (F64 R)} {h : ℝ} {v : Nat → ℝ} {pts : List Nat} {cm cM A : ℝ}

/-- **C97** (termination): in doubles, with every operation rounded, GMM with a step that fits ends, for every goal and every choice of initial points. -/
theorem C97_GMM_ends (I : DInput dims g h v pts cm cM A) (hcc : cm ≤ cM) (hA : 2 * cM * dims.prod ≤ A) (hfr : Fresh g) (dt : F64 R) (d : ℝ)
    (hdt : dt.1 = .fin d) (hd : StepFits dims.length cm A d) (goal : Nat) :
    ∃ n s, Steps (GMM.Step dt goal eikS) n (GMM.init eikS g [] pts) s ∧ GMM.Done s := by
  have C := sctx I hcc hA hd
  have S := GMM64.RS.start C hfr
  obtain ⟨x, hx⟩ : ∃ x : ℝ, ∀ τ : ℝ, (GMM.init eikS g [] pts).tm.1 = .fin τ → τ = x := by
    by_cases h : ∃ τ : ℝ, (GMM.init eikS g [] pts).tm.1 = .fin τ
    · obtain ⟨τ, hτ⟩ := h
      refine ⟨τ, fun σ hσ => ?_⟩
      have := hσ.symm.trans hτ
      injection this
    · exact ⟨0, fun τ hτ => absurd ⟨τ, hτ⟩ h⟩
  have hδ : 0 < d - 4 * A * uu := by linarith [C.hδ]
  obtain ⟨K, hK⟩ := exists_nat_ge ((A + (d + 4 * A * uu) * (dims.prod + 2) - x) / (d - 4 * A * uu))
  refine GMM64.RS.ends C hdt K _ _ S rfl ?_
  intro τ hτ
  rw [hx τ hτ]
  rw [div_le_iff₀ hδ] at hK
  linarith

/-- **C97** (accuracy): in doubles, with every operation rounded, when GMM without goal and with a step that fits has ended, every time is the exact solution
`U` up to the relative error `stepErr`, `+inf` exactly where `U` is, and never NaN. -/
theorem C97_GMM_accuracy (I : DInput dims g h v pts cm cM A) (hcc : cm ≤ cM) (hA : 2 * cM * dims.prod ≤ A) (hfr : Fresh g)
    (U : Nat → WithTop ℝ) (hU : I.X.problem.IsSolution U) (dt : F64 R) (d : ℝ)
    (hdt : dt.1 = .fin d) (hd : StepFits dims.length cm A d) (goal : Nat) (hgoal : dims.prod ≤ goal) (n : Nat) (s : GMM.St (F64 R))
    (hs : Steps (GMM.Step dt goal eikS) n (GMM.init eikS g [] pts) s) (hdone : GMM.Done s)
    (i : Nat) (hi : i < dims.prod) : RelClose (stepErr dims.length cm A d) (U i) (s.g.value i).1 := by
  have C := sctx I hcc hA hd
  have S : GMM64.RS I (2 * cM) (d + 4 * A * uu) s := Steps.inv (I := fun s : GMM.St (F64 R) => GMM64.RS I (2 * cM) (d + 4 * A * uu) s)
    (fun _ _ h hst => h.step C hdt hst) hs (GMM64.RS.start C hfr)
  have hend := C49_GMM_no_goal_ends_empty _ goal _ dims g pts (input64 I) hfr.state hgoal n s hs hdone
  have hR : ∃ τ, GMM64.RI I (2 * cM) (d + 4 * A * uu) τ [] s.g := by
    rcases S.rt with ⟨_, _, h3⟩ | ⟨τ, T⟩
    · exact h3
    · have := T.ri
      rw [hdone.1] at this
      exact ⟨τ, this⟩
  obtain ⟨τ, Q⟩ := hR
  obtain ⟨s1, s2, s3, s4⟩ := scale_facts I
  have hθ := I.θ_nonneg
  have hβ := I.β_pos
  have hc := I.cm0
  have hu := uu_pos
  have hAp := I.Apos
  have hu0 : 0 ≤ 4 * A * uu := by positivity
  have hd0 : 0 < d := by linarith [C.hδ]
  set d' := d + 4 * A * uu with hd'
  set lam := d' + kap dims.length (I.θ + I.β) d' + (I.θ + I.β) with hlam
  set q := Real.sqrt dims.length with hq
  have hkap : kap dims.length (I.θ + I.β) d' = q * (d' + (I.θ + I.β)) + (I.θ + I.β) := rfl
  have hqd : 0 ≤ q * (d' + (I.θ + I.β)) := mul_nonneg (by linarith) (by linarith)
  have hnn : 0 ≤ lam := by rw [hlam, hkap]; linarith
  have hup : tf s.g i ≤ scl (1 + 2 * dims.length * lam / cm) (U i) := by
    refine I.X.accuracy_rel hU (T := tf s.g) hnn hc I.lo ?_ ?_ i hi
    · intro p hp
      rw [tf_eq, (S.ginv.zero p hp).2]; exact le_refl _
    · intro y hy ho hp
      by_cases hf : s.g.state y = .frozen
      · exact Q.rb.conv C.sm hy ho hf hp
      · have hop : s.g.state y = .opn := by
          cases e : s.g.state y with
          | opn => rfl
          | frozen => exact absurd e hf
          | narrow => have := S.ginv.nar y e; rw [hend] at this; cases this
        have hall : ∀ j ∈ (Shape.mk' dims).nbrs y, tf s.g j = ⊤ := by
          intro j hj
          have hjN := nbr_lt I.X.fits hy hj
          by_cases hjf : s.g.state j = .frozen
          · exact absurd hop (S.ginv.closed (zeroOcc64 g) j hjf y (nbrs_symm I.X.fits hy hj) ho)
          · cases hjo : g.occ j with
            | true => exact Q.rb.obs j hjN hjo hjf
            | false =>
              have hjop : s.g.state j = .opn := by
                cases e : s.g.state j with
                | opn => rfl
                | frozen => exact absurd e hjf
                | narrow => have := S.ginv.nar j e; rw [hend] at this; cases this
              by_contra hne
              obtain ⟨z, hz, _⟩ := Q.i4 j hjN hjo hjop hne
              cases hz
        intro Y hY
        exact absurd (scv_top64 I hy ho hall (⊤ : WithTop ℝ) 0 Y hY) (by simp)
  have hlow : scl I.lowF (U i) ≤ tf s.g i := Q.low.low U hU i hi
  have hgood : GoodT (s.g.value i).1 := Q.low.good i
  have eT : tf s.g i = toT (s.g.value i).1 := rfl
  rw [eT] at hup hlow
  have hUnn := (I.X.exSol hU).nonneg I.X.fits (fun i hi _ ho => I.X.cpos hi (by simpa using ho)) i hi
  obtain ⟨b1, b2⟩ := I.relErr_ge
  have hD : (0:ℝ) ≤ dims.length := Nat.cast_nonneg _
  have hrel : 0 ≤ relErr dims.length cm A := le_trans (div_nonneg hθ hc.le) b2
  have hfac : 2 * dims.length * lam / cm ≤ stepErr dims.length cm A d := by
    have h1 : lam ≤ (1 + q) * d + (3 + q) * (I.θ + 2 * I.β) := by
      have h2 : lam = (1 + q) * d + (1 + q) * (4 * A * uu) + (2 + q) * (I.θ + I.β) := by rw [hlam, hkap, hd']; ring
      have h3 : (1 + q) * (4 * A * uu) ≤ (1 + q) * (I.β / 2) := mul_le_mul_of_nonneg_left s2 (by linarith)
      have h4 : 0 ≤ q * I.β := mul_nonneg (by linarith) hβ.le
      have h5 : 0 ≤ q * I.θ := mul_nonneg (by linarith) hθ
      have e1 : (1 + q) * (I.β / 2) = I.β / 2 + q * I.β / 2 := by ring
      have e2 : (2 + q) * (I.θ + I.β) = 2 * I.θ + 2 * I.β + q * I.θ + q * I.β := by ring
      have e3 : (3 + q) * (I.θ + 2 * I.β) = 3 * I.θ + 6 * I.β + q * I.θ + 2 * (q * I.β) := by ring
      linarith
    have h2 : 2 * dims.length * lam / cm ≤ 2 * dims.length * ((1 + q) * d + (3 + q) * (I.θ + 2 * I.β)) / cm :=
      div_le_div_of_nonneg_right (mul_le_mul_of_nonneg_left h1 (by linarith)) hc.le
    have e : 2 * dims.length * ((1 + q) * d + (3 + q) * (I.θ + 2 * I.β)) / cm =
        2 * dims.length * (1 + q) * d / cm + (3 + q) * (2 * dims.length * (I.θ + 2 * I.β) / cm) := by ring
    have h3 : (3 + q) * (2 * dims.length * (I.θ + 2 * I.β) / cm) ≤ (3 + q) * relErr dims.length cm A := mul_le_mul_of_nonneg_left b1 (by linarith)
    unfold stepErr
    rw [e] at h2
    linarith
  have hlo : I.θ / cm ≤ stepErr dims.length cm A d := by
    unfold stepErr
    have h1 : 0 ≤ 2 * dims.length * (1 + q) * d / cm := div_nonneg (mul_nonneg (mul_nonneg (by linarith) (by linarith)) hd0.le) hc.le
    have h2 : 1 * relErr dims.length cm A ≤ (3 + q) * relErr dims.length cm A := mul_le_mul_of_nonneg_right (by linarith) hrel
    linarith
  cases hUi : U i with
  | top =>
    left
    refine ⟨rfl, ?_⟩
    rw [hUi, scl_top, top_le_iff] at hlow
    rcases hgood with hx | ⟨r, _, hx⟩
    · exact hx
    · rw [hx] at hlow; exact absurd hlow WithTop.coe_ne_top
  | coe p =>
    right
    rw [hUi] at hlow hup hUnn
    have hp : (0:ℝ) ≤ p := by exact_mod_cast hUnn
    rcases hgood with hx | ⟨r, hr, hx⟩
    · rw [hx, scl_coe] at hup
      exact absurd (top_le_iff.1 hup) WithTop.coe_ne_top
    · rw [hx] at hlow hup
      rw [scl_coe] at hlow hup
      have h4 : I.lowF * p ≤ r := WithTop.coe_le_coe.1 hlow
      have h5 : r ≤ (1 + 2 * dims.length * lam / cm) * p := WithTop.coe_le_coe.1 hup
      refine ⟨p, r, rfl, hx, le_trans ?_ h4, le_trans h5 (mul_le_mul_of_nonneg_right (by linarith) hp)⟩
      apply mul_le_mul_of_nonneg_right _ hp
      unfold DInput.lowF
      linarith
end final

/-- non-vacuity: rounding to nearest, a 3 x 3 grid of doubles with unit cells and speeds, starts in *adjacent* cells, step `1/1024`: the step fits, the run ends and
every time is within one percent of the exact one -/
example : ∃ (g : Grid (F64 Rounding.nearest)) (dt : F64 Rounding.nearest), dt.1 = .fin (1/1024) ∧ Fresh g ∧
    ∃ I : DInput [3,3] g 1 (fun _ => 1) [3, 4] 1 1 18, StepFits 2 1 18 (1/1024) ∧ stepErr 2 1 18 (1/1024) < 1 / 100 ∧
    ∃ U n s, I.X.problem.IsSolution U ∧ Steps (GMM.Step dt noGoal eikS) n (GMM.init eikS g [] [3, 4]) s ∧ GMM.Done s ∧
      ∀ i, i < 9 → RelClose (stepErr 2 1 18 (1/1024)) (U i) (s.g.value i).1 := by
  set g : Grid (F64 Rounding.nearest) := Grid.create [3,3] Arith.one (0,0) with hg
  have X : XInput [3,3] (gridX g) 1 (fun _ => 1) [3, 4] :=
    ⟨⟨by decide, by decide, by decide⟩, by decide, rfl, by decide, one_pos, rfl, fun _ _ _ => rfl⟩
  have hfr : Fresh g := ⟨fun _ => rfl, fun _ => rfl, fun _ => rfl⟩
  have b1 : (2:ℝ)^(-200:ℤ) ≤ 1 := by
    have : (2:ℝ)^(-200:ℤ) ≤ (2:ℝ)^(0:ℤ) := zpow_le_zpow_right₀ (by norm_num) (by norm_num)
    simpa using this
  have b2 : (1:ℝ) ≤ (2:ℝ)^(200:ℤ) := by
    have : (2:ℝ)^(0:ℤ) ≤ (2:ℝ)^(200:ℤ) := zpow_le_zpow_right₀ (by norm_num) (by norm_num)
    simpa using this
  have b3 : (32:ℝ) ≤ (2:ℝ)^(300:ℤ) := by
    have : (2:ℝ)^(5:ℤ) ≤ (2:ℝ)^(300:ℤ) := zpow_le_zpow_right₀ (by norm_num) (by norm_num)
    refine le_trans ?_ this
    norm_num
  have I : DInput [3,3] g 1 (fun _ => 1) [3, 4] 1 1 18 := by
    refine ⟨X, b1, b2, fun _ _ _ => b2, one_pos, fun _ _ _ => by norm_num, fun _ _ _ => by norm_num, by norm_num, by norm_num, ?_, ?_, ?_⟩
    · generalize (2:ℝ)^(300:ℤ) = P at b3
      linarith only [b3]
    · show 640 * ((2:ℕ):ℝ)^4 * uu * 18^2 ≤ 1^2
      unfold uu; norm_num
    · unfold XR.eps; norm_num
  have hsq : Real.sqrt ((2:ℕ):ℝ) < 3/2 := by
    rw [Real.sqrt_lt' (by norm_num)]; norm_num
  have hsq0 := Real.sqrt_nonneg ((2:ℕ):ℝ)
  have hrel : relErr 2 1 18 < 1 / 10^6 := by unfold relErr; norm_num
  have hrel0 : 0 ≤ relErr 2 1 18 := by unfold relErr; norm_num
  have hfit : StepFits 2 1 18 (1/1024) := by
    refine ⟨by norm_num, ?_⟩
    have : Real.sqrt ((2:ℕ):ℝ) * (1/1024 + relErr 2 1 18 * 1) ≤ 3/2 * (1/1024 + 1/10^6) := by
      apply mul_le_mul hsq.le (by linarith) (by linarith) (by norm_num)
    refine le_trans this ?_
    norm_num
  have herr : stepErr 2 1 18 (1/1024) < 1 / 100 := by
    unfold stepErr
    have h1 : (3 + Real.sqrt ((2:ℕ):ℝ)) * relErr 2 1 18 ≤ (3 + 3/2) * (1 / 10^6) := by
      apply mul_le_mul (by linarith) hrel.le hrel0 (by norm_num)
    have h2 : 2 * ((2:ℕ):ℝ) * (1 + Real.sqrt ((2:ℕ):ℝ)) * (1/1024) / 1 = (1 + Real.sqrt ((2:ℕ):ℝ)) / 256 := by push_cast; ring
    rw [h2]
    have h3 : (1 + Real.sqrt ((2:ℕ):ℝ)) / 256 ≤ (1 + 3/2) / 256 := by
      apply div_le_div_of_nonneg_right _ (by norm_num); linarith
    have h4 : (1 + 3/2 : ℝ) / 256 + (3 + 3/2) * (1 / 10^6) < 1 / 100 := by norm_num
    linarith
  set dt : F64 Rounding.nearest := ⟨.fin (1/1024), fun r h => by
    cases h
    have : IsDouble ((2:ℝ)^(-10:ℤ)) := IsDouble.pow (by norm_num) (by norm_num)
    have e : (2:ℝ)^(-10:ℤ) = 1/1024 := by norm_num
    rwa [e] at this⟩ with hdt
  have hA : 2 * (1:ℝ) * (([3,3] : List Nat).prod : ℝ) ≤ 18 := by norm_num
  obtain ⟨U, hU, _⟩ := C17_unique_solution X.problem X.wellPosed
  obtain ⟨n, s, hs, hd⟩ := C97_GMM_ends I (le_refl _) hA hfr dt (1/1024) rfl hfit noGoal
  refine ⟨g, dt, rfl, hfr, I, hfit, herr, U, n, s, hU, hs, hd, ?_⟩
  intro i hi
  exact C97_GMM_accuracy I (le_refl _) hA hfr U hU dt (1/1024) rfl hfit noGoal (by decide) n s hs hd i hi
end FMV
