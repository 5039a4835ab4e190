import Verif.Props.GMMSmall
/-!
# C80: the group step of GMM controls its error
-/
set_option linter.unusedSectionVars false
set_option linter.unusedVariables false
namespace FMV
open Spec Shape XR FMM GMM
variable {dims : List Nat} {g : Grid XR} {h : ℝ} {v : Nat → ℝ} {pts : List Nat}

/-- **C80**: let crossing any free cell take at least `c`, and let a relative tolerance be given that is larger than `2*n*(√n + 2)` comparison margins per `c` (`n` dimensions). Then there is a
step `d0 > 0`, depending only on `n`, `c` and the tolerance, such that GMM, run without goal with any positive step up to `d0` on any map with such crossing times and any starting
points, stops, and when it stops every time is at least the exact one and at most the exact one times `1 + tol`; the cells that cannot be reached have time infinity. -/
theorem C80_GMM_step_controls_error (nd : Nat) (c tol : ℝ) (hc : 0 < c) (htol : 2 * nd * (Real.sqrt nd + 2) * eps < tol * c) (hmar : Real.sqrt nd * eps < c) :
    ∃ d0 > 0, ∀ (dims : List Nat) (g : Grid XR) (h : ℝ) (v : Nat → ℝ) (pts : List Nat) (X : XInput dims g h v pts), dims.length = nd → Fresh g →
      (∀ i, i < dims.prod → g.occ i = false → c ≤ h / v i) → ∀ d : ℝ, 0 < d → d ≤ d0 → ∀ goal, dims.prod ≤ goal →
      (∃ n s, Steps (Step (fin d) goal eikS) n (init eikS g [] pts) s ∧ Done s) ∧
      ∀ U, X.problem.IsSolution U → ∀ n s, Steps (Step (fin d) goal eikS) n (init eikS g [] pts) s → Done s → ∀ i, i < dims.prod →
        (U i = ⊤ ∧ s.g.value i = pinf) ∨ ∃ u t : ℝ, U i = (u : WithTop ℝ) ∧ s.g.value i = fin t ∧ u ≤ t ∧ t ≤ (1 + tol) * u := by
  have hs0 := Real.sqrt_nonneg (nd : ℝ)
  have hn0 : (0:ℝ) ≤ nd := by positivity
  -- the two conditions on the step
  set A := tol * c - 2 * nd * (Real.sqrt nd + 2) * eps with hA
  set B := c - Real.sqrt nd * eps with hB
  have hA0 : 0 < A := by rw [hA]; linarith
  have hB0 : 0 < B := by rw [hB]; linarith
  set KA := 2 * nd * (1 + Real.sqrt nd) + 1 with hKA
  set KB := Real.sqrt nd + 1 with hKB
  have hKA0 : 0 < KA := by rw [hKA]; positivity
  have hKB0 : 0 < KB := by rw [hKB]; positivity
  refine ⟨min (A / KA) (B / KB), lt_min (div_pos hA0 hKA0) (div_pos hB0 hKB0), ?_⟩
  intro dims g h v pts X hlen hfr hcm d hd hd0 goal hgoal
  have hdA : d * KA ≤ A := by
    have := le_trans hd0 (min_le_left _ _)
    rwa [le_div_iff₀ hKA0] at this
  have hdB : d * KB ≤ B := by
    have := le_trans hd0 (min_le_right _ _)
    rwa [le_div_iff₀ hKB0] at this
  refine ⟨?_, ?_⟩
  · obtain ⟨n, s, h1, h2, _⟩ := C49_GMM_total X hfr goal hgoal d hd
    exact ⟨n, s, h1, h2⟩
  intro U hU n s hs hdn i hi
  have hsm : ∀ i, i < dims.prod → g.occ i = false → Real.sqrt dims.length * (d + eps) ≤ h / v i := by
    intro i hi ho
    refine le_trans ?_ (hcm i hi ho)
    rw [hlen]
    rw [hKB, hB] at hdB
    nlinarith
  obtain ⟨a1, a2⟩ := C61_small_step_partial X hfr U hU d c hd hc hcm hsm goal hgoal n s hs hdn i hi
  have hgood := (C18_GMM X hfr U hU _ goal n s hs i hi).1
  rw [hlen] at a2
  have hfac : 2 * nd * (d + Real.sqrt nd * (d + eps) + 2 * eps) / c ≤ tol := by
    rw [div_le_iff₀ hc]
    rw [hKA, hA] at hdA
    nlinarith
  cases hu : U i with
  | top =>
    rw [hu] at a1
    refine Or.inl ⟨rfl, ?_⟩
    rcases hgood with h1 | ⟨t, _, h1⟩
    · exact h1
    · rw [h1] at a1; exact absurd (top_le_iff.1 a1) WithTop.coe_ne_top
  | coe u =>
    rw [hu] at a1 a2
    rw [scl_coe] at a2
    have hu0 : 0 ≤ u := by
      have := (X.exSol hU).nonneg X.fits (fun j hj _ ho => X.cpos hj (by simpa using ho)) i hi
      rw [hu] at this
      exact_mod_cast this
    rcases hgood with h1 | ⟨t, _, h1⟩
    · rw [h1] at a2; exact absurd (top_le_iff.1 a2) WithTop.coe_ne_top
    · rw [h1] at a1 a2
      have a1 := WithTop.coe_le_coe.1 a1
      have a2 := WithTop.coe_le_coe.1 a2
      refine Or.inr ⟨u, t, rfl, h1, a1, le_trans a2 ?_⟩
      apply mul_le_mul_of_nonneg_right _ hu0
      linarith

/-- non-vacuity: two dimensions, cells that take at least 1, tolerance 1/100; the map of two speeds -/
example : (2 * (2:ℕ) * (Real.sqrt (2:ℕ) + 2) * eps < (1/100 : ℝ) * 1) ∧ Real.sqrt (2:ℕ) * eps < 1 ∧ ([2,2] : List Nat).length = 2 ∧ Fresh ex10 ∧
    XInput [2,2] ex10 1 (fun i => if i = 3 then 1/10 else 1) [0] ∧ ∀ i, i < ([2,2] : List Nat).prod → ex10.occ i = false → (1:ℝ) ≤ 1 / (if i = 3 then 1/10 else 1) := by
  have heps : eps < 1/10000 := by unfold eps; norm_num
  have hsq : Real.sqrt (2:ℕ) < 3/2 := by
    rw [Real.sqrt_lt' (by norm_num)]; norm_num
  have h0 := Real.sqrt_nonneg ((2:ℕ):ℝ)
  refine ⟨?_, ?_, rfl, ex10_fresh, ex10_input, fun i _ _ => by split <;> norm_num⟩
  · have := eps_pos
    push_cast at *
    nlinarith
  · have := mul_le_mul_of_nonneg_right hsq.le eps_pos.le
    exact lt_of_le_of_lt this (by linarith)
end FMV
