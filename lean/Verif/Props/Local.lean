import Verif.Props.Metric
import Verif.Lemmas.ApproxFMM
import Verif.Props.F64Accuracy
/-!
# C70, C71: small and far-away changes of a map
-/
set_option linter.unusedSectionVars false
set_option linter.unusedVariables false
namespace FMV
open Spec Shape XR FMM
variable {dims : List Nat} {g g' : Grid XR} {h h' : ℝ} {v v' : Nat → ℝ} {pts pts' : List Nat}

/-- the exact times are multiplied by at most `k` when the crossing times are -/
theorem exact_ratio (X : XInput dims g h v pts) (X' : XInput dims g' h' v' pts') {k : ℝ} (hk : 0 < k) (hpts : ∀ p ∈ pts, p ∈ pts')
    (hmap : ∀ i, i < dims.prod → g.occ i = false → g'.occ i = false ∧ h' / v' i ≤ k * (h / v i))
    {U V : Nat → WithTop ℝ} (hU : X.problem.IsSolution U) (hV : X'.problem.IsSolution V) (i : Nat) (hi : i < dims.prod) : V i ≤ scl k (U i) := by
  have mm : ∀ i, mins (Shape.mk' dims) (fun i => scl k (U i)) i = (mins (Shape.mk' dims) U i).map (scl k) := by
    intro i
    unfold mins
    rw [List.map_map]
    apply List.map_congr_left
    intro d hd
    show dimMin _ _ _ _ = scl k (dimMin _ _ _ _)
    unfold dimMin
    generalize (Shape.mk' dims).nbrsDim i d = l
    induction l with
    | nil => simp
    | cons x l ih =>
      simp only [List.map_cons, List.foldr_cons]
      rw [ih]
      exact (Monotone.map_min (f := scl k) (fun s t h => scl_mono hk.le h)).symm
  have rr : ∀ (r : ℝ) (ms : List (WithTop ℝ)), residL (k * r) (ms.map (scl k)) = k^2 * residL r ms := by
    intro r ms
    induction ms with
    | nil => simp
    | cons m ms ih => rw [List.map_cons, residL_cons, residL_cons, ih, posSq_scl hk]; ring
  have hU0 : ∀ i, i < dims.prod → 0 ≤ U i := (X.exSol hU).nonneg X.fits (fun j hj _ ho => X.cpos hj (by simpa using ho))
  refine ExSol.le_super X'.fits (fun j hj _ ho => X'.cpos hj (by simpa using ho)) (X'.exSol hV) (V := fun i => scl k (U i)) ?_ ?_ i hi
  · intro j hj _
    have := scl_mono hk.le (hU0 j hj)
    rwa [scl_zero] at this
  · intro j hj hs r hr
    have hs' : j ∉ pts := fun hp => hs (hpts j hp)
    obtain ⟨u1, u2, u3⟩ := X.exSol hU j hj
    have ho : g.occ j = false := by
      cases ho : g.occ j with
      | false => rfl
      | true =>
        rw [u2 hs' ho] at hr
        exact absurd hr WithTop.top_ne_coe
    obtain ⟨m1, m2⟩ := hmap j hj ho
    refine ⟨by rw [m1]; simp, ?_⟩
    rcases u3 hs' (by simp [ho]) with ⟨q, e1, e2⟩ | ⟨e1, _⟩
    · rw [e1, scl_coe] at hr
      have : r = k * q := (WithTop.coe_eq_coe.1 hr).symm
      subst this
      rw [mm, rr, e2]
      have h0 : 0 < h' / v' j := X'.cpos hj m1
      calc (h' / v' j)^2 ≤ (k * (h / v j))^2 := pow_le_pow_left₀ h0.le m2 2
        _ = _ := by ring
    · rw [e1] at hr
      exact absurd hr WithTop.top_ne_coe

/-- **C70**: if on a second map everything free stays free, no starting point is lost, and no cell takes more than `k` times as long to cross, then no arrival time grows by more than the
factor `k` (plus the comparison margin), whichever of the solvers FMM, FSM, LSM, DDQM, FIM computed the two results. -/
theorem C70_slowdown (X : XInput dims g h v pts) (X' : XInput dims g' h' v' pts') (hfr : Fresh g) (hfr' : Fresh g') (k : ℝ) (hk : 0 < k) (hpts : ∀ p ∈ pts, p ∈ pts')
    (hmap : ∀ i, i < dims.prod → g.occ i = false → g'.occ i = false ∧ h' / v' i ≤ k * (h / v i))
    (a b : Grid XR) (ha : FinalGrid dims g pts a) (hb : FinalGrid dims g' pts' b) (i : Nat) (hi : i < dims.prod) :
    a.value i = pinf ∨ ∃ r r' : ℝ, a.value i = fin r ∧ b.value i = fin r' ∧ r' ≤ k * r + dims.prod * (2 * eps) := by
  obtain ⟨U, hU, hU0, _⟩ := C17_unique_solution X.problem X.wellPosed
  obtain ⟨V, hV, hV0, _⟩ := C17_unique_solution X'.problem X'.wellPosed
  have hUV := exact_ratio X X' hk hpts hmap hU hV i hi
  rcases ha.exact X hfr hU hi with ⟨_, h1⟩ | ⟨e, r, e1, e2, e3, e4⟩
  · exact Or.inl h1
  rcases hb.exact X' hfr' hV hi with ⟨h1, _⟩ | ⟨e', r', f1, f2, f3, f4⟩
  · rw [h1, e1] at hUV; exact absurd (top_le_iff.1 hUV) WithTop.coe_ne_top
  · rw [e1, f1, scl_coe] at hUV
    have h1 := WithTop.coe_le_coe.1 hUV
    have h2 := mul_le_mul_of_nonneg_left e3 hk.le
    exact Or.inr ⟨r, r', e2, f2, by linarith⟩

/-- **C70**, small errors: if the crossing times of all free cells are known with a relative error of at most `δ`, then so are all arrival times (up to the comparison margin). -/
theorem C70_small_errors (X : XInput dims g h v pts) (X' : XInput dims g' h' v' pts) (hfr : Fresh g) (hfr' : Fresh g') (δ : ℝ) (hδ : 0 ≤ δ) (hδ1 : δ < 1)
    (hocc : ∀ i, i < dims.prod → g'.occ i = g.occ i) (hc : ∀ i, i < dims.prod → g.occ i = false → |h' / v' i - h / v i| ≤ δ * (h / v i))
    (a b : Grid XR) (ha : FinalGrid dims g pts a) (hb : FinalGrid dims g' pts b) (i : Nat) (hi : i < dims.prod) :
    (a.value i = pinf ∧ b.value i = pinf) ∨ ∃ r r' : ℝ, a.value i = fin r ∧ b.value i = fin r' ∧ |r' - r| ≤ δ * r + dims.prod * (2 * eps) := by
  have hE : 0 ≤ (dims.prod * (2 * eps) : ℝ) := by have := eps_pos; positivity
  have h1 := C70_slowdown X X' hfr hfr' (1 + δ) (by linarith) (fun _ h => h) (fun j hj ho => ⟨(hocc j hj).trans ho, by
    have := (abs_le.1 (hc j hj ho)).2; linarith⟩) a b ha hb i hi
  have h2 := C70_slowdown X' X hfr' hfr (1 / (1 - δ)) (one_div_pos.2 (by linarith)) (fun _ h => h) (fun j hj ho => by
    have ho' : g.occ j = false := by rw [← hocc j hj]; exact ho
    refine ⟨ho', ?_⟩
    have h3 := (abs_le.1 (hc j hj ho')).1
    rw [div_mul_eq_mul_div, one_mul, le_div_iff₀ (by linarith)]
    linarith) b a hb ha i hi
  rcases h1 with h1 | ⟨r, r', e1, e2, e3⟩ <;> rcases h2 with h2 | ⟨q', q, f1, f2, f3⟩
  · exact Or.inl ⟨h1, h2⟩
  · rw [h1] at f2; cases f2
  · rw [h2] at e2; cases e2
  · rw [e1] at f2; rw [e2] at f1
    obtain rfl : r = q := by injection f2
    obtain rfl : r' = q' := by injection f1
    refine Or.inr ⟨r, r', e1, e2, ?_⟩
    have hd : 0 < 1 - δ := by linarith
    have h4 := mul_le_mul_of_nonneg_left f3 hd.le
    have h5 : (1 - δ) * (1 / (1 - δ) * r' + dims.prod * (2 * eps)) = r' + (1 - δ) * (dims.prod * (2 * eps)) := by field_simp
    rw [h5] at h4
    have h6 : (1 - δ) * (dims.prod * (2 * eps)) ≤ dims.prod * (2 * eps) := mul_le_of_le_one_left hE (by linarith)
    rw [abs_le]
    constructor <;> linarith

/-- **C70** in 64-bit doubles, with the relative errors `rho`, `rho'` of C59. -/
theorem C70_slowdown_doubles {R : Rounding} {g g' : Grid (F64 R)} {cm cM cm' cM' : ℝ} (I : DInput dims g h v pts cm cM (2 * cM * dims.prod))
    (I' : DInput dims g' h' v' pts' cm' cM' (2 * cM' * dims.prod)) (hcc : cm ≤ cM) (hcc' : cm' ≤ cM') (hfr : Fresh g) (hfr' : Fresh g') (k : ℝ) (hk : 0 < k) (hpts : ∀ p ∈ pts, p ∈ pts')
    (hmap : ∀ i, i < dims.prod → g.occ i = false → g'.occ i = false ∧ h' / v' i ≤ k * (h / v i)) (ρ ρ' : ℝ) (hρ : ρ = relErr dims.length cm (2 * cM * dims.prod)) (hρ1 : ρ ≤ 1)
    (hρ' : ρ' = relErr dims.length cm' (2 * cM' * dims.prod))
    (a b : Grid (F64 R)) (ha : FinalGrid64 dims g pts a) (hb : FinalGrid64 dims g' pts' b) (i : Nat) (hi : i < dims.prod) :
    (a.value i).1 = pinf ∨ ∃ r r' : ℝ, (a.value i).1 = fin r ∧ (b.value i).1 = fin r' ∧ (1 - ρ) * r' ≤ (1 + ρ') * (k * r) := by
  obtain ⟨U, hU, hU0, _⟩ := C17_unique_solution I.X.problem I.X.wellPosed
  obtain ⟨V, hV, hV0, _⟩ := C17_unique_solution I'.X.problem I'.X.wellPosed
  have hUV := exact_ratio I.X I'.X hk hpts hmap hU hV i hi
  have hρ0 : 0 ≤ ρ' := by
    have := I'.cm0
    rw [hρ']; unfold relErr; positivity
  have A := C59_accuracy I hcc hfr a ha U hU i hi
  have B := C59_accuracy I' hcc' hfr' b hb V hV i hi
  rw [← hρ] at A
  rw [← hρ'] at B
  rcases A with ⟨_, h1⟩ | ⟨e, r, e1, e2, e3, e4⟩
  · exact Or.inl h1
  rcases B with ⟨h1, _⟩ | ⟨e', r', f1, f2, f3, f4⟩
  · rw [h1, e1] at hUV; exact absurd (top_le_iff.1 hUV) WithTop.coe_ne_top
  rw [e1, f1, scl_coe] at hUV
  have h1 := WithTop.coe_le_coe.1 hUV
  refine Or.inr ⟨r, r', e2, f2, ?_⟩
  have b1 : (1 - ρ) * r' ≤ (1 - ρ) * ((1 + ρ') * (k * e)) :=
    mul_le_mul_of_nonneg_left (le_trans f4 (mul_le_mul_of_nonneg_left h1 (by linarith))) (by linarith)
  calc (1 - ρ) * r' ≤ (1 - ρ) * ((1 + ρ') * (k * e)) := b1
    _ = (1 + ρ') * (k * ((1 - ρ) * e)) := by ring
    _ ≤ _ := mul_le_mul_of_nonneg_left (mul_le_mul_of_nonneg_left e3 hk.le) (by linarith)

/-! ### changes far away -/

/-- one half: below `θ` the times of the second map are not larger -/
theorem exact_local_le (X : XInput dims g h v pts) (X' : XInput dims g' h' v' pts') {θ : WithTop ℝ} {U V : Nat → WithTop ℝ} (hU : X.problem.IsSolution U) (hV : X'.problem.IsSolution V)
    (hag : ∀ j, j < dims.prod → U j < θ → (j ∈ pts' ↔ j ∈ pts) ∧ g'.occ j = g.occ j ∧ (g.occ j = false → h' / v' j = h / v j)) (i : Nat) (hi : i < dims.prod) (hlt : U i < θ) : V i ≤ U i := by
  have hU0 : ∀ i, i < dims.prod → 0 ≤ U i := (X.exSol hU).nonneg X.fits (fun j hj _ ho => X.cpos hj (by simpa using ho))
  classical
  have key := ExSol.le_super X'.fits (fun j hj _ ho => X'.cpos hj (by simpa using ho)) (X'.exSol hV) (V := fun j => if U j < θ then U j else ⊤) ?_ ?_ i hi
  · rwa [if_pos hlt] at key
  · intro j hj _
    split
    · exact hU0 j hj
    · exact le_top
  · intro j hj hs r hr
    have hj' : U j < θ := by
      by_contra hc
      rw [if_neg hc] at hr; exact absurd hr WithTop.top_ne_coe
    rw [if_pos hj'] at hr
    obtain ⟨g1, g2, g3⟩ := hag j hj hj'
    have hs' : j ∉ pts := fun hp => hs (g1.2 hp)
    obtain ⟨u1, u2, u3⟩ := X.exSol hU j hj
    have ho : g.occ j = false := by
      cases ho : g.occ j with
      | false => rfl
      | true =>
        rw [u2 hs' ho] at hr
        exact absurd hr WithTop.top_ne_coe
    refine ⟨by simp [g2, ho], ?_⟩
    rcases u3 hs' (by simp [ho]) with ⟨q, e1, e2⟩ | ⟨e1, _⟩
    · rw [e1] at hr
      obtain rfl : q = r := WithTop.coe_injective hr
      rw [g3 ho]
      refine le_trans (le_of_eq e2.symm) ?_
      refine XInput.residL_mins_le_of X (S := U) (S' := fun j => if U j < θ then U j else ⊤) ?_
      intro n hn hlt'
      rw [← e1] at hlt'
      rw [if_pos (lt_trans hlt' hj')]
    · rw [e1] at hr
      exact absurd hr WithTop.top_ne_coe

/-- **C71**: let two maps be the same (starting points, obstacles, crossing times) in every cell that one of the two results reaches before time `θ` plus the comparison margin.  Then every
cell that the first result reaches before `θ` has the same time in the second (up to the comparison margin), whatever the maps look like elsewhere. -/
theorem C71_far_changes (X : XInput dims g h v pts) (X' : XInput dims g' h' v' pts') (hfr : Fresh g) (hfr' : Fresh g') (a b : Grid XR) (ha : FinalGrid dims g pts a)
    (hb : FinalGrid dims g' pts' b) (θ : ℝ)
    (hag : ∀ (j : Nat) (t : ℝ), j < dims.prod → t < θ + dims.prod * (2 * eps) → (a.value j = fin t ∨ b.value j = fin t) →
      (j ∈ pts' ↔ j ∈ pts) ∧ g'.occ j = g.occ j ∧ (g.occ j = false → h' / v' j = h / v j))
    (i : Nat) (hi : i < dims.prod) (r : ℝ) (hr : a.value i = fin r) (hlt : r < θ) :
    ∃ r' : ℝ, b.value i = fin r' ∧ |r' - r| ≤ dims.prod * (2 * eps) := by
  obtain ⟨U, hU, hU0, _⟩ := C17_unique_solution X.problem X.wellPosed
  obtain ⟨V, hV, hV0, _⟩ := C17_unique_solution X'.problem X'.wellPosed
  have hE : 0 ≤ (dims.prod * (2 * eps) : ℝ) := by have := eps_pos; positivity
  have hUV : ∀ j, j < dims.prod → U j < (θ : WithTop ℝ) → V j ≤ U j := by
    refine fun j hj => exact_local_le X X' hU hV ?_ j hj
    intro k hk hk'
    rcases ha.exact X hfr hU hk with ⟨h0, _⟩ | ⟨e, t, e1, e2, e3, e4⟩
    · rw [h0] at hk'; exact absurd hk' not_top_lt
    · rw [e1] at hk'
      exact hag k t hk (by have := WithTop.coe_lt_coe.1 hk'; linarith) (Or.inl e2)
  have hVU : ∀ j, j < dims.prod → V j < (θ : WithTop ℝ) → U j ≤ V j := by
    refine fun j hj => exact_local_le X' X hV hU ?_ j hj
    intro k hk hk'
    rcases hb.exact X' hfr' hV hk with ⟨h0, _⟩ | ⟨e, t, e1, e2, e3, e4⟩
    · rw [h0] at hk'; exact absurd hk' not_top_lt
    · rw [e1] at hk'
      obtain ⟨k1, k2, k3⟩ := hag k t hk (by have := WithTop.coe_lt_coe.1 hk'; linarith) (Or.inr e2)
      exact ⟨k1.symm, k2.symm, fun ho => (k3 (by rw [← k2]; exact ho)).symm⟩
  rcases ha.exact X hfr hU hi with ⟨_, h0⟩ | ⟨e, t, e1, e2, e3, e4⟩
  · rw [hr] at h0; cases h0
  rw [hr] at e2
  obtain rfl : r = t := by injection e2
  have hUi : U i < (θ : WithTop ℝ) := by rw [e1]; exact WithTop.coe_lt_coe.2 (by linarith)
  have h1 := hUV i hi hUi
  have h2 := hVU i hi (lt_of_le_of_lt h1 hUi)
  have heq : V i = U i := le_antisymm h1 h2
  rcases hb.exact X' hfr' hV hi with ⟨h0, _⟩ | ⟨e', r', f1, f2, f3, f4⟩
  · rw [heq, e1] at h0; exact absurd h0 WithTop.coe_ne_top
  rw [heq, e1] at f1
  obtain rfl : e = e' := WithTop.coe_injective f1
  refine ⟨r', f2, ?_⟩
  rw [abs_le]; constructor <;> linarith

/-- **C71** in 64-bit doubles, with the relative errors of C59. -/
theorem C71_far_changes_doubles {R : Rounding} {g g' : Grid (F64 R)} {cm cM cm' cM' : ℝ} (I : DInput dims g h v pts cm cM (2 * cM * dims.prod))
    (I' : DInput dims g' h' v' pts' cm' cM' (2 * cM' * dims.prod)) (hcc : cm ≤ cM) (hcc' : cm' ≤ cM') (hfr : Fresh g) (hfr' : Fresh g') (ρ ρ' : ℝ)
    (hρ : ρ = relErr dims.length cm (2 * cM * dims.prod)) (hρ1 : ρ < 1) (hρ' : ρ' = relErr dims.length cm' (2 * cM' * dims.prod))
    (a b : Grid (F64 R)) (ha : FinalGrid64 dims g pts a) (hb : FinalGrid64 dims g' pts' b) (θ : ℝ)
    (hag : ∀ (j : Nat) (t : ℝ), j < dims.prod → (((a.value j).1 = fin t ∧ t ≤ (1 + ρ) * θ) ∨ ((b.value j).1 = fin t ∧ t ≤ (1 + ρ') * θ)) →
      (j ∈ pts' ↔ j ∈ pts) ∧ g'.occ j = g.occ j ∧ (g.occ j = false → h' / v' j = h / v j))
    (i : Nat) (hi : i < dims.prod) (r : ℝ) (hr : (a.value i).1 = fin r) (hlt : r < (1 - ρ) * θ) :
    ∃ r' e : ℝ, (b.value i).1 = fin r' ∧ |r - e| ≤ ρ * e ∧ |r' - e| ≤ ρ' * e := by
  obtain ⟨U, hU, hU0, _⟩ := C17_unique_solution I.X.problem I.X.wellPosed
  obtain ⟨V, hV, hV0, _⟩ := C17_unique_solution I'.X.problem I'.X.wellPosed
  have hρ0 : 0 ≤ ρ := by
    have := I.cm0
    rw [hρ]; unfold relErr; positivity
  have hρ0' : 0 ≤ ρ' := by
    have := I'.cm0
    rw [hρ']; unfold relErr; positivity
  have A := fun i hi => C59_accuracy I hcc hfr a ha U hU i hi
  have B := fun i hi => C59_accuracy I' hcc' hfr' b hb V hV i hi
  rw [← hρ] at A
  rw [← hρ'] at B
  have hUV : ∀ j, j < dims.prod → U j < (θ : WithTop ℝ) → V j ≤ U j := by
    refine fun j hj => exact_local_le I.X I'.X hU hV ?_ j hj
    intro k hk hk'
    rcases A k hk with ⟨h0, _⟩ | ⟨e, t, e1, e2, e3, e4⟩
    · rw [h0] at hk'; exact absurd hk' not_top_lt
    · rw [e1] at hk'
      have h1 := WithTop.coe_lt_coe.1 hk'
      exact hag k t hk (Or.inl ⟨e2, le_trans e4 (mul_le_mul_of_nonneg_left h1.le (by linarith))⟩)
  have hVU : ∀ j, j < dims.prod → V j < (θ : WithTop ℝ) → U j ≤ V j := by
    refine fun j hj => exact_local_le I'.X I.X hV hU ?_ j hj
    intro k hk hk'
    rcases B k hk with ⟨h0, _⟩ | ⟨e, t, e1, e2, e3, e4⟩
    · rw [h0] at hk'; exact absurd hk' not_top_lt
    · rw [e1] at hk'
      have h1 := WithTop.coe_lt_coe.1 hk'
      obtain ⟨k1, k2, k3⟩ := hag k t hk (Or.inr ⟨e2, le_trans e4 (mul_le_mul_of_nonneg_left h1.le (by linarith))⟩)
      exact ⟨k1.symm, k2.symm, fun ho => (k3 (by rw [← k2]; exact ho)).symm⟩
  rcases A i hi with ⟨_, h0⟩ | ⟨e, t, e1, e2, e3, e4⟩
  · rw [hr] at h0; cases h0
  rw [hr] at e2
  obtain rfl : r = t := by injection e2
  have hUi : U i < (θ : WithTop ℝ) := by
    rw [e1]
    refine WithTop.coe_lt_coe.2 ?_
    have : (1 - ρ) * e < (1 - ρ) * θ := lt_of_le_of_lt e3 hlt
    exact lt_of_mul_lt_mul_left this (by linarith)
  have h1 := hUV i hi hUi
  have h2 := hVU i hi (lt_of_le_of_lt h1 hUi)
  have heq : V i = U i := le_antisymm h1 h2
  rcases B i hi with ⟨h0, _⟩ | ⟨e', r', f1, f2, f3, f4⟩
  · rw [heq, e1] at h0; exact absurd h0 WithTop.coe_ne_top
  rw [heq, e1] at f1
  obtain rfl : e = e' := WithTop.coe_injective f1
  refine ⟨r', e, f2, ?_, ?_⟩ <;> rw [abs_le] <;> constructor <;> linarith

/-- the empty 3 x 3 map, and the same with an obstacle in the last corner -/
noncomputable def exFar (b : Bool) : Grid XR := if b then (Grid.create [3,3] (fin 1) (0,0)).setVelocity 8 (fin 0) else Grid.create [3,3] (fin 1) (0,0)

/-- non-vacuity of C70 and C71: the two maps differ in the last corner only, which no result reaches before time 2 -/
example : XInput [3,3] (exFar false) 1 (fun _ => 1) [0] ∧ XInput [3,3] (exFar true) 1 (fun _ => 1) [0] ∧ Fresh (exFar false) ∧ Fresh (exFar true) ∧
    (exFar true).occ 8 = true ∧ (∀ i, i < 9 → (exFar true).occ i = false → (exFar false).occ i = false ∧ (1:ℝ) / 1 ≤ 1 * (1 / 1)) ∧
    ∃ a b, FinalGrid [3,3] (exFar false) [0] a ∧ FinalGrid [3,3] (exFar true) [0] b ∧
      (∀ (j : Nat) (t : ℝ), j < ([3,3] : List Nat).prod → t < 1 + (([3,3] : List Nat).prod : ℝ) * (2 * eps) → (a.value j = fin t ∨ b.value j = fin t) →
        (j ∈ [0] ↔ j ∈ [0]) ∧ (exFar true).occ j = (exFar false).occ j ∧ ((exFar false).occ j = false → (1:ℝ) / 1 = 1 / 1)) ∧
      ∃ r : ℝ, a.value 0 = fin r ∧ r < 1 := by
  have hm : ¬ ((1:ℝ) < eps) := by unfold eps; norm_num
  have hcell : ∀ i, (exFar true).cells i = if i = 8 then { (exFar false).cells i with occupancy := fin 0 } else (exFar false).cells i := by
    intro i; unfold exFar Grid.setVelocity Grid.modify; simp
  have X : XInput [3,3] (exFar false) 1 (fun _ => 1) [0] :=
    ⟨⟨by decide, by decide, by decide⟩, by decide, rfl, by decide, one_pos, rfl, fun _ _ _ => rfl⟩
  have hocc : ∀ j, j ≠ 8 → (exFar true).occ j = (exFar false).occ j := by
    intro j hj
    unfold Grid.occ; rw [hcell, if_neg hj]
  have h8 : (exFar true).occ 8 = true := by
    unfold Grid.occ; rw [hcell, if_pos rfl]
    show decide ((0:ℝ) < eps) = true
    exact decide_eq_true eps_pos
  have hfree : ∀ i, (exFar false).occ i = false := fun i => by
    show decide ((1:ℝ) < eps) = false
    exact decide_eq_false hm
  have hfr : Fresh (exFar false) := ⟨fun _ => rfl, fun _ => rfl, fun _ => rfl⟩
  have hfr' : Fresh (exFar true) := by
    refine ⟨?_, ?_, ?_⟩
    · intro i; unfold Grid.value; rw [hcell]; split <;> rfl
    · intro i; unfold Grid.state; rw [hcell]; split <;> rfl
    · intro i; rw [hcell]; split <;> rfl
  have X' : XInput [3,3] (exFar true) 1 (fun _ => 1) [0] := by
    refine ⟨⟨by decide, by decide, by decide⟩, by decide, rfl, by decide, one_pos, rfl, fun i hi ho => ?_⟩
    have : i ≠ 8 := by rintro rfl; rw [h8] at ho; cases ho
    unfold Grid.vel; rw [hcell, if_neg this]; rfl
  obtain ⟨⟨n, s, hs, hd⟩, _⟩ := C27_DDQM_exact X hfr noGoal (fin 1) (fin 1)
  obtain ⟨⟨n', s', hs', hd'⟩, _⟩ := C27_DDQM_exact X' hfr' noGoal (fin 1) (fin 1)
  have ha : FinalGrid [3,3] (exFar false) [0] s.g := .ddqm (by decide) hs hd
  have hb : FinalGrid [3,3] (exFar true) [0] s'.g := .ddqm (by decide) hs' hd'
  refine ⟨X, X', hfr, hfr', h8, fun i _ _ => ⟨hfree i, by norm_num⟩, s.g, s'.g, ha, hb, ?_, ?_⟩
  · intro j t hj ht hjt
    refine ⟨Iff.rfl, ?_, fun _ => rfl⟩
    by_cases hj8 : j = 8
    · exfalso
      subst hj8
      rcases hjt with hjt | hjt
      · have e8 : (Shape.mk' [3,3]).idx2coord 8 = [2,2] := by decide
        have e0 : (Shape.mk' [3,3]).idx2coord 0 = [0,0] := by decide
        have h2 : (2:ℝ) ≤ euclid ((Shape.mk' [3,3]).idx2coord 8) ((Shape.mk' [3,3]).idx2coord 0) := by
          rw [e8, e0]
          unfold euclid
          rw [show (List.zipWith (fun (x y : Nat) => ((x : ℝ) - (y : ℝ)) ^ 2) [2,2] [0,0]).sum = 8 from by norm_num]
          exact Real.le_sqrt_of_sq_le (by norm_num)
        rcases C66_lower_partial X hfr 1 one_pos (fun _ _ _ => le_refl _) s.g ha 8 hj with h1 | ⟨t', h1, h3⟩
        · rw [hjt] at h1; cases h1
        · rw [hjt] at h1
          obtain rfl : t = t' := by injection h1
          rw [one_mul, div_one] at h3
          have he : (([3,3] : List Nat).prod : ℝ) * (2 * eps) < 1 := by unfold eps; norm_num
          linarith
      · have := C11_DDQM _ _ _ _ _ _ _ _ hs' 8 h8 (by decide)
        rw [hjt, hfr'.value] at this; cases this
    · exact hocc j hj8
  · obtain ⟨U, hU, _⟩ := C17_unique_solution X.problem X.wellPosed
    rcases ha.exact X hfr hU (i := 0) (by decide) with ⟨h0, _⟩ | ⟨e, r, e1, e2, e3, e4⟩
    · rw [((X.exSol hU) 0 (by decide)).1 (by simp)] at h0; exact absurd h0 (by simp)
    · rw [((X.exSol hU) 0 (by decide)).1 (by simp)] at e1
      have : e = 0 := by exact_mod_cast e1.symm
      refine ⟨r, e2, ?_⟩
      have he : (([3,3] : List Nat).prod : ℝ) * (2 * eps) < 1 := by unfold eps; norm_num
      linarith

end FMV
