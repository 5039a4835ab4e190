import Verif.Spec.Box
import Verif.Props.Triangle
/-!
# C86: arrival times along clear lines
-/
set_option linter.unusedSectionVars false
set_option linter.unusedVariables false
namespace FMV
open Spec Shape XR FMM
variable {dims : List Nat} {g : Grid XR} {h : ℝ} {v : Nat → ℝ} {pts : List Nat}

theorem coord_getD (hf : Fits dims (2^31+1)) {i : Nat} (hi : i < dims.prod) (k : Nat) :
    ((Shape.mk' dims).idx2coord i).getD k 0 = if k < dims.length then digit dims i k else 0 := by
  rw [idx2coord_eq (hf.mono (by norm_num)) hi]
  split
  · next hk => simp [List.getD_eq_getElem?_getD, hk]
  · next hk => simp [List.getD_eq_getElem?_getD, hk]

theorem between_iff (hf : Fits dims (2^31+1)) {p q j : Nat} (hp : p < dims.prod) (hq : q < dims.prod) (hj : j < dims.prod) :
    Between ((Shape.mk' dims).idx2coord p) ((Shape.mk' dims).idx2coord q) ((Shape.mk' dims).idx2coord j) ↔
    ∀ k, k < dims.length → min (digit dims p k) (digit dims q k) ≤ digit dims j k ∧ digit dims j k ≤ max (digit dims p k) (digit dims q k) := by
  unfold Between
  refine forall_congr' fun k => ?_
  rw [coord_getD hf hp, coord_getD hf hq, coord_getD hf hj]
  by_cases hk : k < dims.length
  · simp [hk]
  · simp [hk]

/-- the exact solution from several cells is below the barrier around one of them at the other end of a box that is clear except for starting points -/
theorem exact_le_box_of {c : Nat → ℝ} {src obs : Nat → Prop} {U : Nat → WithTop ℝ} (hf : Fits dims (2^31+1)) (hc : ∀ i, i < dims.prod → ¬ obs i → 0 < c i) {p q : Nat} {τ : ℝ}
    (hτ : 0 < τ) (hp : p < dims.prod) (hq : q < dims.prod) (hU : ExSol dims c src obs U) (hsp : src p)
    (hbox : ∀ j, j < dims.prod → ¬ src j → (∀ k, k < dims.length → min (digit dims p k) (digit dims q k) ≤ digit dims j k ∧ digit dims j k ≤ max (digit dims p k) (digit dims q k)) →
      ¬ obs j ∧ c j ≤ τ) :
    U q ≤ ((τ * bar dims.length (sqD dims q p) : ℝ) : WithTop ℝ) := by
  classical
  let B : Nat → Prop := fun j => ∀ k, k < dims.length → min (digit dims p k) (digit dims q k) ≤ digit dims j k ∧ digit dims j k ≤ max (digit dims p k) (digit dims q k)
  have hbar : ∀ j, 0 ≤ bar dims.length (sqD dims j p) := by
    intro j
    unfold bar
    have h1 := Real.sqrt_nonneg (sqD dims j p)
    have := Real.log_nonneg (show 1 ≤ 1 + Real.sqrt (sqD dims j p) by linarith)
    positivity
  have key := ExSol.le_super hf (V := fun j => if B j then ((τ * bar dims.length (sqD dims j p) : ℝ) : WithTop ℝ) else ⊤) (fun j hj _ ho => hc j hj ho) hU
    (fun j hj hs => ?_) (fun j hj hs r hr => ?_) q hq
  · have hBq : B q := fun k _ => ⟨min_le_right _ _, le_max_right _ _⟩
    simpa [hBq] using key
  · show (0 : WithTop ℝ) ≤ if B j then _ else _
    split
    · have h2 : (0:ℝ) ≤ τ * bar dims.length (sqD dims j p) := mul_nonneg hτ.le (hbar j)
      exact_mod_cast h2
    · exact le_top
  · by_cases hB : B j
    swap
    · simp [hB] at hr
    obtain ⟨b1, b2⟩ := hbox j hj hs hB
    refine ⟨b1, ?_⟩
    have hr' : τ * bar dims.length (sqD dims j p) = r := by
      simp only [hB, if_true] at hr
      exact WithTop.coe_injective hr
    rw [← hr']
    refine le_trans (pow_le_pow_left₀ (hc j hj b1).le b2 2) ?_
    refine bar_super_of hf hτ hj hp (fun e => hs (by rw [e]; exact hsp)) (fun k m hk hm hd => ?_)
    have hBm : B m := by
      obtain ⟨d1, d2⟩ := nbrsDim_digits hf hj hk hm
      intro k' hk'
      by_cases hkk : k' = k
      · subst hkk
        obtain ⟨b3, b4⟩ := hB k' hk'
        -- one step towards p
        have hd' : (digit dims m k' : ℤ) - digit dims p k' = 0 ∨ True := Or.inr trivial
        unfold dk at hd
        rcases le_total (digit dims p k') (digit dims j k') with hle | hle
        · -- j is above p, so m is below j
          have hle' : (digit dims p k' : ℝ) ≤ digit dims j k' := by exact_mod_cast hle
          rw [abs_of_nonneg (show (0:ℝ) ≤ (digit dims j k' : ℝ) - digit dims p k' by linarith)] at hd
          rcases d1 with d1 | d1
          · exfalso
            have e : (digit dims m k' : ℝ) = digit dims j k' + 1 := by rw [← d1]; push_cast; ring
            have := le_abs_self ((digit dims m k' : ℝ) - digit dims p k')
            rw [e] at this hd; linarith
          · have : digit dims p k' ≤ digit dims m k' := by
              have e : (digit dims j k' : ℝ) = digit dims m k' + 1 := by rw [← d1]; push_cast; ring
              have h0 := abs_nonneg ((digit dims m k' : ℝ) - digit dims p k')
              rw [e] at hd
              have : (digit dims p k' : ℝ) ≤ digit dims m k' := by linarith
              exact_mod_cast this
            exact ⟨le_trans (min_le_left _ _) this, by omega⟩
        · have hle' : (digit dims j k' : ℝ) ≤ digit dims p k' := by exact_mod_cast hle
          rw [abs_of_nonpos (show (digit dims j k' : ℝ) - digit dims p k' ≤ 0 by linarith)] at hd
          rcases d1 with d1 | d1
          · have : digit dims m k' ≤ digit dims p k' := by
              have e : (digit dims m k' : ℝ) = digit dims j k' + 1 := by rw [← d1]; push_cast; ring
              have h0 := abs_nonneg ((digit dims m k' : ℝ) - digit dims p k')
              rw [e] at hd h0
              have : (digit dims m k' : ℝ) ≤ digit dims p k' := by rw [e]; linarith
              exact_mod_cast this
            exact ⟨by omega, le_trans this (le_max_left _ _)⟩
          · exfalso
            have e : (digit dims j k' : ℝ) = digit dims m k' + 1 := by rw [← d1]; push_cast; ring
            have := neg_le_abs ((digit dims m k' : ℝ) - digit dims p k')
            rw [e] at hd; linarith
      · rw [← d2 k' hk' hkk]; exact hB k' hk'
    show (if B m then _ else _) ≤ _
    rw [if_pos hBm]

/-- the exact solution from one cell is below the barrier at the other end of a clear box -/
theorem exact_le_box {c : Nat → ℝ} {obs : Nat → Prop} {U : Nat → WithTop ℝ} (hf : Fits dims (2^31+1)) (hc : ∀ i, i < dims.prod → ¬ obs i → 0 < c i) {p q : Nat} {τ : ℝ}
    (hτ : 0 < τ) (hp : p < dims.prod) (hq : q < dims.prod) (hU : ExSol dims c (fun i => i = p) obs U)
    (hbox : ∀ j, j < dims.prod → (∀ k, k < dims.length → min (digit dims p k) (digit dims q k) ≤ digit dims j k ∧ digit dims j k ≤ max (digit dims p k) (digit dims q k)) →
      ¬ obs j ∧ c j ≤ τ) :
    U q ≤ ((τ * bar dims.length (sqD dims q p) : ℝ) : WithTop ℝ) :=
  exact_le_box_of hf hc hτ hp hq hU rfl (fun j hj _ hB => hbox j hj hB)

/-- the exact solution along a clear line -/
theorem exact_le_line (X : XInput dims g h v pts) {U : Nat → WithTop ℝ} (hU : X.problem.IsSolution U) {τ : ℝ} {p i : Nat} {b : ℝ}
    (hp : p < dims.prod) (hl : ClearLine dims g h v τ p i b) : i < dims.prod ∧ U i ≤ U p + ((τ * b : ℝ) : WithTop ℝ) := by
  induction hl with
  | nil => exact ⟨hp, by simp⟩
  | @snoc q i b hpq hi hbox ih =>
    obtain ⟨hq, ih⟩ := ih
    refine ⟨hi, ?_⟩
    have X' : XInput dims g h v [q] := X.starts (fun p hp => by rw [List.mem_singleton] at hp; rw [hp]; exact hq)
    obtain ⟨V, hV, _⟩ := C17_unique_solution X'.problem X'.wellPosed
    have EV : ExSol dims (fun i => h / v i) (fun i => i = q) (fun i => g.occ i = true) V := by
      have := X'.exSol hV
      simpa [List.mem_singleton] using this
    have tri := ExSol.triangle X.fits X.cpos' (X.exSol hU) EV i hi
    have hqq := hbox q hq ((between_iff X.fits hq hi hq).2 (fun k _ => ⟨min_le_left _ _, le_max_left _ _⟩))
    have hτ : 0 < τ := lt_of_lt_of_le (X.cpos hq hqq.1) hqq.2
    have hb := exact_le_box X.fits X.cpos' hτ hq hi EV (fun j hj hB => by
      have := hbox j hj ((between_iff X.fits hq hi hj).2 hB)
      exact ⟨by simp [this.1], this.2⟩)
    refine le_trans tri (le_trans (add_le_add ih hb) ?_)
    rw [euclid_eq X.fits hi hq, add_assoc, ← WithTop.coe_add]
    refine add_le_add le_rfl (le_of_eq ?_)
    congr 1
    show τ * b + τ * (Real.sqrt (sqD dims i q) + (1 + 2 * Real.sqrt dims.length) * Real.log (1 + Real.sqrt (sqD dims i q))) =
      τ * (b + (Real.sqrt (sqD dims i q) + (1 + 2 * Real.sqrt dims.length) * Real.log (1 + Real.sqrt (sqD dims i q))))
    ring

/-- **C86**, clear lines: whatever the map, the result of FMM, FSM, LSM, DDQM or FIM at the end of a polygonal line that begins at a starting point, and each piece of which is the diagonal
of a box of free cells crossed in time at most `τ` each, is at most `τ` times the length of the line in cells, plus `(1 + 2*sqrt D) * τ * ln(1 + length)` for every piece (plus the margin). -/
theorem C86_clear_line (X : XInput dims g h v pts) (hfr : Fresh g) (a : Grid XR) (ha : FinalGrid dims g pts a) (p : Nat) (hp : p ∈ pts) (τ : ℝ) (i : Nat) (b : ℝ)
    (hl : ClearLine dims g h v τ p i b) : ∃ t : ℝ, a.value i = fin t ∧ t ≤ τ * b + dims.prod * (2 * eps) := by
  obtain ⟨U, hU, _⟩ := C17_unique_solution X.problem X.wellPosed
  obtain ⟨hi, hle⟩ := exact_le_line X hU (X.inside p hp) hl
  have h0 : U p = 0 := (X.exSol hU p (X.inside p hp)).1 hp
  rw [h0, zero_add] at hle
  rcases ha.exact X hfr hU hi with ⟨h0, _⟩ | ⟨e, t, e1, e2, e3, e4⟩
  · rw [h0] at hle; exact absurd (top_le_iff.1 hle) WithTop.coe_ne_top
  · rw [e1] at hle
    have := WithTop.coe_le_coe.1 hle
    exact ⟨t, e2, by linarith⟩

/-- **C86**, cells in sight: one starting point, top speed `v0`, any map.  If all cells of the box between the start and a cell are free and have speed `v0`, the arrival time of the cell is
the straight-line time up to a logarithmic number of cells, whatever the rest of the map is. -/
theorem C86_in_sight {p : Nat} (X : XInput dims g h v [p]) (hfr : Fresh g) (v0 : ℝ) (hv0 : 0 < v0) (htop : ∀ i, i < dims.prod → g.occ i = false → v i ≤ v0)
    (a : Grid XR) (ha : FinalGrid dims g [p] a) (i : Nat) (hi : i < dims.prod)
    (hsight : ∀ j, j < dims.prod → Between ((Shape.mk' dims).idx2coord p) ((Shape.mk' dims).idx2coord i) ((Shape.mk' dims).idx2coord j) → g.occ j = false ∧ v j = v0)
    (dist : ℝ) (hdist : dist = h * euclid ((Shape.mk' dims).idx2coord i) ((Shape.mk' dims).idx2coord p)) :
    ∃ t : ℝ, a.value i = fin t ∧ dist / v0 ≤ t ∧
      t ≤ dist / v0 + (1 + 2 * Real.sqrt dims.length) * (h / v0) * Real.log (1 + dist / h) + dims.prod * (2 * eps) := by
  have hl : ClearLine dims g h v (h / v0) p i _ := .snoc (.nil p) hi (fun j hj hB => ⟨(hsight j hj hB).1, by rw [(hsight j hj hB).2]⟩)
  obtain ⟨t, t1, t2⟩ := C86_clear_line X hfr a ha p (by simp) (h / v0) i _ hl
  refine ⟨t, t1, ?_, ?_⟩
  · rcases C66_lower_partial X hfr v0 hv0 htop a ha i hi with h1 | ⟨t', h1, h2⟩
    · rw [h1] at t1; cases t1
    · rw [h1] at t1; cases t1
      rw [hdist]; exact h2
  · have hh := X.hpos
    have ed : dist / h = euclid ((Shape.mk' dims).idx2coord i) ((Shape.mk' dims).idx2coord p) := by rw [hdist]; field_simp
    have : dist / v0 = h / v0 * euclid ((Shape.mk' dims).idx2coord i) ((Shape.mk' dims).idx2coord p) := by rw [hdist]; ring
    rw [ed, this]
    unfold pieceBound at t2
    have e5 : h / v0 * (0 + (euclid ((Shape.mk' dims).idx2coord i) ((Shape.mk' dims).idx2coord p) +
      (1 + 2 * Real.sqrt dims.length) * Real.log (1 + euclid ((Shape.mk' dims).idx2coord i) ((Shape.mk' dims).idx2coord p)))) =
      h / v0 * euclid ((Shape.mk' dims).idx2coord i) ((Shape.mk' dims).idx2coord p) + (1 + 2 * Real.sqrt dims.length) * (h / v0) *
        Real.log (1 + euclid ((Shape.mk' dims).idx2coord i) ((Shape.mk' dims).idx2coord p)) := by ring
    linarith

/-- **C86** in 64-bit floating point, with rounding, for FMM, FSM, LSM and DDQM; `relErr` is the relative error of C59. -/
theorem C86_clear_line_doubles {R : Rounding} {g : Grid (F64 R)} {cm cM : ℝ} (I : DInput dims g h v pts cm cM (2 * cM * dims.prod)) (hcc : cm ≤ cM) (hfr : Fresh g)
    (a : Grid (F64 R)) (ha : FinalGrid64 dims g pts a) (p : Nat) (hp : p ∈ pts) (τ : ℝ) (i : Nat) (b : ℝ) (hl : ClearLine dims g h v τ p i b) :
    ∃ t : ℝ, (a.value i).1 = fin t ∧ t ≤ (1 + relErr dims.length cm (2 * cM * dims.prod)) * (τ * b) := by
  have X := I.X
  have hl' : ClearLine dims (gridX g) h v τ p i b := by
    induction hl with
    | nil => exact .nil _
    | snoc _ hi hb ih => exact .snoc ih hi hb
  obtain ⟨U, hU, _⟩ := C17_unique_solution X.problem X.wellPosed
  obtain ⟨hi, hle⟩ := exact_le_line X hU (X.inside p hp) hl'
  have h0 : U p = 0 := (X.exSol hU p (X.inside p hp)).1 hp
  rw [h0, zero_add] at hle
  have hρ0 : 0 ≤ relErr dims.length cm (2 * cM * dims.prod) := by
    unfold relErr
    have := I.cm0
    positivity
  rcases C59_accuracy I hcc hfr a ha U hU i hi with ⟨h0, _⟩ | ⟨e, t, e1, e2, e3, e4⟩
  · rw [h0] at hle; exact absurd (top_le_iff.1 hle) WithTop.coe_ne_top
  · rw [e1] at hle
    have := WithTop.coe_le_coe.1 hle
    exact ⟨t, e2, le_trans e4 (mul_le_mul_of_nonneg_left this (by linarith))⟩

/-- non-vacuity: a 3x3 map with an obstacle in the middle; the line from corner 0 along the border to corner 8 is clear, and there are results -/
example : ∃ (g : Grid XR) (b : ℝ), XInput [3,3] g 1 (fun _ => 1) [0] ∧ Fresh g ∧ g.occ 4 = true ∧ ClearLine [3,3] g 1 (fun _ => 1) 1 0 8 b ∧
    ∃ a, FinalGrid [3,3] g [0] a := by
  let g0 : Grid XR := { Grid.create (F := XR) [3,3] (fin 1) (0,0) with
    cells := fun i => if i = 4 then { (Grid.create (F := XR) [3,3] (fin 1) (0,0)).cells i with occupancy := fin 0 } else (Grid.create (F := XR) [3,3] (fin 1) (0,0)).cells i }
  have hocc : ∀ i, g0.occ i = decide (i = 4) := by
    intro i
    by_cases h : i = 4
    · subst h
      have e : 0 < eps := by unfold XR.eps; norm_num
      rw [show decide ((4:Nat) = 4) = true from rfl]
      show decide ((0:ℝ) < eps) = true; exact decide_eq_true e
    · have e : eps < 1 := by unfold XR.eps; norm_num
      have : g0.cells i = (Grid.create (F := XR) [3,3] (fin 1) (0,0)).cells i := if_neg h
      unfold Grid.occ
      rw [this, decide_eq_false h]
      show decide ((1:ℝ) < eps) = false; exact decide_eq_false (not_lt.2 e.le)
  have hcell : ∀ i, g0.cells i = if i = 4 then { (Grid.create (F := XR) [3,3] (fin 1) (0,0)).cells i with occupancy := fin 0 } else
      (Grid.create (F := XR) [3,3] (fin 1) (0,0)).cells i := fun i => rfl
  have X : XInput [3,3] g0 1 (fun _ => 1) [0] := by
    refine ⟨⟨by decide, by decide, by decide⟩, by decide, rfl, by decide, one_pos, rfl, fun i hi ho => ?_⟩
    rw [hocc] at ho
    unfold Grid.vel
    rw [hcell, if_neg (of_decide_eq_false ho)]
    rfl
  have hfr : Fresh g0 := by
    refine ⟨fun i => ?_, fun i => ?_, fun i => ?_⟩ <;> by_cases h : i = 4 <;> simp [Grid.value, Grid.state, hcell, h] <;> rfl
  obtain ⟨⟨n, s, hs, hd⟩, _⟩ := C27_DDQM_exact X hfr noGoal (fin 1) (fin 1)
  have hclear : ∀ p q, p < 9 → q < 9 → (∀ j, j < 9 → (∀ k, k < 2 → min (digit [3,3] p k) (digit [3,3] q k) ≤ digit [3,3] j k ∧
      digit [3,3] j k ≤ max (digit [3,3] p k) (digit [3,3] q k)) → j ≠ 4) → ClearBox [3,3] g0 1 (fun _ => 1) 1 p q := by
    intro p q hp hq H j hj hb
    have := H j hj ((between_iff X.fits hp hq hj).1 hb)
    exact ⟨by rw [hocc, decide_eq_false this], by norm_num⟩
  refine ⟨g0, _, X, hfr, by rw [hocc]; rfl, .snoc (.snoc (.nil 0) (i := 2) (by decide) (hclear 0 2 (by decide) (by decide) (by decide))) (by decide)
    (hclear 2 8 (by decide) (by decide) (by decide)), s.g, .ddqm (by decide) hs hd⟩

end FMV
