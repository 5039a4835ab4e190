import Verif.Lemmas.Metric
import Verif.Props.Monotone
import Verif.Props.GMM
import Verif.Props.UFMM
import Verif.Props.F64Accuracy
/-!
# C66: arrival times are travel times of straight lines
-/
set_option linter.unusedSectionVars false
set_option linter.unusedVariables false
namespace FMV
open Spec Shape XR FMM
variable {dims : List Nat} {g : Grid XR} {h : ℝ} {v : Nat → ℝ} {p : Nat}

/-- the exact time is at least the straight-line distance over the top speed -/
theorem exact_ge_distance (X : XInput dims g h v [p]) {vm : ℝ} (hvm : 0 < vm) (hv : ∀ i, i < dims.prod → g.occ i = false → v i ≤ vm)
    {U : Nat → WithTop ℝ} (hU : X.problem.IsSolution U) {i : Nat} (hi : i < dims.prod) :
    ((h * euclid ((Shape.mk' dims).idx2coord i) ((Shape.mk' dims).idx2coord p) / vm : ℝ) : WithTop ℝ) ≤ U i := by
  have hp : p < dims.prod := X.inside p (by simp)
  rw [euclid_eq X.fits hi hp]
  have hc : 0 ≤ h / vm := div_nonneg X.hpos.le hvm.le
  have key := ExSol.ge_sub X.fits (W := fun j => h / vm * Real.sqrt (sqD dims j p)) (fun j hj _ ho => X.cpos hj (by simpa using ho)) (X.exSol hU)
    (fun j hj hs => ?_) (fun j hj hs ho => ?_) i hi
  · have e : h * Real.sqrt (sqD dims i p) / vm = h / vm * Real.sqrt (sqD dims i p) := by ring
    rw [e]; exact key
  · have : j = p := by simpa using hs
    subst this
    have : sqD dims j j = 0 := Finset.sum_eq_zero (fun k _ => by unfold dk; ring)
    rw [this]; simp
  · have hof : g.occ j = false := by simpa using ho
    refine le_trans (dist_sub X.fits hc hj) ?_
    exact pow_le_pow_left₀ hc (div_le_div_of_nonneg_left X.hpos.le (X.vpos hj hof) (hv j hj hof)) 2

/-- on an open map of uniform speed the exact time exceeds the straight-line travel time by at most a logarithmic number of cells -/
theorem exact_le_distance (X : XInput dims g h v [p]) {v0 : ℝ} (hopen : ∀ i, i < dims.prod → g.occ i = false ∧ v i = v0)
    {U : Nat → WithTop ℝ} (hU : X.problem.IsSolution U) {i : Nat} (hi : i < dims.prod) :
    U i ≤ ((h / v0 * (euclid ((Shape.mk' dims).idx2coord i) ((Shape.mk' dims).idx2coord p) +
      (1 + 2 * Real.sqrt dims.length) * Real.log (1 + euclid ((Shape.mk' dims).idx2coord i) ((Shape.mk' dims).idx2coord p))) : ℝ) : WithTop ℝ) := by
  have hp : p < dims.prod := X.inside p (by simp)
  rw [euclid_eq X.fits hi hp]
  have hv0 : 0 < v0 := by rw [← (hopen p hp).2]; exact X.vpos hp (hopen p hp).1
  have hc : 0 < h / v0 := div_pos X.hpos hv0
  refine ExSol.le_super X.fits (V := fun j => ((h / v0 * bar dims.length (sqD dims j p) : ℝ) : WithTop ℝ)) (fun j hj _ ho => X.cpos hj (by simpa using ho)) (X.exSol hU)
    (fun j hj hs => ?_) (fun j hj hs r hr => ?_) i hi
  · have : 0 ≤ bar dims.length (sqD dims j p) := by
      unfold bar
      have h1 := Real.sqrt_nonneg (sqD dims j p)
      have := Real.log_nonneg (show 1 ≤ 1 + Real.sqrt (sqD dims j p) by linarith)
      positivity
    have h2 : (0:ℝ) ≤ h / v0 * bar dims.length (sqD dims j p) := mul_nonneg hc.le this
    exact_mod_cast h2
  · refine ⟨by simp [(hopen j hj).1], ?_⟩
    have : h / v0 * bar dims.length (sqD dims j p) = r := WithTop.coe_injective hr
    rw [← this]
    show (h / v j)^2 ≤ _
    rw [(hopen j hj).2]
    exact bar_super X.fits hc hj hp (fun e => hs (by simp [e]))

/-- **C66**, lower bound (partial: one starting point): whatever the map, at every moment of a run of FMM, FMM*, SFMM or SFMM* (any order in which the queue releases
cells), no cell has an arrival time smaller than the straight-line distance to the start divided by the top speed. -/
theorem C66_FMM_partial (X : XInput dims g h v [p]) (hfr : Fresh g) (vm : ℝ) (hvm : 0 < vm) (hv : ∀ i, i < dims.prod → g.occ i = false → v i ≤ vm) (cfg : Cfg XR)
    (n : Nat) (s : St XR) (hs : Steps (StepLib cfg) n (FMM.init cfg g [] [p]) s) (i : Nat) (hi : i < dims.prod) :
    s.g.value i = pinf ∨ ∃ t : ℝ, s.g.value i = fin t ∧ h * euclid ((Shape.mk' dims).idx2coord i) ((Shape.mk' dims).idx2coord p) / vm ≤ t := by
  obtain ⟨U, hU, _⟩ := C17_unique_solution X.problem X.wellPosed
  obtain ⟨h1, h2⟩ := C18_FMM X hfr U hU cfg n s hs i hi
  have h3 := le_trans (exact_ge_distance X hvm hv hU hi) h2
  rcases h1 with h1 | ⟨t, _, h1⟩
  · exact Or.inl h1
  · rw [h1] at h3; exact Or.inr ⟨t, h1, WithTop.coe_le_coe.1 h3⟩

/-- **C66**, lower bound (partial: one starting point) for the results of FMM, FSM, LSM, DDQM and FIM. -/
theorem C66_lower_partial (X : XInput dims g h v [p]) (hfr : Fresh g) (vm : ℝ) (hvm : 0 < vm) (hv : ∀ i, i < dims.prod → g.occ i = false → v i ≤ vm)
    (a : Grid XR) (ha : FinalGrid dims g [p] a) (i : Nat) (hi : i < dims.prod) :
    a.value i = pinf ∨ ∃ t : ℝ, a.value i = fin t ∧ h * euclid ((Shape.mk' dims).idx2coord i) ((Shape.mk' dims).idx2coord p) / vm ≤ t := by
  obtain ⟨U, hU, _⟩ := C17_unique_solution X.problem X.wellPosed
  have h3 := exact_ge_distance X hvm hv hU hi
  rcases ha.exact X hfr hU hi with ⟨_, h1⟩ | ⟨e, t, e1, e2, e3, _⟩
  · exact Or.inl h1
  · rw [e1] at h3; exact Or.inr ⟨t, e2, le_trans (WithTop.coe_le_coe.1 h3) e3⟩

/-- **C66**, accuracy: on a map without obstacles and with the same speed `v0` everywhere, with one starting point, the arrival time of every cell in the result of FMM, FSM,
LSM, DDQM or FIM is at least `dist/v0` and at most `dist/v0 + (1 + 2*sqrt D) * (h/v0) * ln(1 + dist/h)` (plus the comparison margin), where `dist` is the straight-line distance of the
cell centres and `D` the number of dimensions. -/
theorem C66_open_map (X : XInput dims g h v [p]) (hfr : Fresh g) (v0 : ℝ) (hopen : ∀ i, i < dims.prod → g.occ i = false ∧ v i = v0)
    (a : Grid XR) (ha : FinalGrid dims g [p] a) (i : Nat) (hi : i < dims.prod) (dist : ℝ)
    (hdist : dist = h * euclid ((Shape.mk' dims).idx2coord i) ((Shape.mk' dims).idx2coord p)) :
    ∃ t : ℝ, a.value i = fin t ∧ dist / v0 ≤ t ∧
      t ≤ dist / v0 + (1 + 2 * Real.sqrt dims.length) * (h / v0) * Real.log (1 + dist / h) + dims.prod * (2 * eps) := by
  obtain ⟨U, hU, _⟩ := C17_unique_solution X.problem X.wellPosed
  have hp : p < dims.prod := X.inside p (by simp)
  have hv0 : 0 < v0 := by rw [← (hopen p hp).2]; exact X.vpos hp (hopen p hp).1
  have l1 := exact_ge_distance X hv0 (fun j hj _ => (hopen j hj).2.le) hU hi
  have l2 := exact_le_distance X hopen hU hi
  rcases ha.exact X hfr hU hi with ⟨h0, h1⟩ | ⟨e, t, e1, e2, e3, e4⟩
  · rw [h0] at l2; exact absurd (top_le_iff.1 l2) WithTop.coe_ne_top
  · rw [e1] at l1 l2
    have l1 := WithTop.coe_le_coe.1 l1
    have l2 := WithTop.coe_le_coe.1 l2
    have hh := X.hpos
    have ed : dist / h = euclid ((Shape.mk' dims).idx2coord i) ((Shape.mk' dims).idx2coord p) := by rw [hdist]; field_simp
    refine ⟨t, e2, by rw [hdist]; linarith, ?_⟩
    rw [ed]
    have : dist / v0 = h / v0 * euclid ((Shape.mk' dims).idx2coord i) ((Shape.mk' dims).idx2coord p) := by rw [hdist]; ring
    rw [this]
    have e5 : h / v0 * (euclid ((Shape.mk' dims).idx2coord i) ((Shape.mk' dims).idx2coord p) +
      (1 + 2 * Real.sqrt dims.length) * Real.log (1 + euclid ((Shape.mk' dims).idx2coord i) ((Shape.mk' dims).idx2coord p))) =
      h / v0 * euclid ((Shape.mk' dims).idx2coord i) ((Shape.mk' dims).idx2coord p) + (1 + 2 * Real.sqrt dims.length) * (h / v0) *
        Real.log (1 + euclid ((Shape.mk' dims).idx2coord i) ((Shape.mk' dims).idx2coord p)) := by ring
    linarith

/-- **C66**, refinement: for every number of dimensions, speed, radius and tolerance there is a cell size such that on every open map of uniform speed with cells of at most
that size the computed arrival time of every cell within the radius of the start differs from the straight-line travel time by at most the tolerance (plus the comparison margin). -/
theorem C66_refinement (D : Nat) (v0 R tol : ℝ) (hv0 : 0 < v0) (hR : 0 < R) (htol : 0 < tol) : ∃ h0 > 0, ∀ (dims : List Nat) (g : Grid XR) (h : ℝ) (v : Nat → ℝ)
    (p : Nat) (X : XInput dims g h v [p]), dims.length = D → h ≤ h0 → Fresh g → (∀ i, i < dims.prod → g.occ i = false ∧ v i = v0) →
    ∀ a, FinalGrid dims g [p] a → ∀ i, i < dims.prod → ∀ dist, dist = h * euclid ((Shape.mk' dims).idx2coord i) ((Shape.mk' dims).idx2coord p) → dist ≤ R →
    ∃ t : ℝ, a.value i = fin t ∧ dist / v0 ≤ t ∧ t ≤ dist / v0 + tol + dims.prod * (2 * eps) := by
  -- h * log (1 + R/h) ≤ 2 * sqrt (R * h)
  have hK : 0 < 1 + 2 * Real.sqrt D := by have := Real.sqrt_nonneg (D:ℝ); linarith
  set K := 1 + 2 * Real.sqrt (D:ℝ) with hKd
  refine ⟨(tol * v0 / (2 * K))^2 / R, by positivity, ?_⟩
  intro dims g h v p X hD hh hfr hopen a ha i hi dist hdist hdR
  obtain ⟨t, t1, t2, t3⟩ := C66_open_map X hfr v0 hopen a ha i hi dist hdist
  refine ⟨t, t1, t2, le_trans t3 ?_⟩
  have h0 := X.hpos
  have hd0 : 0 ≤ dist := by rw [hdist]; exact mul_nonneg h0.le (Real.sqrt_nonneg _)
  have hx : 0 ≤ dist / h := by positivity
  have hlog : Real.log (1 + dist / h) ≤ 2 * Real.sqrt (dist / h) := by
    have hs := Real.sqrt_nonneg (dist / h)
    have h1 : 1 + dist / h ≤ (1 + Real.sqrt (dist / h))^2 := by nlinarith [Real.mul_self_sqrt hx]
    have h2 := Real.log_le_log (by positivity) h1
    rw [Real.log_pow] at h2
    have h3 := Real.log_le_sub_one_of_pos (show 0 < 1 + Real.sqrt (dist / h) by positivity)
    push_cast at h2
    linarith
  have hsq : h * Real.sqrt (dist / h) ≤ tol * v0 / (2 * K) := by
    have e : h * Real.sqrt (dist / h) = Real.sqrt (h * dist) := by
      have : h * dist = h^2 * (dist / h) := by field_simp
      rw [this, Real.sqrt_mul (by positivity), Real.sqrt_sq h0.le]
    rw [e]
    apply Real.sqrt_le_iff.2 ⟨by positivity, ?_⟩
    calc h * dist ≤ (tol * v0 / (2 * K))^2 / R * R := mul_le_mul hh hdR hd0 (by positivity)
      _ = _ := by field_simp
  rw [hD]
  have : K * (h / v0) * Real.log (1 + dist / h) ≤ tol := by
    have h1 : K * (h / v0) * Real.log (1 + dist / h) ≤ K * (h / v0) * (2 * Real.sqrt (dist / h)) := mul_le_mul_of_nonneg_left hlog (by positivity)
    have h2 : K * (h / v0) * (2 * Real.sqrt (dist / h)) = 2 * K / v0 * (h * Real.sqrt (dist / h)) := by ring
    have h3 : 2 * K / v0 * (h * Real.sqrt (dist / h)) ≤ 2 * K / v0 * (tol * v0 / (2 * K)) := mul_le_mul_of_nonneg_left hsq (by positivity)
    have h4 : 2 * K / v0 * (tol * v0 / (2 * K)) = tol := by field_simp
    linarith
  linarith

/-- **C66** in 64-bit floating point, with rounding: accuracy on an open map for FMM, FSM, LSM and DDQM; `relErr` is the relative error of C59. -/
theorem C66_open_map_doubles {R : Rounding} {g : Grid (F64 R)} {cm cM : ℝ} (I : DInput dims g h v [p] cm cM (2 * cM * dims.prod)) (hcc : cm ≤ cM) (hfr : Fresh g) (v0 : ℝ)
    (hopen : ∀ i, i < dims.prod → g.occ i = false ∧ v i = v0) (a : Grid (F64 R)) (ha : FinalGrid64 dims g [p] a) (i : Nat) (hi : i < dims.prod) (dist ρ : ℝ)
    (hdist : dist = h * euclid ((Shape.mk' dims).idx2coord i) ((Shape.mk' dims).idx2coord p)) (hρ : ρ = relErr dims.length cm (2 * cM * dims.prod)) (hρ1 : ρ ≤ 1) :
    ∃ t : ℝ, (a.value i).1 = fin t ∧ (1 - ρ) * (dist / v0) ≤ t ∧
      t ≤ (1 + ρ) * (dist / v0 + (1 + 2 * Real.sqrt dims.length) * (h / v0) * Real.log (1 + dist / h)) := by
  have X := I.X
  have hopen' : ∀ i, i < dims.prod → (gridX g).occ i = false ∧ v i = v0 := fun j hj => hopen j hj
  obtain ⟨U, hU, _⟩ := C17_unique_solution X.problem X.wellPosed
  have hp : p < dims.prod := X.inside p (by simp)
  have hv0 : 0 < v0 := by rw [← (hopen' p hp).2]; exact X.vpos hp (hopen' p hp).1
  have l1 := exact_ge_distance X hv0 (fun j hj _ => (hopen' j hj).2.le) hU hi
  have l2 := exact_le_distance X hopen' hU hi
  have hh := X.hpos
  have hρ0 : 0 ≤ ρ := by
    rw [hρ]; unfold relErr
    have := I.cm0
    positivity
  rcases C59_accuracy I hcc hfr a ha U hU i hi with ⟨h0, _⟩ | ⟨e, t, e1, e2, e3, e4⟩
  · rw [h0] at l2; exact absurd (top_le_iff.1 l2) WithTop.coe_ne_top
  · rw [← hρ] at e3 e4
    rw [e1] at l1 l2
    have l1 := WithTop.coe_le_coe.1 l1
    have l2 := WithTop.coe_le_coe.1 l2
    have ed : dist / h = euclid ((Shape.mk' dims).idx2coord i) ((Shape.mk' dims).idx2coord p) := by rw [hdist]; field_simp
    rw [← hdist] at l1
    rw [← ed] at l2
    have e5 : h / v0 * (dist / h + (1 + 2 * Real.sqrt dims.length) * Real.log (1 + dist / h)) =
      dist / v0 + (1 + 2 * Real.sqrt dims.length) * (h / v0) * Real.log (1 + dist / h) := by field_simp
    rw [e5] at l2
    refine ⟨t, e2, le_trans (mul_le_mul_of_nonneg_left l1 (by linarith)) e3, le_trans e4 (mul_le_mul_of_nonneg_left l2 (by linarith))⟩

/-- **C66**, lower bound (partial: one starting point) for GMM, at every moment of a run with any time step. -/
theorem C66_GMM_partial (X : XInput dims g h v [p]) (hfr : Fresh g) (vm : ℝ) (hvm : 0 < vm) (hv : ∀ i, i < dims.prod → g.occ i = false → v i ≤ vm) (dt : XR) (goal n : Nat)
    (s : GMM.St XR) (hs : Steps (GMM.Step dt goal eikS) n (GMM.init eikS g [] [p]) s) (i : Nat) (hi : i < dims.prod) :
    s.g.value i = pinf ∨ ∃ t : ℝ, s.g.value i = fin t ∧ h * euclid ((Shape.mk' dims).idx2coord i) ((Shape.mk' dims).idx2coord p) / vm ≤ t := by
  obtain ⟨U, hU, _⟩ := C17_unique_solution X.problem X.wellPosed
  obtain ⟨h1, h2⟩ := C18_GMM X hfr U hU dt goal n s hs i hi
  have h3 := le_trans (exact_ge_distance X hvm hv hU hi) h2
  rcases h1 with h1 | ⟨t, _, h1⟩
  · exact Or.inl h1
  · rw [h1] at h3; exact Or.inr ⟨t, h1, WithTop.coe_le_coe.1 h3⟩

/-- **C66**, lower bound (partial: one starting point) for UFMM, at every moment of a run with any queue parameters. -/
theorem C66_UFMM_partial (X : XInput dims g h v [p]) (hfr : Fresh g) (vm : ℝ) (hvm : 0 < vm) (hv : ∀ i, i < dims.prod → g.occ i = false → v i ≤ vm) (size : Nat)
    (hsz : 0 < size) (inc : XR) (ub : XR → Nat) (goal n : Nat) (s : UFMM.St XR) (hs : Steps (UFMM.Step goal eikS) n (UFMM.init g (UQ.create size inc ub) [p]) s)
    (i : Nat) (hi : i < dims.prod) :
    s.g.value i = pinf ∨ ∃ t : ℝ, s.g.value i = fin t ∧ h * euclid ((Shape.mk' dims).idx2coord i) ((Shape.mk' dims).idx2coord p) / vm ≤ t := by
  obtain ⟨U, hU, _⟩ := C17_unique_solution X.problem X.wellPosed
  obtain ⟨h1, h2⟩ := C18_UFMM X hfr U hU hsz inc ub goal n s hs i hi
  have h3 := le_trans (exact_ge_distance X hvm hv hU hi) h2
  rcases h1 with h1 | ⟨t, _, h1⟩
  · exact Or.inl h1
  · rw [h1] at h3; exact Or.inr ⟨t, h1, WithTop.coe_le_coe.1 h3⟩

/-- **C66 is false for several starting points**: on the empty 2x2 map with unit cells and unit speed, with the two starts in opposite corners, every solver (FMM, FSM, LSM, DDQM, FIM)
reaches the other two cells, both at distance 1 from both starts, before time 4/5. -/
theorem C66_refuted_two_starts : ∃ (g : Grid XR) (X : XInput [2,2] g 1 (fun _ => 1) [1, 2]), Fresh g ∧ StartsApart [2,2] g [1, 2] ∧
    (∀ q ∈ [1, 2], euclid ((Shape.mk' [2,2]).idx2coord 0) ((Shape.mk' [2,2]).idx2coord q) = 1) ∧ (∃ a, FinalGrid [2,2] g [1, 2] a) ∧
    ∀ a, FinalGrid [2,2] g [1, 2] a → ∃ t : ℝ, a.value 0 = fin t ∧ t < 4/5 := by
  have X : XInput [2,2] (Grid.create [2,2] (fin 1) (0,0)) 1 (fun _ => 1) [1, 2] :=
    ⟨⟨by decide, by decide, by decide⟩, by decide, rfl, by decide, one_pos, rfl, fun _ _ _ => rfl⟩
  have hfr : Fresh (Grid.create (F := XR) [2,2] (fin 1) (0,0)) := ⟨fun _ => rfl, fun _ => rfl, fun _ => rfl⟩
  refine ⟨_, X, hfr, ?_, ?_, ?_, ?_⟩
  · intro i hi j hj _ had
    simp only [List.mem_cons, List.not_mem_nil, or_false] at hi hj
    have hi5 : i < [2,2].prod := by rcases hi with rfl | rfl <;> decide
    have := (axisAdjacent_iff X.fits hi5).2 ⟨by rcases hj with rfl | rfl <;> decide, had⟩
    rcases hi with rfl | rfl <;> rcases hj with rfl | rfl <;> revert this <;> decide
  · intro q hq
    simp only [List.mem_cons, List.not_mem_nil, or_false] at hq
    have e0 : (Shape.mk' [2,2]).idx2coord 0 = [0,0] := by decide
    have e1 : (Shape.mk' [2,2]).idx2coord 1 = [1,0] := by decide
    have e2 : (Shape.mk' [2,2]).idx2coord 2 = [0,1] := by decide
    rcases hq with rfl | rfl <;> simp [e0, e1, e2, euclid]
  · obtain ⟨⟨n, s, hs, hd⟩, _⟩ := C27_DDQM_exact X hfr noGoal (fin 1) (fin 1)
    exact ⟨s.g, .ddqm (by decide) hs hd⟩
  · intro a ha
    obtain ⟨U, hU, _⟩ := C17_unique_solution X.problem X.wellPosed
    have hle : U 0 ≤ ((3/4 : ℝ) : WithTop ℝ) := by
      have := ExSol.le_super X.fits (V := fun j => ((if j = 1 ∨ j = 2 then 0 else 3/4 : ℝ) : WithTop ℝ)) (fun j hj _ ho => X.cpos hj (by simpa using ho)) (X.exSol hU)
        (fun j hj hs => ?_) (fun j hj hs r hr => ?_) 0 (by decide)
      · simpa using this
      · show (0 : WithTop ℝ) ≤ ((if j = 1 ∨ j = 2 then 0 else 3/4 : ℝ) : WithTop ℝ)
        have : (0:ℝ) ≤ (if j = 1 ∨ j = 2 then 0 else 3/4 : ℝ) := by split <;> norm_num
        exact_mod_cast this
      · have hocc : ∀ k, (Grid.create (F := XR) [2,2] (fin 1) (0,0)).occ k = false := by
          intro k
          have e : eps < 1 := by unfold XR.eps; norm_num
          show decide ((1:ℝ) < eps) = false; exact decide_eq_false (not_lt.2 e.le)
        refine ⟨by simp [hocc j], ?_⟩
        have hj4 : j < 4 := hj
        have hj : j = 0 ∨ j = 3 := by
          simp only [List.mem_cons, List.not_mem_nil, or_false, not_or] at hs
          omega
        have hr' : (if j = 1 ∨ j = 2 then 0 else 3/4 : ℝ) = r := WithTop.coe_injective hr
        have er : r = 3/4 := by rw [← hr']; rcases hj with rfl | rfl <;> norm_num
        subst er
        have m1 : dimMin (Shape.mk' [2,2]) (fun j => ((if j = 1 ∨ j = 2 then 0 else 3/4 : ℝ) : WithTop ℝ)) j 0 ≤ ((0:ℝ) : WithTop ℝ) := by
          rcases hj with rfl | rfl
          · exact le_trans (dimMin_le (j := 1) (by decide)) (by simp)
          · exact le_trans (dimMin_le (j := 2) (by decide)) (by simp)
        have m2 : dimMin (Shape.mk' [2,2]) (fun j => ((if j = 1 ∨ j = 2 then 0 else 3/4 : ℝ) : WithTop ℝ)) j 1 ≤ ((0:ℝ) : WithTop ℝ) := by
          rcases hj with rfl | rfl
          · exact le_trans (dimMin_le (j := 2) (by decide)) (by simp)
          · exact le_trans (dimMin_le (j := 1) (by decide)) (by simp)
        rw [residL_mins]
        show ((1:ℝ)/1)^2 ≤ ∑ k ∈ Finset.range 2, _
        rw [Finset.sum_range_succ, Finset.sum_range_one]
        have p1 := posSq_anti (3/4) m1
        have p2 := posSq_anti (3/4) m2
        rw [posSq_coe] at p1 p2
        norm_num at p1 p2 ⊢
        linarith
    rcases ha.exact X hfr hU (i := 0) (by decide) with ⟨h0, _⟩ | ⟨e, t, e1, e2, e3, e4⟩
    · rw [h0] at hle; exact absurd (top_le_iff.1 hle) WithTop.coe_ne_top
    · rw [e1] at hle
      have hle := WithTop.coe_le_coe.1 hle
      refine ⟨t, e2, ?_⟩
      have e5 : eps < 1/1000 := by unfold XR.eps; norm_num
      have e6 : (([2,2] : List Nat).prod : ℝ) = 4 := by norm_num
      have e7 : t ≤ e + 4 * (2 * eps) := by have := e4; norm_num at this ⊢; linarith
      linarith

/-- non-vacuity of the bounds on open maps: an empty 3x3 map with a result -/
example : ∃ (g : Grid XR), XInput [3,3] g 1 (fun _ => 1) [4] ∧ Fresh g ∧ (∀ i, i < ([3,3] : List Nat).prod → g.occ i = false) ∧ ∃ a, FinalGrid [3,3] g [4] a := by
  have X : XInput [3,3] (Grid.create [3,3] (fin 1) (0,0)) 1 (fun _ => 1) [4] :=
    ⟨⟨by decide, by decide, by decide⟩, by decide, rfl, by decide, one_pos, rfl, fun _ _ _ => rfl⟩
  have hfr : Fresh (Grid.create (F := XR) [3,3] (fin 1) (0,0)) := ⟨fun _ => rfl, fun _ => rfl, fun _ => rfl⟩
  obtain ⟨⟨n, s, hs, hd⟩, _⟩ := C27_DDQM_exact X hfr noGoal (fin 1) (fin 1)
  refine ⟨_, X, hfr, fun i _ => ?_, s.g, .ddqm (by decide) hs hd⟩
  have e : eps < 1 := by unfold XR.eps; norm_num
  show decide ((1:ℝ) < eps) = false; exact decide_eq_false (not_lt.2 e.le)
end FMV
