import Verif.Props.Sight
import Verif.Props.FM2
/-!
# C89: the speeds of FM2 follow the clearance
-/
set_option linter.unusedSectionVars false
set_option linter.unusedVariables false
namespace FMV
open Spec Shape XR FMM
variable {dims : List Nat} {g : Grid XR} {h : ℝ} {v : Nat → ℝ}

theorem obstacleWave_wellPosed (M : FM2Map dims g h v) : (obstacleWave dims g h v).WellPosed :=
  ⟨M.dims2, fun x hx => lt_of_lt_of_le (by norm_num) (M.two x hx), M.cells, M.hpos,
    fun i hi ho => (FM2.input M (SameMap.refl g)).vpos hi (by simpa [obstacleWave] using ho)⟩

/-- the wave from the obstacles as a problem with a list of starting points -/
theorem obstacleWave_list (M : FM2Map dims g h v) {U : Nat → WithTop ℝ} (hU : (obstacleWave dims g h v).IsSolution U) :
    (FM2.input M (SameMap.refl g)).problem.IsSolution U := by
  refine (isSolution_iff (FM2.input M (SameMap.refl g)).wellPosed U).2 ?_
  have E := (isSolution_iff (obstacleWave_wellPosed M) U).1 hU
  intro i hi
  obtain ⟨e1, e2, e3⟩ := E i hi
  have hl := M.listed i
  exact ⟨fun hs => e1 (hl.1 hs).2, fun hs ho => e2 (fun hs' => hs (hl.2 ⟨hi, hs'⟩)) ho, fun hs ho => e3 (fun hs' => hs (hl.2 ⟨hi, hs'⟩)) ho⟩

/-- the exact wave from the obstacles is at most the straight line from any obstacle plus the logarithmic error -/
theorem obstacleWave_le (M : FM2Map dims g h v) {U : Nat → WithTop ℝ} (hU : (obstacleWave dims g h v).IsSolution U) {vlo : ℝ} (hlo : 0 < vlo)
    (hv : ∀ i, i < dims.prod → g.occ i = false → vlo ≤ v i) {i p : Nat} (hi : i < dims.prod) (hp : p ∈ g.occupied) :
    U i ≤ ((h / vlo * pieceBound dims.length (euclid ((Shape.mk' dims).idx2coord i) ((Shape.mk' dims).idx2coord p)) : ℝ) : WithTop ℝ) := by
  have X := FM2.input M (SameMap.refl g)
  have E := (isSolution_iff (obstacleWave_wellPosed M) U).1 hU
  obtain ⟨hpN, hpo⟩ := (M.listed p).1 hp
  rw [euclid_eq X.fits hi hpN]
  refine exact_le_box_of (src := fun i => g.occ i = true) (obs := fun i => g.occ i = true) (c := fun i => h / v i) X.fits X.cpos' (div_pos M.hpos hlo) hpN hi E hpo ?_
  intro j hj hs _
  exact ⟨hs, div_le_div_of_nonneg_left M.hpos.le hlo (hv j hj (by simpa using hs))⟩

/-- ... and at least the straight line to some obstacle, divided by `√n` -/
theorem obstacleWave_ge (M : FM2Map dims g h v) {U : Nat → WithTop ℝ} (hU : (obstacleWave dims g h v).IsSolution U) {vhi : ℝ} (hhi : 0 < vhi)
    (hv : ∀ i, i < dims.prod → g.occ i = false → v i ≤ vhi) {i : Nat} (hi : i < dims.prod) {r : ℝ} (hr : U i = (r : WithTop ℝ)) :
    ∃ p ∈ g.occupied, h / vhi * euclid ((Shape.mk' dims).idx2coord i) ((Shape.mk' dims).idx2coord p) ≤ Real.sqrt dims.length * r := by
  have X := FM2.input M (SameMap.refl g)
  obtain ⟨p, hp, X', hle⟩ := exact_one_of X (obstacleWave_list M hU) hi hr
  obtain ⟨V, hV, _⟩ := C17_unique_solution X'.problem X'.wellPosed
  have h3 := WithTop.coe_le_coe.1 (le_trans (exact_ge_distance X' hhi hv hV hi) (hle V hV))
  exact ⟨p, hp, by rw [div_mul_eq_mul_div]; exact h3⟩

/-- **C89**: when the velocity phase of FM2 or FM2* ends on a map whose free cells have speeds between `vlo` and `vhi`, there are one scale `T` and one clearance value `r i` per cell such that
`r i * T` lies between the travel time at speed `vhi` along the straight line to the nearest obstacle, divided by `√n`, and the travel time at speed `vlo` along the straight line to the
nearest obstacle plus a logarithmic number of cells (`pieceBound`) and the comparison margin; the largest `r i` is 1.  The speed left in the cell is `r i`, or, with saturation
distance `D`, `r i * h / D` cut off at 1. -/
theorem C89_speed_follows_clearance (M : FM2Map dims g h v) {vlo vhi : ℝ} (hlo : 0 < vlo) (hv : ∀ i, i < dims.prod → g.occ i = false → vlo ≤ v i ∧ v i ≤ vhi)
    {D : ℝ} (hD : D = -1 ∨ 0 < D) (star : Option Heur) (d : Bool) (gl : Nat) (j : Junk XR) (pts : List Nat) (goal : Nat) (g1 G : Grid XR) (o1 : FM2.Obj XR) (s : FMV.Obj XR)
    (hset : (configuredFM2 star (fin D) d gl j g pts goal).2.setup (configuredFM2 star (fin D) d gl j g pts goal).1 = .ok (g1, o1))
    (hrun : o1.VelMap FMM.IsTop g1 G s) :
    ∃ (T : ℝ) (r : Nat → ℝ), 0 < T ∧ (∀ i, i < dims.prod → 0 ≤ r i ∧ r i ≤ 1) ∧ (∃ i, i < dims.prod ∧ r i = 1) ∧
      (∀ i, i < dims.prod → G.vel i = fin (if D = -1 then r i else min 1 (r i / (D / h)))) ∧
      (∀ i, i < dims.prod → ∀ p ∈ g.occupied,
        r i * T ≤ h / vlo * pieceBound dims.length (euclid ((Shape.mk' dims).idx2coord i) ((Shape.mk' dims).idx2coord p)) + dims.prod * (2 * eps)) ∧
      (∀ i, i < dims.prod → ∃ p ∈ g.occupied,
        h / vhi * euclid ((Shape.mk' dims).idx2coord i) ((Shape.mk' dims).idx2coord p) ≤ Real.sqrt dims.length * (r i * T)) := by
  obtain ⟨U, hU, _⟩ := C17_unique_solution (obstacleWave dims g h v) (obstacleWave_wellPosed M)
  obtain ⟨t, mx, a1, a2, a3, a4, a5, _⟩ := FM2.velmap_spec M hU hD hset hrun
  obtain ⟨f, hf1, hf2⟩ := M.free
  have hhi : 0 < vhi := lt_of_lt_of_le hlo (le_trans (hv f hf1 hf2).1 (hv f hf1 hf2).2)
  have hm : ∀ i, t i / t mx * t mx = t i := fun i => div_mul_cancel₀ _ a4.ne'
  refine ⟨t mx, fun i => t i / t mx, a4, fun i hi => ⟨div_nonneg (a1 i hi).1 a4.le, (div_le_one a4).2 (a3 i hi)⟩, ⟨mx, a2, div_self a4.ne'⟩, a5, ?_, ?_⟩
  · intro i hi p hp
    rw [hm]
    have h1 := (a1 i hi).2.2.2.2
    have h2 := obstacleWave_le M hU hlo (fun i hi ho => (hv i hi ho).1) hi hp
    have h3 := le_trans h1 (add_le_add_left h2 _)
    rw [← WithTop.coe_add] at h3
    exact WithTop.coe_le_coe.1 h3
  · intro i hi
    rw [hm]
    have h1 := (a1 i hi).2.2.2.1
    obtain ⟨r, hr⟩ := WithTop.ne_top_iff_exists.1 (ne_top_of_le_ne_top WithTop.coe_ne_top h1)
    rw [← hr] at h1
    obtain ⟨p, hp, hle⟩ := obstacleWave_ge M hU hhi (fun i hi ho => (hv i hi ho).2) hi hr.symm
    exact ⟨p, hp, le_trans hle (mul_le_mul_of_nonneg_left (WithTop.coe_le_coe.1 h1) (Real.sqrt_nonneg _))⟩

/-- **C89**, comparing two cells of a map with one speed: if every obstacle is at least `b` cells away from cell `k`, and some obstacle is `a` cells away from cell `i`, then the
speeds satisfy `speed i / speed k ≤ √n * (a + (1 + 2√n) ln(1+a) + margin) / b`: a cell that is far enough from all obstacles is faster than one that is near an obstacle. -/
theorem C89_two_cells (M : FM2Map dims g h v) {v0 : ℝ} (hv : ∀ i, i < dims.prod → g.occ i = false → v i = v0)
    (star : Option Heur) (d : Bool) (gl : Nat) (j : Junk XR) (pts : List Nat) (goal : Nat) (g1 G : Grid XR) (o1 : FM2.Obj XR) (s : FMV.Obj XR)
    (hset : (configuredFM2 star (fin (-1)) d gl j g pts goal).2.setup (configuredFM2 star (fin (-1)) d gl j g pts goal).1 = .ok (g1, o1))
    (hrun : o1.VelMap FMM.IsTop g1 G s) (i k : Nat) (hi : i < dims.prod) (hk : k < dims.prod) (p : Nat) (hp : p ∈ g.occupied) (b : ℝ)
    (hb : ∀ q ∈ g.occupied, b ≤ euclid ((Shape.mk' dims).idx2coord k) ((Shape.mk' dims).idx2coord q)) :
    ∃ ri rk : ℝ, G.vel i = fin ri ∧ G.vel k = fin rk ∧
      ri * b ≤ Real.sqrt dims.length * rk *
        (pieceBound dims.length (euclid ((Shape.mk' dims).idx2coord i) ((Shape.mk' dims).idx2coord p)) + v0 / h * (dims.prod * (2 * eps))) := by
  obtain ⟨f, hf1, hf2⟩ := M.free
  have h0 : 0 < v0 := by rw [← hv f hf1 hf2]; exact (FM2.input M (SameMap.refl g)).vpos hf1 hf2
  obtain ⟨T, r, hT, hr, _, e, up, low⟩ := C89_speed_follows_clearance M h0 (fun i hi ho => ⟨(hv i hi ho).ge, (hv i hi ho).le⟩) (Or.inl rfl) star d gl j pts goal g1 G o1 s hset hrun
  refine ⟨r i, r k, by rw [e i hi, if_pos rfl], by rw [e k hk, if_pos rfl], ?_⟩
  obtain ⟨q, hq, hlow⟩ := low k hk
  have hup := up i hi p hp
  set B := pieceBound dims.length (euclid ((Shape.mk' dims).idx2coord i) ((Shape.mk' dims).idx2coord p)) with hB
  have hh := M.hpos
  have hc : 0 < h / v0 := div_pos hh h0
  have h1 : h / v0 * b ≤ Real.sqrt dims.length * (r k * T) := le_trans (mul_le_mul_of_nonneg_left (hb q hq) hc.le) hlow
  have hi0 := (hr i hi).1
  have hk0 := (hr k hk).1
  have hs := Real.sqrt_nonneg (dims.length : ℝ)
  -- r i * b * (h/v0) * T ≤ (r i * T) * √n * r k * T
  have h2 : r i * T * (h / v0 * b) ≤ (h / v0 * B + dims.prod * (2 * eps)) * (Real.sqrt dims.length * (r k * T)) := by
    refine le_trans (mul_le_mul_of_nonneg_left h1 (mul_nonneg hi0 hT.le)) (mul_le_mul_of_nonneg_right hup (by positivity))
  have e1 : v0 / h * (dims.prod * (2 * eps)) = (dims.prod * (2 * eps)) / (h / v0) := by field_simp
  rw [e1]
  have h3 : r i * b * ((h / v0) * T) ≤ (Real.sqrt dims.length * r k * (B + (dims.prod * (2 * eps)) / (h / v0))) * ((h / v0) * T) := by
    calc r i * b * ((h / v0) * T) = r i * T * (h / v0 * b) := by ring
      _ ≤ _ := h2
      _ = _ := by
        have : (h / v0 * B + dims.prod * (2 * eps)) = (h / v0) * (B + (dims.prod * (2 * eps)) / (h / v0)) := by
          rw [mul_add, mul_div_cancel₀ _ hc.ne']
        rw [this]; ring
  exact le_of_mul_le_mul_right h3 (mul_pos hc hT)

/-- non-vacuity: in the corridor of C33, FM2 and FM2* reach the end of the velocity phase, so that both theorems apply; the far cell is 4 cells or more from every obstacle -/
example (star : Option Heur) (gl : Nat) (j : Junk XR) (hst : star ≠ none → (4 : Nat) ≠ noGoal) : ∃ g1 o1 G s,
    (configuredFM2 star (fin (-1)) false gl j FM2.corridor [1] 4).2.setup (configuredFM2 star (fin (-1)) false gl j FM2.corridor [1] 4).1 = .ok (g1, o1) ∧
      o1.VelMap FMM.IsTop g1 G s ∧ ∃ r1 r4 : ℝ, G.vel 1 = fin r1 ∧ G.vel 4 = fin r4 ∧
        r1 * 4 ≤ Real.sqrt 2 * r4 * (pieceBound 2 1 + 1 / 1 * (10 * (2 * eps))) := by
  obtain ⟨⟨g1, o1⟩, hset⟩ := (C34_gate star (fin (-1)) false gl j FM2.corridor [1] 4).1.2 ⟨FM2.corridor_valid, rfl, by simp [FM2.corridor, FM2.room], hst⟩
  obtain ⟨G, s, hv⟩ := FM2.velmap_returns FM2.corridor_map (by simp [FM2.corridor, FM2.room]) star (fin (-1)) false gl j [1] 4 g1 o1 hset
  refine ⟨g1, o1, G, s, hset, hv, ?_⟩
  have hm : (0 : Nat) ∈ FM2.corridor.occupied := by simp [FM2.corridor, FM2.room]
  have key := C89_two_cells FM2.corridor_map (v0 := 1) (fun _ _ _ => rfl) star false gl j [1] 4 g1 G o1 s hset hv 1 4 (by decide) (by decide) 0 hm 4 ?_
  · obtain ⟨r1, r4, e1, e4, hle⟩ := key
    refine ⟨r1, r4, e1, e4, ?_⟩
    have e : euclid ((Shape.mk' [5,2]).idx2coord 1) ((Shape.mk' [5,2]).idx2coord 0) = 1 := by
      have e1 : (Shape.mk' [5,2]).idx2coord 1 = [1,0] := by decide
      have e2 : (Shape.mk' [5,2]).idx2coord 0 = [0,0] := by decide
      rw [e1, e2]; unfold euclid; simp
    rw [e] at hle
    have e5 : ((([5,2] : List Nat).prod : ℕ) : ℝ) = 10 := by norm_num
    rw [e5] at hle
    simpa using hle
  · intro q hq
    have hq : q = 0 ∨ q = 5 := by simpa [FM2.corridor, FM2.room] using hq
    have e4 : (Shape.mk' [5,2]).idx2coord 4 = [4,0] := by decide
    rw [e4]
    rcases hq with rfl | rfl
    · have e2 : (Shape.mk' [5,2]).idx2coord 0 = [0,0] := by decide
      rw [e2]; unfold euclid
      refine Real.le_sqrt_of_sq_le ?_
      norm_num
    · have e2 : (Shape.mk' [5,2]).idx2coord 5 = [0,1] := by decide
      rw [e2]; unfold euclid
      refine Real.le_sqrt_of_sq_le ?_
      norm_num

end FMV
