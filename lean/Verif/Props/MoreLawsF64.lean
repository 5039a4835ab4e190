import Verif.Props.LawsF64
import Verif.Props.Downhill
import Verif.Props.Local
import Verif.Props.Sight
import Verif.Props.Walk
/-! C106: no false basins, slowdowns, far changes, clear lines and shortest walks (C69, C70, C71, C86, C87) for the results of all solvers in doubles, UFMM, FIM and GMM included. -/
set_option linter.unusedSectionVars false
set_option linter.unusedVariables false
namespace FMV
open Spec Shape XR FMM Off
variable {R R' : Rounding}

section laws
variable {dims : List Nat} {g : Grid (F64 R)} {g' : Grid (F64 R')} {h h' : ℝ} {v v' : Nat → ℝ} {pts pts' : List Nat} {ρ σ : ℝ} {a : Grid (F64 R)} {b : Grid (F64 R')}

/-- a reached cell that is not a start is free, and the exact solution has an axis neighbour at least `(h/v)/√D` earlier -/
theorem exact_lower {gx : Grid XR} (X : XInput dims gx h v pts) {U : Nat → WithTop ℝ} (hU : X.problem.IsSolution U) {i : Nat} (hi : i < dims.prod) (hp : i ∉ pts)
    {e : ℝ} (e1 : U i = (e : WithTop ℝ)) :
    gx.occ i = false ∧ ∃ j, j < dims.prod ∧ AxisAdjacent ((Shape.mk' dims).idx2coord i) ((Shape.mk' dims).idx2coord j) ∧
      ∃ t : ℝ, U j = (t : WithTop ℝ) ∧ t + h / v i / Real.sqrt dims.length ≤ e := by
  have hE := X.exSol hU
  have ho : gx.occ i = false := by
    cases ho : gx.occ i with
    | false => rfl
    | true => have := (hE i hi).2.1 hp (by simpa using ho); rw [e1] at this; exact absurd this WithTop.coe_ne_top
  refine ⟨ho, ?_⟩
  have S : Sup dims (fun k => if gx.occ k = false then h / v k else 0) pts U := by
    intro k hk hkp x hx
    dsimp only
    split
    · next hok =>
      rcases (hE k hk).2.2 hkp (by simp [hok]) with ⟨y, f1, f2⟩ | ⟨f1, _⟩
      · rw [hx] at f1
        obtain rfl : x = y := by exact_mod_cast f1
        exact f2.ge
      · rw [hx] at f1; exact absurd f1 WithTop.coe_ne_top
    · next hok =>
      have := (hE k hk).2.1 hkp (by simpa using hok)
      rw [hx] at this; exact absurd this WithTop.coe_ne_top
  obtain ⟨j, hj, t, h1, h2⟩ := S.down hi hp (by rw [if_pos ho]; exact X.cpos hi ho) e1
  rw [if_pos ho] at h2
  obtain ⟨a1, a2⟩ := (axisAdjacent_iff X.fits hi).1 hj
  exact ⟨j, a1, a2, t, h1, h2⟩

/-- **C106**, lower neighbours (C69): every reached cell that is not a starting point is free and has an axis neighbour whose computed time is lower by at least the time to cross the cell over `√D`,
up to the relative error. -/
theorem C106_lower_neighbour (Ha : Computed64 dims g h v pts ρ a) (i : Nat) (hi : i < dims.prod) (hp : i ∉ pts) (r : ℝ) (hr : (a.value i).1 = fin r) :
    g.occ i = false ∧ ∃ j, j < dims.prod ∧ AxisAdjacent ((Shape.mk' dims).idx2coord i) ((Shape.mk' dims).idx2coord j) ∧
      ∃ t : ℝ, (a.value j).1 = fin t ∧ t + (1 + ρ) * (h / v i / Real.sqrt dims.length) ≤ (1 + ρ) / (1 - ρ) * r := by
  have X := Ha.input
  obtain ⟨U, hU, _⟩ := C17_unique_solution X.problem X.wellPosed
  rcases Ha.close hU hi with ⟨_, h1⟩ | ⟨e, r', e1, e2, e0, e3, e4⟩
  · rw [hr] at h1; cases h1
  rw [hr] at e2
  obtain rfl : r = r' := by injection e2
  obtain ⟨ho, j, hj, hadj, t, t1, t2⟩ := exact_lower X hU hi hp e1
  refine ⟨ho, j, hj, hadj, ?_⟩
  rcases Ha.close hU hj with ⟨h1, _⟩ | ⟨e', t', f1, f2, f0, f3, f4⟩
  · rw [h1] at t1; exact absurd t1 WithTop.top_ne_coe
  rw [t1] at f1
  obtain rfl : t = e' := WithTop.coe_injective f1
  have k1 := law_le (σ := ρ) Ha.2.1 Ha.nonneg (le_refl e) e3 (le_refl _)
  have k2 := mul_le_mul_of_nonneg_left t2 (show 0 ≤ 1 + ρ by linarith [Ha.nonneg])
  exact ⟨t', f2, by linarith⟩

/-- **C106**, no false basins (C69): if the relative error is so small that `2ρ` of every computed time is less than `(1 - ρ)/√D` of the time to cross the cell, moving again and again to the
axis neighbour with the smallest computed time leads from every reached cell to a starting point, through free cells, along falling times and in fewer moves than there are cells. -/
theorem C106_descent_arrives (Ha : Computed64 dims g h v pts ρ a)
    (hsmall : ∀ (j : Nat) (r : ℝ), j < dims.prod → g.occ j = false → (a.value j).1 = fin r → 2 * ρ * r < (1 - ρ) * (h / v j / Real.sqrt dims.length))
    (next : Nat → Nat) (hn : MovesDown dims (Shape.mk' dims).idx2coord (fun i => toT (a.value i).1) next) (i : Nat) (hi : i < dims.prod) (hr : (a.value i).1 ≠ pinf) :
    Arrives dims (fun i => toT (a.value i).1) (fun i => g.occ i = false) (fun i => i ∈ pts) next i := by
  have X := Ha.input
  obtain ⟨U, hU, _⟩ := C17_unique_solution X.problem X.wellPosed
  have hfin : ∀ j, j < dims.prod → (a.value j).1 = pinf ∨ ∃ r : ℝ, (a.value j).1 = fin r := by
    intro j hj
    rcases Ha.close hU hj with ⟨_, h1⟩ | ⟨_, r, _, h1, _⟩
    · exact Or.inl h1
    · exact Or.inr ⟨r, h1⟩
  refine arrives_of_down hn ?_ i hi ?_
  · intro j hj hp hT
    rcases hfin j hj with h1 | ⟨r, hr⟩
    · rw [h1] at hT; exact absurd rfl hT
    obtain ⟨ho, k, k1, k2, t, k3, k4⟩ := C106_lower_neighbour Ha j hj hp r hr
    refine ⟨ho, k, k1, k2, ?_⟩
    show toT (a.value k).1 < toT (a.value j).1
    rw [k3, hr]
    have hc := X.cpos hj ho
    have hD : (0:ℝ) < dims.length := by have := X.fits.two; positivity
    have hq : 0 < h / v j / Real.sqrt dims.length := div_pos hc (Real.sqrt_pos.2 hD)
    have hs := hsmall j r hj ho hr
    have h1 : 0 < 1 - ρ := by linarith [Ha.2.1]
    have e5 : (1 + ρ) / (1 - ρ) * r = r + 2 * ρ * r / (1 - ρ) := by field_simp; ring
    have e6 : 2 * ρ * r / (1 - ρ) < h / v j / Real.sqrt dims.length := by rw [div_lt_iff₀ h1]; linarith
    have e7 := mul_nonneg Ha.nonneg hq.le
    refine WithTop.coe_lt_coe.2 ?_
    rw [e5] at k4
    linarith
  · show toT (a.value i).1 ≠ ⊤
    rcases hfin i hi with h1 | ⟨r, h1⟩
    · exact absurd h1 hr
    · rw [h1]; exact WithTop.coe_ne_top

/-- **C106**, neighbours (C69): the computed time of a free cell `j` is at most `(1+ρ)/(1-ρ)` times that of an axis neighbour, plus `1+ρ` times the time to cross `j`; in particular all free
neighbours of a reached cell are reached. -/
theorem C106_next_cell (Ha : Computed64 dims g h v pts ρ a) (i j : Nat) (hi : i < dims.prod) (hj : j < dims.prod) (ho : g.occ j = false)
    (hadj : AxisAdjacent ((Shape.mk' dims).idx2coord i) ((Shape.mk' dims).idx2coord j)) (r : ℝ) (hr : (a.value i).1 = fin r) :
    ∃ t : ℝ, (a.value j).1 = fin t ∧ t ≤ (1 + ρ) / (1 - ρ) * r + (1 + ρ) * (h / v j) := by
  have X := Ha.input
  obtain ⟨U, hU, _⟩ := C17_unique_solution X.problem X.wellPosed
  have hle := exact_next X hU hi hj ho hadj
  rcases Ha.close hU hi with ⟨_, h1⟩ | ⟨e, r', e1, e2, e0, e3, e4⟩
  · rw [hr] at h1; cases h1
  rw [hr] at e2
  obtain rfl : r = r' := by injection e2
  rcases Ha.close hU hj with ⟨h0, _⟩ | ⟨e', t, f1, f2, f0, f3, f4⟩
  · rw [h0, e1] at hle
    exact absurd (top_le_iff.1 hle) (WithTop.coe_ne_top (a := e + h / v j))
  rw [f1, e1] at hle
  have hle' : e' ≤ e + h / v j := by exact_mod_cast hle
  have k1 := law_le (σ := ρ) Ha.2.1 Ha.nonneg (le_refl e) e3 (le_refl _)
  have k2 := mul_le_mul_of_nonneg_left hle' (show 0 ≤ 1 + ρ by linarith [Ha.nonneg])
  exact ⟨t, f2, by linarith⟩

/-- **C106**, slowdowns (C70): if on a second map everything free stays free, no starting point is lost and no cell takes more than `k` times as long to cross, no computed time grows by more than
the factor `k (1 + σ)/(1 - ρ)`. -/
theorem C106_slowdown (Ha : Computed64 dims g h v pts ρ a) (Hb : Computed64 dims g' h' v' pts' σ b) (k : ℝ) (hk : 0 < k) (hpts : ∀ p ∈ pts, p ∈ pts')
    (hmap : ∀ i, i < dims.prod → g.occ i = false → g'.occ i = false ∧ h' / v' i ≤ k * (h / v i)) (i : Nat) (hi : i < dims.prod) :
    (a.value i).1 = pinf ∨ ∃ r r' : ℝ, (a.value i).1 = fin r ∧ (b.value i).1 = fin r' ∧ r' ≤ (1 + σ) / (1 - ρ) * (k * r) := by
  have X := Ha.input
  have X' := Hb.input
  obtain ⟨U, hU, _⟩ := C17_unique_solution X.problem X.wellPosed
  obtain ⟨V, hV, _⟩ := C17_unique_solution X'.problem X'.wellPosed
  have hUV := exact_ratio X X' hk hpts hmap hU hV i hi
  rcases Ha.close hU hi with ⟨_, h1⟩ | ⟨e, r, e1, e2, e0, e3, e4⟩
  · exact Or.inl h1
  rcases Hb.close hV hi with ⟨h1, _⟩ | ⟨e', r', f1, f2, f0, f3, f4⟩
  · rw [h1, e1] at hUV; exact absurd (top_le_iff.1 hUV) WithTop.coe_ne_top
  rw [e1, f1, scl_coe] at hUV
  have h1 := WithTop.coe_le_coe.1 hUV
  have h2 := mul_le_mul_of_nonneg_left e3 hk.le
  exact Or.inr ⟨r, r', e2, f2, law_le (e := k * e) Ha.2.1 Hb.nonneg h1 (by linarith) f4⟩

/-- **C106**, changes far away (C71): let two maps be the same (starting points, obstacles, crossing times) in every cell that one of the two results reaches by the time `θ`, up to its relative
error.  Then every cell that the first result reaches before `(1-ρ)θ` has the same time in the second, up to the two relative errors. -/
theorem C106_far_changes (Ha : Computed64 dims g h v pts ρ a) (Hb : Computed64 dims g' h' v' pts' σ b) (θ : ℝ)
    (hag : ∀ (j : Nat) (t : ℝ), j < dims.prod → (((a.value j).1 = fin t ∧ t ≤ (1 + ρ) * θ) ∨ ((b.value j).1 = fin t ∧ t ≤ (1 + σ) * θ)) →
      (j ∈ pts' ↔ j ∈ pts) ∧ g'.occ j = g.occ j ∧ (g.occ j = false → h' / v' j = h / v j))
    (i : Nat) (hi : i < dims.prod) (r : ℝ) (hr : (a.value i).1 = fin r) (hlt : r < (1 - ρ) * θ) :
    ∃ r' : ℝ, (b.value i).1 = fin r' ∧ r' ≤ (1 + σ) / (1 - ρ) * r ∧ r ≤ (1 + ρ) / (1 - σ) * r' := by
  have X := Ha.input
  have X' := Hb.input
  obtain ⟨U, hU, _⟩ := C17_unique_solution X.problem X.wellPosed
  obtain ⟨V, hV, _⟩ := C17_unique_solution X'.problem X'.wellPosed
  have hρ0 := Ha.nonneg
  have hσ0 := Hb.nonneg
  have hρ1 := Ha.2.1
  have hUV : ∀ j, j < dims.prod → U j < (θ : WithTop ℝ) → V j ≤ U j := by
    refine fun j hj => exact_local_le X X' hU hV ?_ j hj
    intro k hk hk'
    rcases Ha.close hU hk with ⟨h0, _⟩ | ⟨e, t, e1, e2, e0, e3, e4⟩
    · rw [h0] at hk'; exact absurd hk' not_top_lt
    · rw [e1] at hk'
      have h1 := WithTop.coe_lt_coe.1 hk'
      exact hag k t hk (Or.inl ⟨e2, le_trans e4 (mul_le_mul_of_nonneg_left h1.le (by linarith))⟩)
  have hVU : ∀ j, j < dims.prod → V j < (θ : WithTop ℝ) → U j ≤ V j := by
    refine fun j hj => exact_local_le X' X hV hU ?_ j hj
    intro k hk hk'
    rcases Hb.close hV hk with ⟨h0, _⟩ | ⟨e, t, e1, e2, e0, e3, e4⟩
    · rw [h0] at hk'; exact absurd hk' not_top_lt
    · rw [e1] at hk'
      have h1 := WithTop.coe_lt_coe.1 hk'
      obtain ⟨k1, k2, k3⟩ := hag k t hk (Or.inr ⟨e2, le_trans e4 (mul_le_mul_of_nonneg_left h1.le (by linarith))⟩)
      exact ⟨k1.symm, k2.symm, fun ho => (k3 (k2 ▸ ho)).symm⟩
  rcases Ha.close hU hi with ⟨_, h0⟩ | ⟨e, t, e1, e2, e0, e3, e4⟩
  · rw [hr] at h0; cases h0
  rw [hr] at e2
  obtain rfl : r = t := by injection e2
  have hlt' : e < θ := by
    by_contra hc
    have := mul_le_mul_of_nonneg_left (not_lt.1 hc) (show 0 ≤ 1 - ρ by linarith)
    linarith
  have hUi : U i < (θ : WithTop ℝ) := by rw [e1]; exact WithTop.coe_lt_coe.2 hlt'
  have h1 := hUV i hi hUi
  have heq : V i = U i := le_antisymm h1 (hVU i hi (lt_of_le_of_lt h1 hUi))
  rcases Hb.close hV hi with ⟨h0, _⟩ | ⟨e', r', f1, f2, f0, f3, f4⟩
  · rw [heq, e1] at h0; exact absurd h0 WithTop.coe_ne_top
  rw [heq, e1] at f1
  obtain rfl : e = e' := WithTop.coe_injective f1
  exact ⟨r', f2, law_le Ha.2.1 Hb.nonneg le_rfl e3 f4, law_le Hb.2.1 Ha.nonneg le_rfl f3 e4⟩

/-- **C106**, clear lines (C86). -/
theorem C106_clear_line (Ha : Computed64 dims g h v pts ρ a) (p : Nat) (hp : p ∈ pts) (τ : ℝ) (i : Nat) (y : ℝ) (hl : ClearLine dims g h v τ p i y) :
    ∃ t : ℝ, (a.value i).1 = fin t ∧ t ≤ (1 + ρ) * (τ * y) := by
  have X := Ha.input
  have hl' : ClearLine dims (gridX g) h v τ p i y := by
    induction hl with
    | nil => exact .nil _
    | snoc _ hi hb ih => exact .snoc ih hi hb
  obtain ⟨U, hU, _⟩ := C17_unique_solution X.problem X.wellPosed
  obtain ⟨hi, hle⟩ := exact_le_line X hU (X.inside p hp) hl'
  have h0 : U p = 0 := (X.exSol hU p (X.inside p hp)).1 hp
  rw [h0, zero_add] at hle
  rcases Ha.close hU hi with ⟨h0, _⟩ | ⟨e, t, e1, e2, e0, e3, e4⟩
  · rw [h0] at hle; exact absurd (top_le_iff.1 hle) WithTop.coe_ne_top
  · rw [e1] at hle
    have := WithTop.coe_le_coe.1 hle
    exact ⟨t, e2, le_trans e4 (mul_le_mul_of_nonneg_left this (by linarith [Ha.nonneg]))⟩

/-- **C106**, never slower than a walk (C87). -/
theorem C106_at_most_walk (Ha : Computed64 dims g h v pts ρ a) (p : Nat) (hp : p ∈ pts) (i : Nat) (y : ℝ) (w : Walk dims g h v p i y) :
    ∃ t : ℝ, (a.value i).1 = fin t ∧ t ≤ (1 + ρ) * y := by
  have X := Ha.input
  obtain ⟨U, hU, _⟩ := C17_unique_solution X.problem X.wellPosed
  have hle := exact_le_walk X hU hp (walk_gridX.2 w)
  rcases Ha.close hU (Walk.lt (X.inside p hp) w) with ⟨h0, _⟩ | ⟨e, t, e1, e2, e0, e3, e4⟩
  · rw [h0] at hle; exact absurd (top_le_iff.1 hle) WithTop.coe_ne_top
  · rw [e1] at hle
    exact ⟨t, e2, le_trans e4 (mul_le_mul_of_nonneg_left (WithTop.coe_le_coe.1 hle) (by linarith [Ha.nonneg]))⟩

/-- **C106**, not much faster than walking (C87). -/
theorem C106_some_walk (Ha : Computed64 dims g h v pts ρ a) (i : Nat) (hi : i < dims.prod) (t : ℝ) (ht : (a.value i).1 = fin t) :
    ∃ p ∈ pts, ∃ y, Walk dims g h v p i y ∧ (1 - ρ) * y ≤ Real.sqrt dims.length * t := by
  have X := Ha.input
  obtain ⟨U, hU, _⟩ := C17_unique_solution X.problem X.wellPosed
  rcases Ha.close hU hi with ⟨_, h1⟩ | ⟨e, t', e1, e2, e0, e3, e4⟩
  · rw [h1] at ht; cases ht
  rw [e2] at ht; cases ht
  obtain ⟨p, hp, y, hw, hb⟩ := exact_walk X hU hi e1
  refine ⟨p, hp, y, walk_gridX.1 hw, ?_⟩
  have h1 := mul_le_mul_of_nonneg_left hb (show 0 ≤ 1 - ρ by linarith [Ha.2.1])
  have h4 := mul_le_mul_of_nonneg_left e3 (Real.sqrt_nonneg (dims.length : ℝ))
  calc (1 - ρ) * y ≤ (1 - ρ) * (Real.sqrt dims.length * e) := h1
    _ = Real.sqrt dims.length * ((1 - ρ) * e) := by ring
    _ ≤ _ := h4

theorem reachIn_walk {d i : Nat} {c : ℝ} (hc : ∀ i, i < dims.prod → g.occ i = false → h / v i ≤ c)
    (hr : ReachIn dims (Shape.mk' dims).idx2coord (fun j => g.occ j = false) (fun j => j ∈ pts) d i) : ∃ p ∈ pts, ∃ y, Walk dims g h v p i y ∧ y ≤ d * c := by
  induction hr with
  | start hp _ => exact ⟨_, hp, 0, .stay, by simp⟩
  | move _ hj ho ha ih =>
    obtain ⟨p, hp, y, w, hy⟩ := ih
    refine ⟨p, hp, _, .step w hj ha ho, ?_⟩
    have := hc _ hj ho
    push_cast
    linarith

theorem walk_reach {p i : Nat} {y : ℝ} (hp : p ∈ pts) (hlt : p < dims.prod) (w : Walk dims g h v p i y) : reach dims g pts i := by
  induction w with
  | stay => exact .start hp hlt
  | step _ hi ha ho ih => exact .move ih hi ho ha

/-- **C106**, times (C87): if every cell connected to a start is so by at most `K` moves and no cell takes more than `c` to cross, no finite computed time exceeds `(1+ρ) K c`. -/
theorem C106_time_bound (Ha : Computed64 dims g h v pts ρ a) (K : Nat) (hK : Within dims g pts K) (c : ℝ) (hc0 : 0 ≤ c)
    (hc : ∀ i, i < dims.prod → g.occ i = false → h / v i ≤ c) (i : Nat) (hi : i < dims.prod) (t : ℝ) (ht : (a.value i).1 = fin t) : t ≤ (1 + ρ) * (K * c) := by
  obtain ⟨p, hp, y, w, _⟩ := C106_some_walk Ha i hi t ht
  obtain ⟨d, hd, hr⟩ := hK i (walk_reach hp (Ha.input.inside p hp) w)
  obtain ⟨q, hq, z, w', hz⟩ := reachIn_walk (h := h) (v := v) hc hr
  obtain ⟨t', e1, e2⟩ := C106_at_most_walk Ha q hq i z w'
  rw [ht] at e1
  obtain rfl : t = t' := by injection e1
  refine le_trans e2 (mul_le_mul_of_nonneg_left (le_trans hz ?_) (by linarith [Ha.nonneg]))
  exact mul_le_mul_of_nonneg_right (by exact_mod_cast hd) hc0

/-- **C106**, no false basins (C69), with a condition on the input alone: all crossing times between `c₀` and `c`, every connected cell within `K` moves of a start, and a relative error `ρ` with
`2ρ(1+ρ) K c √D < (1-ρ) c₀`. -/
theorem C106_no_false_basins (Ha : Computed64 dims g h v pts ρ a) (K : Nat) (hK : Within dims g pts K) (c₀ c : ℝ) (hc0 : 0 ≤ c)
    (hc : ∀ i, i < dims.prod → g.occ i = false → c₀ ≤ h / v i ∧ h / v i ≤ c) (hgap : 2 * ρ * ((1 + ρ) * (K * c)) * Real.sqrt dims.length < (1 - ρ) * c₀)
    (next : Nat → Nat) (hn : MovesDown dims (Shape.mk' dims).idx2coord (fun i => toT (a.value i).1) next) (i : Nat) (hi : i < dims.prod) (hr : (a.value i).1 ≠ pinf) :
    Arrives dims (fun i => toT (a.value i).1) (fun i => g.occ i = false) (fun i => i ∈ pts) next i := by
  refine C106_descent_arrives Ha ?_ next hn i hi hr
  intro j r hj ho hjr
  have hD : (0:ℝ) < dims.length := by have := Ha.input.fits.two; positivity
  have hs := Real.sqrt_pos.2 hD
  have h1 := C106_time_bound Ha K hK c hc0 (fun i hi ho => (hc i hi ho).2) j hj r hjr
  have h2 : 2 * ρ * r ≤ 2 * ρ * ((1 + ρ) * (K * c)) := mul_le_mul_of_nonneg_left h1 (by linarith [Ha.nonneg])
  have h3 : 2 * ρ * r * Real.sqrt dims.length ≤ 2 * ρ * ((1 + ρ) * (K * c)) * Real.sqrt dims.length := mul_le_mul_of_nonneg_right h2 hs.le
  have h4 : (1 - ρ) * c₀ ≤ (1 - ρ) * (h / v j) := mul_le_mul_of_nonneg_left (hc j hj ho).1 (by linarith [Ha.2.1])
  rw [← mul_div_assoc, lt_div_iff₀ hs]
  linarith

end laws
/-- non-vacuity: the results of `Computed64.exists_small` (empty 2x2 map) meet the condition of `C106_no_false_basins` with all cells within 3 moves -/
example : ∃ (g a : Grid (F64 Rounding.nearest)) (ρ : ℝ), Computed64 [2,2] g 1 (fun _ => 1) [0] ρ a ∧ Within [2,2] g [0] 3 ∧
    2 * ρ * ((1 + ρ) * (((3:Nat):ℝ) * 1)) * Real.sqrt (([2,2] : List Nat).length) < (1 - ρ) * 1 ∧ (∀ i, i < 4 → ∃ r : ℝ, (a.value i).1 = fin r) ∧
    ∃ next, MovesDown [2,2] (Shape.mk' [2,2]).idx2coord (fun i => toT (a.value i).1) next := by
  obtain ⟨g, a, b, c, ρ, ha, hb, hc, hρ, ho, _⟩ := Computed64.exists_small
  refine ⟨g, a, ρ, ha, DInput.within_cells ha.input, ?_, ?_, exists_movesDown _ _ _ ?_⟩
  · have h0 := ha.nonneg
    have h2 : Real.sqrt (([2,2] : List Nat).length) ≤ 2 := by
      rw [Real.sqrt_le_left (by norm_num)]; norm_num
    have h3 : 2 * ρ * ((1 + ρ) * (((3:Nat):ℝ) * 1)) ≤ 2 * (1/50) * ((1 + 1/50) * 3) := by
      push_cast
      gcongr
      linarith
    have h4 : 0 ≤ 2 * ρ * ((1 + ρ) * (((3:Nat):ℝ) * 1)) := by positivity
    have h5 := mul_le_mul h3 h2 (Real.sqrt_nonneg _) (by norm_num)
    generalize 2 * ρ * ((1 + ρ) * (((3:Nat):ℝ) * 1)) * Real.sqrt (([2,2] : List Nat).length) = q at *
    norm_num at h5
    linarith
  · intro i hi
    obtain ⟨U, hU, _⟩ := C17_unique_solution ha.input.problem ha.input.wellPosed
    rcases ha.close hU hi with ⟨h1, _⟩ | ⟨_, r, _, h2, _⟩
    · rw [(exact_open ha.input ho hU hi).2] at h1; exact absurd h1 WithTop.coe_ne_top
    · exact ⟨r, h2⟩
  · intro i hi
    have h4 : i = 0 ∨ i = 1 ∨ i = 2 ∨ i = 3 := by
      have : i < 4 := hi
      omega
    have : ∃ j, j ∈ (Shape.mk' [2,2]).nbrs i := by
      rcases h4 with rfl | rfl | rfl | rfl
      · exact ⟨1, by decide⟩
      · exact ⟨0, by decide⟩
      · exact ⟨0, by decide⟩
      · exact ⟨1, by decide⟩
    obtain ⟨j, hj⟩ := this
    exact ⟨j, (axisAdjacent_iff ha.input.fits hi).1 hj⟩
end FMV
