import Verif.Lemmas.Funnel1
import Verif.Props.OpenMap
/-!
# C79: extracting a path always succeeds (open maps)
-/
set_option linter.unusedSectionVars false
set_option linter.unusedVariables false
namespace FMV
open Spec Shape XR FMM Off
variable {dims : List Nat} {g : Grid XR} {h v0 : ℝ} {v : Nat → ℝ} {s : Nat}

theorem FinalGrid.start_zero {pts : List Nat} (X : XInput dims g h v pts) (hfr : Fresh g) {a : Grid XR} (ha : FinalGrid dims g pts a) {i : Nat} (hi : i ∈ pts) :
    a.value i = fin 0 := by
  cases ha with
  | fmm h1 h2 h3 h4 => exact C10_FMM_partial X hfr h2 _ h1 _ _ h3 i hi
  | fsm h1 h2 h3 h4 h5 => exact C10_FSM X hfr _ _ _ _ h2 _ _ h3 i hi
  | lsm h1 h2 h3 h4 h5 => exact C10_LSM X hfr _ _ _ _ h2 _ _ h3 i hi
  | ddqm h1 h2 h3 => exact C10_DDQM X hfr _ _ _ _ _ h2 i hi
  | fim h1 h2 h3 h4 => exact C10_FIM_partial X h2 hfr 0 (le_refl _) _ _ _ h3 i hi

theorem FinalGrid.sameMap {pts : List Nat} (X : XInput dims g h v pts) {a : Grid XR} (ha : FinalGrid dims g pts a) : SameMap g a := by
  cases ha with
  | fmm h1 h2 h3 h4 => exact C20_FMM _ _ _ _ _ _ (Steps.mono (fun _ _ h => h.any) h3)
  | fsm h1 h2 h3 h4 h5 => exact C20_FSM _ _ _ _ _ _ _ _ _ h3
  | lsm h1 h2 h3 h4 h5 => exact C20_LSM _ _ _ _ _ _ _ _ _ h3
  | ddqm h1 h2 h3 => exact C20_DDQM _ _ _ _ _ _ _ _ h2
  | fim h1 h2 h3 h4 => exact C20_FIM _ _ _ dims _ _ ⟨X.fits, X.shape, X.inside⟩ _ _ h3

theorem coordN_digit (hf : Fits dims (2^31+1)) {c k : Nat} (hc : c < dims.prod) (hk : k < dims.length) : coordN dims c k = digit dims c k := by
  unfold coordN
  rw [idx2coord_eq (hf.mono (by norm_num)) hc, List.getD_eq_getElem _ _ (by simpa using hk)]; simp

/-- the offsets of the two neighbours in dimension `i` -/
theorem off_sides (hf : Fits dims (2^31+1)) {s c i : Nat} (hc : Inner dims 1 c) (hi : i < dims.length) :
    (coordN dims s i ≤ coordN dims c i → s < dims.prod → off dims s (c + strideProd dims i) = up (off dims s c) i) ∧
    (coordN dims s i < coordN dims c i → s < dims.prod → 0 < off dims s c i ∧ off dims s (c - strideProd dims i) = tow (off dims s c) i) ∧
    (coordN dims c i ≤ coordN dims s i → s < dims.prod → off dims s (c - strideProd dims i) = up (off dims s c) i) ∧
    (coordN dims c i < coordN dims s i → s < dims.prod → 0 < off dims s c i ∧ off dims s (c + strideProd dims i) = tow (off dims s c) i) := by
  obtain ⟨n1, n2, n3⟩ := C35_reads_neighbours hf hc.1 hi (hc.2 i hi).1 (hc.2 i hi).2
  have hb : ∀ k, k < dims.length → digit dims (c + strideProd dims i) k = digit dims c k + (if k = i then 1 else 0) := fun k hk => by
    have := (n3 k hk).1
    change coordN dims _ k = coordN dims _ k + _ at this
    rw [coordN_digit hf n2 hk, coordN_digit hf hc.1 hk] at this; exact this
  have ha : ∀ k, k < dims.length → digit dims (c - strideProd dims i) k + (if k = i then 1 else 0) = digit dims c k := fun k hk => by
    have := (n3 k hk).2
    change coordN dims _ k + _ = coordN dims _ k at this
    rw [coordN_digit hf (by have := hc.1; omega) hk, coordN_digit hf hc.1 hk] at this; exact this
  have key : ∀ (x y : Nat → Nat), (∀ k, k < dims.length → x k = y k) → (∀ k, ¬ k < dims.length → x k = y k) → x = y := fun x y h1 h2 => by
    funext k
    by_cases hk : k < dims.length
    · exact h1 k hk
    · exact h2 k hk
  have hout : ∀ (y k : Nat), ¬ k < dims.length → off dims s y k = 0 := fun y k hk => if_neg hk
  refine ⟨fun h hs => ?_, fun h hs => ?_, fun h hs => ?_, fun h hs => ?_⟩
  all_goals rw [coordN_digit hf hs hi, coordN_digit hf hc.1 hi] at h
  · refine key _ _ (fun k hk => ?_) (fun k hk => ?_)
    · unfold up
      by_cases hki : k = i
      · subst hki; rw [Function.update_self, off_of_lt hk, off_of_lt hk, hb k hk, if_pos rfl]; omega
      · rw [Function.update_of_ne hki, off_of_lt hk, off_of_lt hk, hb k hk, if_neg hki]; omega
    · unfold up; rw [Function.update_of_ne (by rintro rfl; exact hk hi), hout _ _ hk, hout _ _ hk]
  · refine ⟨by rw [off_of_lt hi]; omega, key _ _ (fun k hk => ?_) (fun k hk => ?_)⟩
    · unfold tow
      have := ha k hk
      by_cases hki : k = i
      · subst hki; rw [if_pos rfl] at this; rw [Function.update_self, off_of_lt hk, off_of_lt hk]; omega
      · rw [if_neg hki] at this; rw [Function.update_of_ne hki, off_of_lt hk, off_of_lt hk]; omega
    · unfold tow; rw [Function.update_of_ne (by rintro rfl; exact hk hi), hout _ _ hk, hout _ _ hk]
  · refine key _ _ (fun k hk => ?_) (fun k hk => ?_)
    · unfold up
      have := ha k hk
      by_cases hki : k = i
      · subst hki; rw [if_pos rfl] at this; rw [Function.update_self, off_of_lt hk, off_of_lt hk]; omega
      · rw [if_neg hki] at this; rw [Function.update_of_ne hki, off_of_lt hk, off_of_lt hk]; omega
    · unfold up; rw [Function.update_of_ne (by rintro rfl; exact hk hi), hout _ _ hk, hout _ _ hk]
  · refine ⟨by rw [off_of_lt hi]; omega, key _ _ (fun k hk => ?_) (fun k hk => ?_)⟩
    · unfold tow
      by_cases hki : k = i
      · subst hki; rw [Function.update_self, off_of_lt hk, off_of_lt hk, hb k hk, if_pos rfl]; omega
      · rw [Function.update_of_ne hki, off_of_lt hk, off_of_lt hk, hb k hk, if_neg hki]; omega
    · unfold tow; rw [Function.update_of_ne (by rintro rfl; exact hk hi), hout _ _ hk, hout _ _ hk]

/-- in one direction the time falls by at least `c / sqrt n` -/
theorem w_steep {n : Nat} {c : ℝ} (hc : 0 < c) {x : Nat → Nat} (he : ∃ k, k < n ∧ 0 < x k) : ∃ k, k < n ∧ 0 < x k ∧ w n c (tow x k) + c / √n ≤ w n c x := by
  have hn : 0 < n := by obtain ⟨k, hk, _⟩ := he; omega
  have hs := w_spec hc he
  unfold residL ms at hs
  rw [List.map_map, sum_map_range] at hs
  have : ∃ k ∈ Finset.range n, c^2 / n ≤ (posSq (w n c x) ∘ fun k => if 0 < x k then ((w n c (tow x k) : ℝ) : WithTop ℝ) else ⊤) k := by
    by_contra hcon
    push Not at hcon
    have h1 := Finset.sum_lt_sum_of_nonempty ⟨0, Finset.mem_range.2 hn⟩ hcon
    rw [hs, Finset.sum_const, Finset.card_range, nsmul_eq_mul] at h1
    have hn' : (n:ℝ) ≠ 0 := by exact_mod_cast hn.ne'
    have h2 : (n:ℝ) * (c^2 / n) = c^2 := by field_simp
    rw [h2] at h1
    exact lt_irrefl _ h1
  obtain ⟨k, hk, hle⟩ := this
  have hcn : 0 < c^2 / n := by positivity
  have hn0 : (0:ℝ) < n := by exact_mod_cast hn
  by_cases h0 : 0 < x k
  · refine ⟨k, Finset.mem_range.1 hk, h0, ?_⟩
    simp only [Function.comp, if_pos h0, posSq_coe] at hle
    have e1 : (c / √n)^2 = c^2 / n := by rw [div_pow, Real.sq_sqrt hn0.le]
    rw [← e1] at hle
    have := sq_le_sq.1 hle
    have hq : 0 < c / √n := by positivity
    rw [abs_of_pos hq, abs_of_nonneg (le_max_right _ _)] at this
    rcases le_max_iff.1 this with h | h
    · linarith
    · linarith
  · simp only [Function.comp, if_neg h0, posSq_top] at hle
    linarith

/-- times that are those of an open map up to `E` form a funnel -/
theorem open_funnel (hf : Fits dims (2^31+1)) {T : Nat → XR} {c E : ℝ} (hc : 0 < c) (hE : 0 ≤ E) (hs : s < dims.prod) (hz : T s = fin 0)
    (hT : ∀ i, i < dims.prod → ∃ r, T i = fin r ∧ w dims.length c (off dims s i) ≤ r ∧ r ≤ w dims.length c (off dims s i) + E) :
    GD.Funnel dims T s (E/2) (c / (2 * √dims.length) - E/2) := by
  have hoff : ∀ {i}, i < dims.prod → i ≠ s → ∃ k, k < dims.length ∧ 0 < off dims s i k := fun {i} hi hne => by
    by_contra hcon
    exact hne ((off_zero hf hi hs).1 hcon)
  have hn0 : 0 < dims.length := by have := hf.two; omega
  have hn : (0:ℝ) < dims.length := by exact_mod_cast hn0
  refine ⟨hz, fun i hi hne => ?_, fun i hi hne => ?_⟩
  · obtain ⟨r, h1, h2, _⟩ := hT i hi
    obtain ⟨k, _, _, h3⟩ := w_steep hc (hoff hi hne)
    have hw := w_nonneg (n := dims.length) (c := c) (tow (off dims s i) k)
    have : 0 < c / √(dims.length : ℝ) := by positivity
    exact ⟨r, h1, by intro h; linarith⟩
  · have hside : ∀ k, k < dims.length → strideProd dims k ≤ i ∧ i + strideProd dims k < dims.prod := fun k hk => by
      obtain ⟨n1, n2, _⟩ := C35_reads_neighbours hf hi.1 hk (hi.2 k hk).1 (hi.2 k hk).2
      exact ⟨n1, n2⟩
    choose! R hR1 hR2 hR3 using hT
    have ha : ∀ k, k < dims.length → i - strideProd dims k < dims.prod := fun k hk => by have := hi.1; omega
    refine ⟨fun k => (R (i + strideProd dims k) - R (i - strideProd dims k)) / 2, fun k hk => ?_, fun k hk => ⟨fun hle => ?_, fun hle => ?_⟩, ?_⟩
    · exact .inl ⟨_, _, hR1 _ (ha k hk), hR1 _ (hside k hk).2, rfl⟩
    · have b1 := hR2 _ (hside k hk).2
      have a1 := hR3 _ (ha k hk)
      obtain ⟨o1, o2, o3, o4⟩ := off_sides hf (s := s) hi hk
      rw [o1 hle hs] at b1
      have : w dims.length c (off dims s (i - strideProd dims k)) ≤ w dims.length c (up (off dims s i) k) := by
        rcases hle.lt_or_eq with hlt | heq
        · obtain ⟨p1, p2⟩ := o2 hlt hs
          rw [p2]
          have q1 := w_mono hc _ (tow (off dims s i) k) rfl k hk
          rw [up_tow p1] at q1
          exact q1.trans (w_mono hc _ _ rfl k hk)
        · rw [o3 heq.ge hs]
      linarith
    · have b1 := hR3 _ (hside k hk).2
      have a1 := hR2 _ (ha k hk)
      obtain ⟨o1, o2, o3, o4⟩ := off_sides hf (s := s) hi hk
      rw [o3 hle hs] at a1
      have : w dims.length c (off dims s (i + strideProd dims k)) ≤ w dims.length c (up (off dims s i) k) := by
        rcases hle.lt_or_eq with hlt | heq
        · obtain ⟨p1, p2⟩ := o4 hlt hs
          rw [p2]
          have q1 := w_mono hc _ (tow (off dims s i) k) rfl k hk
          rw [up_tow p1] at q1
          exact q1.trans (w_mono hc _ _ rfl k hk)
        · rw [o1 heq.ge hs]
      linarith
    · obtain ⟨k, hk, hk0, hst⟩ := w_steep hc (hoff hi.1 hne)
      refine ⟨k, hk, ?_⟩
      obtain ⟨o1, o2, o3, o4⟩ := off_sides hf (s := s) hi hk
      have e2 : c / (2 * √(dims.length : ℝ)) = c / √(dims.length : ℝ) / 2 := by rw [mul_comm, div_div]
      have hup := w_mono hc _ (off dims s i) rfl k hk
      rcases lt_trichotomy (coordN dims i k) (coordN dims s k) with hlt | heq | hgt
      · have b1 := hR3 _ (hside k hk).2
        have a1 := hR2 _ (ha k hk)
        rw [(o4 hlt hs).2] at b1
        rw [o3 hlt.le hs] at a1
        have : (R (i + strideProd dims k) - R (i - strideProd dims k)) / 2 ≤ -(c / (2 * √(dims.length:ℝ)) - E / 2) := by rw [e2]; linarith
        exact le_trans (by linarith) (neg_le_abs _)
      · exfalso
        rw [coordN_digit hf hi.1 hk, coordN_digit hf hs hk] at heq
        rw [off_of_lt hk] at hk0
        omega
      · have b1 := hR2 _ (hside k hk).2
        have a1 := hR3 _ (ha k hk)
        rw [o1 hgt.le hs] at b1
        rw [(o2 hgt hs).2] at a1
        have : c / (2 * √(dims.length:ℝ)) - E / 2 ≤ (R (i + strideProd dims k) - R (i - strideProd dims k)) / 2 := by rw [e2]; linarith
        exact this.trans (le_abs_self _)

/-- **C79** (on open maps): no obstacles, one speed, one start at least two cells from the border.  On the times computed by any of FMM, FSM, LSM, DDQM and FIM, gradient
descent with a step below 1 from any cell that is not on the border returns a path to the start - no endless loop, no access outside the grid, no undefined conversion -
if the rounding margin is small enough for the map: with `E = N * COMP_MARGIN` the slope error and `m = h / (2 v sqrt n) - E`, the condition is that
`e = δ * E / m` (what a coordinate can drift in one step) is small compared with `min δ (1-δ)`, summed over the dimensions and over the steps. -/
theorem C79_open_map_partial (X : XInput dims g h v [s]) (hfr : Fresh g) (ho : Open dims g v v0) (a : Grid XR) (ha : FinalGrid dims g [s] a)
    (hS : Inner dims 2 s) (idx : Nat) (hI : Inner dims 1 idx) (δ E m e : ℝ) (h0 : 0 < δ) (h1 : δ < 1) (hE : E = dims.prod * eps)
    (hm : m = h / v0 / (2 * √dims.length) - E) (hEm : E < m) (he : e = δ * E / m)
    (hsmall : (axisDist dims idx s + 1) * (2 * e) < min δ (1 - δ) - dims.length * e) :
    ∃ path vels, GD.Runs a idx (fin δ) path vels s := by
  obtain ⟨U, hU, _⟩ := C17_unique_solution X.problem X.wellPosed
  have hs : s < dims.prod := X.inside s (by simp)
  obtain ⟨hc, _⟩ := exact_open X ho hU hs
  have he0 : 0 < eps := by unfold XR.eps; norm_num
  have hE0 : 0 ≤ E := by rw [hE]; positivity
  have Fu : GD.Funnel dims a.value s (2 * E / 2) (h / v0 / (2 * √dims.length) - 2 * E / 2) := by
    refine open_funnel X.fits hc (by linarith) hs (ha.start_zero X hfr (by simp)) (fun i hi => ?_)
    obtain ⟨_, eU⟩ := exact_open X ho hU hi
    rcases ha.exact X hfr hU hi with ⟨k0, k1⟩ | ⟨e, r, e1, e2, e3, e4⟩
    · rw [eU] at k0; exact absurd k0 WithTop.coe_ne_top
    rw [eU] at e1
    have q1 : _ = e := WithTop.coe_injective e1
    rw [← q1] at e3 e4
    exact ⟨r, e2, e3, by rw [hE]; linarith⟩
  have e1 : 2 * E / 2 = E := by ring
  rw [e1, ← hm] at Fu
  exact GD.funnel_runs X.fits ((ha.sameMap X).shape.trans X.shape) Fu hE0 hEm h0 h1 he rfl hS hI hsmall

/-- **C79** for the exact times and every step up to the default 1: on an open map with one start at least two cells from the border, if the grid holds the exact solution of
the discretised equation, gradient descent from any cell that is not on the border returns a path to the start. -/
theorem C79_exact_times_partial (X : XInput dims g h v [s]) (ho : Open dims g v v0) (U : Nat → WithTop ℝ) (hU : X.problem.IsSolution U) (a : Grid XR) (hsh : a.shape = g.shape)
    (ha : ∀ i, i < dims.prod → ∃ r : ℝ, a.value i = fin r ∧ U i = (r : WithTop ℝ)) (hS : Inner dims 2 s) (idx : Nat) (hI : Inner dims 1 idx) (δ : ℝ) (h0 : 0 < δ) (h1 : δ ≤ 1) :
    ∃ path vels, GD.Runs a idx (fin δ) path vels s := by
  have hs : s < dims.prod := X.inside s (by simp)
  obtain ⟨hc, _⟩ := exact_open X ho hU hs
  have hn0 : 0 < dims.length := by have := X.fits.two; omega
  have hn : (0:ℝ) < dims.length := by exact_mod_cast hn0
  have Fu := open_funnel (T := a.value) (E := 0) X.fits hc (le_refl _) hs (by
    obtain ⟨r, e1, e2⟩ := ha s hs
    rw [(hU s hs).1 (by show s ∈ [s]; simp)] at e2
    rw [e1, show r = 0 from (WithTop.coe_injective e2).symm]) (fun i hi => by
    obtain ⟨_, eU⟩ := exact_open X ho hU hi
    obtain ⟨r, e1, e2⟩ := ha i hi
    rw [eU] at e2
    have q1 : _ = r := WithTop.coe_injective e2
    exact ⟨r, e1, q1.le, by rw [q1]; linarith⟩)
  rw [zero_div, sub_zero] at Fu
  exact GD.funnel_runs1 (hs := hsh.trans X.shape) X.fits Fu (by positivity) h0 h1 hS hI

/-- non-vacuity: the exact solution of the empty 5x5 map, written into the grid; the default step -/
example : ∃ (g a : Grid XR) (X : XInput [5,5] g 1 (fun _ => 1) [12]) (U : Nat → WithTop ℝ), X.problem.IsSolution U ∧ (∀ i, i < 25 → ∃ r : ℝ, a.value i = fin r ∧ U i = (r : WithTop ℝ)) ∧
    ∃ path vels, GD.Runs a 6 (fin 1) path vels 12 := by
  have X : XInput [5,5] (Grid.create [5,5] (fin 1) (0,0)) 1 (fun _ => 1) [12] :=
    ⟨⟨by decide, by decide, by decide⟩, by decide, rfl, by decide, one_pos, rfl, fun _ _ _ => rfl⟩
  have hop : Open [5,5] (Grid.create [5,5] (fin 1) (0,0)) (fun _ => 1) 1 := by
    intro i _
    have e : eps < 1 := by unfold XR.eps; norm_num
    exact ⟨by show decide ((1:ℝ) < eps) = false; exact decide_eq_false (not_lt.2 e.le), rfl⟩
  obtain ⟨U, hU, _⟩ := C17_unique_solution X.problem X.wellPosed
  have hval : ∀ i, i < 25 → ∃ r : ℝ, (XR.fin (U i).untopA) = fin r ∧ U i = (r : WithTop ℝ) := fun i hi => by
    obtain ⟨_, e⟩ := exact_open X hop hU (i := i) hi
    exact ⟨_, rfl, by rw [e]; rfl⟩
  let a : Grid XR := { Grid.create [5,5] (fin 1) (0,0) with cells := fun i => { (Grid.create (F := XR) [5,5] (fin 1) (0,0)).cells i with value := fin (U i).untopA } }
  refine ⟨_, a, X, U, hU, hval, ?_⟩
  have hin : ∀ i, i < 2 → 2 ≤ coordN [5,5] 12 i ∧ coordN [5,5] 12 i + 2 < [5,5].getD i 0 := by decide
  have hin' : ∀ i, i < 2 → 1 ≤ coordN [5,5] 6 i ∧ coordN [5,5] 6 i + 1 < [5,5].getD i 0 := by decide
  exact C79_exact_times_partial X hop U hU a rfl hval ⟨by decide, hin⟩ 6 ⟨by decide, hin'⟩ 1 one_pos (le_refl _)

/-- non-vacuity: the empty 5x5 map, the start in the middle, the path from cell 6 = (1, 1), step 1/2 -/
example : ∃ (g : Grid XR) (_ : XInput [5,5] g 1 (fun _ => 1) [12]), Fresh g ∧ Open [5,5] g (fun _ => 1) 1 ∧ (∃ a, FinalGrid [5,5] g [12] a) ∧
    ∀ a, FinalGrid [5,5] g [12] a → ∃ path vels, GD.Runs a 6 (fin (1/2)) path vels 12 := by
  have X : XInput [5,5] (Grid.create [5,5] (fin 1) (0,0)) 1 (fun _ => 1) [12] :=
    ⟨⟨by decide, by decide, by decide⟩, by decide, rfl, by decide, one_pos, rfl, fun _ _ _ => rfl⟩
  have hfr : Fresh (Grid.create (F := XR) [5,5] (fin 1) (0,0)) := ⟨fun _ => rfl, fun _ => rfl, fun _ => rfl⟩
  have hop : Open [5,5] (Grid.create [5,5] (fin 1) (0,0)) (fun _ => 1) 1 := by
    intro i _
    have e : eps < 1 := by unfold XR.eps; norm_num
    exact ⟨by show decide ((1:ℝ) < eps) = false; exact decide_eq_false (not_lt.2 e.le), rfl⟩
  obtain ⟨⟨n, s, hs, hd⟩, _⟩ := C27_DDQM_exact X hfr noGoal (fin 1) (fin 1)
  refine ⟨_, X, hfr, hop, ⟨s.g, .ddqm (by decide) hs hd⟩, fun a ha => ?_⟩
  have hin : ∀ i, i < 2 → 2 ≤ coordN [5,5] 12 i ∧ coordN [5,5] 12 i + 2 < [5,5].getD i 0 := by decide
  have hin' : ∀ i, i < 2 → 1 ≤ coordN [5,5] 6 i ∧ coordN [5,5] 6 i + 1 < [5,5].getD i 0 := by decide
  have hax : axisDist [5,5] 6 12 = 2 := by
    unfold axisDist
    have a0 : coordN [5,5] 6 0 = 1 := by decide
    have a1 : coordN [5,5] 6 1 = 1 := by decide
    have b0 : coordN [5,5] 12 0 = 2 := by decide
    have b1 : coordN [5,5] 12 1 = 2 := by decide
    simp only [List.length_cons, List.length_nil, Finset.sum_range_succ, Finset.sum_range_zero, a0, a1, b0, b1]
    norm_num
  have hsq : √(2:ℝ) < 3/2 := by rw [Real.sqrt_lt' (by norm_num)]; norm_num
  have hsq0 : 0 < √(2:ℝ) := by positivity
  have hE : (25:ℝ) * eps ≤ 1/1000 := by unfold XR.eps; norm_num
  have hE0 : (0:ℝ) < 25 * eps := by unfold XR.eps; norm_num
  have hq : 1/3 ≤ 1 / (2 * √(2:ℝ)) := one_div_le_one_div_of_le (by positivity) (by linarith)
  have hm : (1/4 : ℝ) ≤ 1 / (2 * √(2:ℝ)) - 25 * eps := by linarith
  refine C79_open_map_partial X hfr hop a ha ⟨by decide, hin⟩ 6 ⟨by decide, hin'⟩ (1/2) (25 * eps) (1 / (2 * √(2:ℝ)) - 25 * eps) _ (by norm_num) (by norm_num)
    (by norm_num [List.prod_cons]) (by norm_num) (by linarith) rfl ?_
  have he : 1/2 * (25 * eps) / (1 / (2 * √(2:ℝ)) - 25 * eps) ≤ 1/500 := by
    rw [div_le_iff₀ (by linarith)]; linarith
  rw [hax]
  norm_num at he ⊢
  linarith

end FMV
