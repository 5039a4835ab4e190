import Verif.Lemmas.Approx
import Verif.Lemmas.FMMExact
/-! Group marching with a small time step: the invariant of the wave in terms of times (fm/gmm.hpp), exact arithmetic. -/
set_option linter.unusedSectionVars false
set_option linter.unusedVariables false
namespace FMV
open Spec Shape XR FMM
namespace GMM
variable {dims : List Nat} {g : Grid XR} {h : ℝ} {v : Nat → ℝ} {pts : List Nat}

/-- the times below `b` -/
noncomputable def trunc (b : ℝ) (T : Nat → WithTop ℝ) (j : Nat) : WithTop ℝ := open Classical in if T j < (b : WithTop ℝ) then T j else ⊤

theorem le_trunc (b : ℝ) (T : Nat → WithTop ℝ) (j : Nat) : T j ≤ trunc b T j := by
  unfold trunc; split
  · exact le_refl _
  · exact le_top

/-- `t` is at most (up to the margin) every time that the neighbours' times `T` can explain at `y` -/
def SCv (X : XInput dims g h v pts) (T : Nat → WithTop ℝ) (y : Nat) (t : WithTop ℝ) : Prop :=
  ∀ Y : ℝ, (h / v y)^2 ≤ residL Y (mins (Shape.mk' dims) T y) → t ≤ ((Y + eps : ℝ) : WithTop ℝ)

theorem resid_anti {s : Shape} {T T' : Nat → WithTop ℝ} {i : Nat} (hT : ∀ j ∈ s.nbrs i, T j ≤ T' j) (Y : ℝ) :
    residL Y (mins s T' i) ≤ residL Y (mins s T i) := by
  unfold mins
  apply residL_le_map
  intro k hk
  apply posSq_anti
  apply le_dimMin
  intro j hj
  exact le_trans (dimMin_le hj) (hT j (mem_nbrs.2 ⟨k, List.mem_range.1 hk, hj⟩))

theorem SCv.mono {X : XInput dims g h v pts} {T T' : Nat → WithTop ℝ} {y : Nat} {t t' : WithTop ℝ} (hs : SCv X T y t)
    (hT : ∀ j ∈ (Shape.mk' dims).nbrs y, T j ≤ T' j) (ht : t' ≤ t) : SCv X T' y t' :=
  fun Y hY => le_trans ht (hs Y (le_trans hY (resid_anti hT Y)))

/-- splitting the residual at `b` -/
theorem resid_split {s : Shape} (T : Nat → WithTop ℝ) (i : Nat) {b t : ℝ} :
    residL t (mins s T i) ≤ residL t (mins s (trunc b T) i) + s.ndims * (max (t - b) 0)^2 := by
  have key : ∀ k, posSq t (dimMin s T i k) ≤ posSq t (dimMin s (trunc b T) i k) + (max (t - b) 0)^2 := by
    intro k
    by_cases hb : dimMin s T i k < (b : WithTop ℝ)
    · obtain ⟨j, hj, e⟩ := dimMin_attained (ne_top_of_lt hb)
      have : dimMin s (trunc b T) i k ≤ dimMin s T i k := by
        refine le_trans (dimMin_le hj) ?_
        rw [e] at hb ⊢
        unfold trunc; rw [if_pos hb]
      have := posSq_anti t this
      nlinarith [sq_nonneg (max (t - b) 0)]
    · have h1 := posSq_anti t (not_lt.1 hb)
      rw [posSq_coe] at h1
      linarith [posSq_nonneg t (dimMin s (trunc b T) i k)]
  unfold mins
  generalize s.ndims = n
  induction n with
  | zero => simp
  | succ n ih =>
    unfold residL at ih ⊢
    rw [List.range_succ]
    simp only [List.map_append, List.sum_append, List.map_cons, List.map_nil, List.sum_cons, List.sum_nil, add_zero]
    have := key n
    push_cast
    linarith

/-- the constants of the analysis: `bz` is the time below which nothing changes any more -/
noncomputable def kap (n : Nat) (d : ℝ) : ℝ := Real.sqrt n * (d + eps) + eps
noncomputable def bz (n : Nat) (d τ : ℝ) : ℝ := τ - d - kap n d - eps

/-- what one round of the wave keeps -/
structure RB (X : XInput dims g h v pts) (d τ : ℝ) (rest : List Nat) (T : Nat → WithTop ℝ) (st : Nat → FMState) : Prop where
  obs : ∀ y, y < dims.prod → g.occ y = true → st y ≠ .frozen → T y = ⊤
  flo : ∀ y, y < dims.prod → st y ≠ .frozen → ((bz dims.length d τ : ℝ) : WithTop ℝ) ≤ T y
  i2 : ∀ y, y < dims.prod → g.occ y = false → st y ≠ .frozen → SCv X (XInput.Tf T st) y (T y)
  k : ∀ y, y < dims.prod → g.occ y = false → st y ≠ .frozen →
    SCv X (trunc (bz dims.length d τ) T) y ((bz dims.length d τ + eps : ℝ) : WithTop ℝ)
  j : ∀ y, y < dims.prod → g.occ y = false → st y ≠ .frozen → y ∉ rest →
    SCv X (trunc (bz dims.length d τ) T) y (τ : WithTop ℝ) ∧ ((bz dims.length d τ + (d + eps) : ℝ) : WithTop ℝ) ≤ T y
  fz : ∀ y, y < dims.prod → g.occ y = false → st y = .frozen → y ∉ pts →
    ∃ b : ℝ, b ≤ bz dims.length d τ ∧ T y ≤ ((b + (d + kap dims.length d + eps) : ℝ) : WithTop ℝ) ∧ SCv X (trunc b T) y (T y)

/-- the step is small enough -/
structure Small (X : XInput dims g h v pts) (d : ℝ) : Prop where
  pos : 0 < d
  le : ∀ i, i < dims.prod → g.occ i = false → Real.sqrt dims.length * (d + eps) ≤ h / v i

/-- effect of an update of `y` -/
structure Upd (X : XInput dims g h v pts) (y : Nat) (T T' : Nat → WithTop ℝ) : Prop where
  other : ∀ z, z ≠ y → T' z = T z
  self : T' y = min (T y) (upd (h / v y) (T y) (mins (Shape.mk' dims) T y))

theorem Upd.le {X : XInput dims g h v pts} {y : Nat} {T T' : Nat → WithTop ℝ} (u : Upd X y T T') (z : Nat) : T' z ≤ T z := by
  by_cases e : z = y
  · rw [e, u.self]; exact min_le_left _ _
  · rw [u.other z e]

theorem Upd.scv {X : XInput dims g h v pts} {y : Nat} {T T' : Nat → WithTop ℝ} (u : Upd X y T T') (hy : y < dims.prod)
    (ho : g.occ y = false) : SCv X T y (T' y) := by
  intro Y hY
  rw [u.self]
  by_cases hlt : (Y : WithTop ℝ) < T y
  · obtain ⟨w, hw, hle⟩ := upd_upper (X.cpos hy ho) hlt hY
    refine le_trans (min_le_right _ _) ?_
    rw [hw]; exact_mod_cast hle
  · refine le_trans (min_le_left _ _) (le_trans (not_lt.1 hlt) ?_)
    have : Y ≤ Y + eps := by linarith [eps_pos]
    exact_mod_cast this

theorem ndims_mk (dims : List Nat) : (Shape.mk' dims).ndims = dims.length := rfl

/-- nothing falls below `bz` -/
theorem RB.upd_flo {X : XInput dims g h v pts} {d τ : ℝ} {rest : List Nat} {T : Nat → WithTop ℝ} {st : Nat → FMState} (R : RB X d τ rest T st)
    {y : Nat} (hy : y < dims.prod) (ho : g.occ y = false) (hf : st y ≠ .frozen) :
    ((bz dims.length d τ : ℝ) : WithTop ℝ) ≤ upd (h / v y) (T y) (mins (Shape.mk' dims) T y) := by
  by_contra hlt
  obtain ⟨t, ht⟩ := WithTop.ne_top_iff_exists.1 (ne_top_of_lt (not_le.1 hlt))
  rw [← ht] at hlt
  have hlt' : t < bz dims.length d τ := by exact_mod_cast not_le.1 hlt
  have h1 := upd_lower (X.cpos hy ho) ht.symm
  have h2 := resid_split (s := Shape.mk' dims) T y (b := bz dims.length d τ) (t := t)
  rw [max_eq_right (by linarith)] at h2
  have := R.k y hy ho hf t (by nlinarith)
  have : bz dims.length d τ + eps ≤ t + eps := by exact_mod_cast this
  linarith

/-- a cell already treated in this round stays above the next `bz` -/
theorem RB.upd_flo2 {X : XInput dims g h v pts} {d τ : ℝ} {rest : List Nat} {T : Nat → WithTop ℝ} {st : Nat → FMState} (R : RB X d τ rest T st)
    (hs : Small X d) {y : Nat} (hy : y < dims.prod) (ho : g.occ y = false) (hf : st y ≠ .frozen) (hr : y ∉ rest) :
    ((bz dims.length d τ + (d + eps) : ℝ) : WithTop ℝ) ≤ upd (h / v y) (T y) (mins (Shape.mk' dims) T y) := by
  by_contra hlt
  obtain ⟨t, ht⟩ := WithTop.ne_top_iff_exists.1 (ne_top_of_lt (not_le.1 hlt))
  have hge := R.upd_flo hy ho hf
  rw [← ht] at hlt hge
  have hlt' : t < bz dims.length d τ + (d + eps) := by exact_mod_cast not_le.1 hlt
  have hge' : bz dims.length d τ ≤ t := by exact_mod_cast hge
  have hc := X.cpos hy ho
  have hcs := hs.le y hy ho
  have hd := hs.pos
  have he := eps_pos
  have h1 := upd_lower hc ht.symm
  have h2 := resid_split (s := Shape.mk' dims) T y (b := bz dims.length d τ) (t := t)
  rw [max_eq_left (by linarith), ndims_mk] at h2
  set c := h / v y with hcdef
  set n : ℝ := (dims.length : ℝ) with hn
  have hn1 : 1 ≤ n := by
    have h2 := X.fits.two
    have : (2:ℝ) ≤ n := by rw [hn]; exact_mod_cast h2
    linarith
  set q := Real.sqrt n with hq
  have hqq : q^2 = n := Real.sq_sqrt (by linarith)
  have hq0 : 0 < q := Real.sqrt_pos.2 (by linarith)
  set R0 := residL t (mins (Shape.mk' dims) (trunc (bz dims.length d τ) T) y) with hR0
  have hR0n : 0 ≤ R0 := residL_nonneg _ _
  -- the part that is not settled is small
  have h3 : n * (t - bz dims.length d τ)^2 < n * (d + eps)^2 := by
    have : (t - bz dims.length d τ)^2 < (d + eps)^2 := by
      apply pow_lt_pow_left₀ (by linarith) (by linarith) (by norm_num)
    nlinarith
  have hcsq : n * (d + eps)^2 ≤ c^2 := by
    have : (q * (d + eps))^2 ≤ c^2 := pow_le_pow_left₀ (by positivity) hcs 2
    rw [mul_pow, hqq] at this; exact this
  have hpos : 0 < R0 := by linarith
  set a := Real.sqrt R0 with ha
  have haa : a^2 = R0 := Real.sq_sqrt hR0n
  have ha0 : 0 < a := Real.sqrt_pos.2 hpos
  obtain ⟨j1, _⟩ := R.j y hy ho hf hr
  have hkap : kap dims.length d = q * (d + eps) + eps := rfl
  have hbz : bz dims.length d τ = τ - d - kap dims.length d - eps := rfl
  by_cases hac : c ≤ a
  · have : c^2 ≤ R0 := by rw [← haa]; exact pow_le_pow_left₀ hc.le hac 2
    have := j1 t this
    have : τ ≤ t + eps := by exact_mod_cast this
    have : 0 < q * (d + eps) := by positivity
    linarith
  · have hac' := not_le.1 hac
    have hg := residL_grow (X := t) (ms := mins (Shape.mk' dims) (trunc (bz dims.length d τ) T) y) ha0 (d := c - a) (by linarith) (by rw [haa])
    rw [show a + (c - a) = c by ring] at hg
    have := j1 _ hg
    have : τ ≤ t + (c - a) + eps := by exact_mod_cast this
    -- c - a is less than q (d+eps)
    have hca : c - a < q * (d + eps) := by
      by_contra hcon
      have hcon' := not_lt.1 hcon
      have h5 : (c - a) * (c + a) < n * (d + eps)^2 := by nlinarith
      have h6 : q * (d + eps) * (q * (d + eps)) ≤ (c - a) * (c + a) := by
        apply mul_le_mul hcon' (by linarith) (by positivity) (by linarith)
      have : q * (d + eps) * (q * (d + eps)) = n * (d + eps)^2 := by rw [← hqq]; ring
      linarith
    linarith

theorem trunc_upd {X : XInput dims g h v pts} {d τ : ℝ} {rest : List Nat} {T T' : Nat → WithTop ℝ} {st : Nat → FMState} (R : RB X d τ rest T st)
    {y : Nat} (hy : y < dims.prod) (ho : g.occ y = false) (hf : st y ≠ .frozen) (u : Upd X y T T') {b : ℝ} (hb : b ≤ bz dims.length d τ) :
    trunc b T' = trunc b T := by
  funext z
  unfold trunc
  by_cases e : z = y
  · subst e
    have hb' : (b : WithTop ℝ) ≤ ((bz dims.length d τ : ℝ) : WithTop ℝ) := by exact_mod_cast hb
    rw [if_neg (not_lt.2 (le_trans hb' (R.flo z hy hf))), if_neg]
    rw [u.self]
    exact not_lt.2 (le_min (le_trans hb' (R.flo z hy hf)) (le_trans hb' (R.upd_flo hy ho hf)))
  · rw [u.other z e]

theorem Tf_upd {T T' : Nat → WithTop ℝ} {st : Nat → FMState} {X : XInput dims g h v pts} {y : Nat} (hf : st y ≠ .frozen) (u : Upd X y T T') :
    XInput.Tf T' st = XInput.Tf T st := by
  funext z
  unfold XInput.Tf
  by_cases e : z = y
  · subst e; rw [if_neg hf, if_neg hf]
  · rw [u.other z e]

/-- an update keeps the round invariant -/
theorem RB.upd {X : XInput dims g h v pts} {d τ : ℝ} {rest : List Nat} {T T' : Nat → WithTop ℝ} {st : Nat → FMState} (R : RB X d τ rest T st)
    (hs : Small X d) {y : Nat} (hy : y < dims.prod) (ho : g.occ y = false) (hf : st y ≠ .frozen) (u : Upd X y T T') : RB X d τ rest T' st := by
  have ht : ∀ {b : ℝ}, b ≤ bz dims.length d τ → trunc b T' = trunc b T := fun hb => trunc_upd R hy ho hf u hb
  have hTf := Tf_upd hf u
  refine ⟨?_, ?_, ?_, ?_, ?_, ?_⟩
  · intro z hz hoz hfz
    have e : z ≠ y := by rintro rfl; rw [ho] at hoz; cases hoz
    rw [u.other z e]; exact R.obs z hz hoz hfz
  · intro z hz hfz
    by_cases e : z = y
    · subst e; rw [u.self]; exact le_min (R.flo z hz hfz) (R.upd_flo hz ho hf)
    · rw [u.other z e]; exact R.flo z hz hfz
  · intro z hz hoz hfz
    rw [hTf]
    exact (R.i2 z hz hoz hfz).mono (fun _ _ => le_refl _) (u.le z)
  · intro z hz hoz hfz
    rw [ht (le_refl _)]; exact R.k z hz hoz hfz
  · intro z hz hoz hfz hrz
    rw [ht (le_refl _)]
    obtain ⟨j1, j2⟩ := R.j z hz hoz hfz hrz
    refine ⟨j1, ?_⟩
    by_cases e : z = y
    · subst e; rw [u.self]; exact le_min j2 (R.upd_flo2 hs hz ho hf hrz)
    · rw [u.other z e]; exact j2
  · intro z hz hoz hfz hpz
    obtain ⟨b, b1, b2, b3⟩ := R.fz z hz hoz hfz hpz
    have e : z ≠ y := by rintro rfl; exact hf hfz
    refine ⟨b, b1, ?_, ?_⟩
    · rw [u.other z e]; exact b2
    · rw [ht b1, u.other z e]; exact b3

theorem RB.congr {X : XInput dims g h v pts} {d τ : ℝ} {rest rest' : List Nat} {T T' : Nat → WithTop ℝ} {st st' : Nat → FMState}
    (R : RB X d τ rest T st) (hT : ∀ z, T' z = T z) (hst : ∀ z, st' z = .frozen ↔ st z = .frozen)
    (hrest : ∀ z, z < dims.prod → g.occ z = false → st z ≠ .frozen → z ∉ rest' → z ∉ rest) : RB X d τ rest' T' st' := by
  have e : T' = T := funext hT
  subst e
  have hTf : XInput.Tf T' st' = XInput.Tf T' st := by
    funext z; unfold XInput.Tf
    by_cases hz : st z = .frozen
    · rw [if_pos hz, if_pos ((hst z).2 hz)]
    · rw [if_neg hz, if_neg (fun c => hz ((hst z).1 c))]
  have hn : ∀ z, st' z ≠ .frozen → st z ≠ .frozen := fun z hz c => hz ((hst z).2 c)
  refine ⟨fun y h1 h2 h3 => R.obs y h1 h2 (hn y h3), fun y h1 h3 => R.flo y h1 (hn y h3), ?_, fun y h1 h2 h3 => R.k y h1 h2 (hn y h3),
    fun y h1 h2 h3 h4 => R.j y h1 h2 (hn y h3) (hrest y h1 h2 (hn y h3) h4), fun y h1 h2 h3 h4 => R.fz y h1 h2 ((hst y).1 h3) h4⟩
  intro y h1 h2 h3
  rw [hTf]; exact R.i2 y h1 h2 (hn y h3)

/-- times below `bz` belong to frozen cells -/
theorem RB.Tf_le_trunc {X : XInput dims g h v pts} {d τ : ℝ} {rest : List Nat} {T : Nat → WithTop ℝ} {st : Nat → FMState} (R : RB X d τ rest T st)
    {b : ℝ} (hb : b ≤ bz dims.length d τ) {z : Nat} (hz : z < dims.prod) : XInput.Tf T st z ≤ trunc b T z := by
  unfold XInput.Tf trunc
  split
  · split
    · exact le_refl _
    · exact le_top
  · next hf =>
    have hb' : (b : WithTop ℝ) ≤ ((bz dims.length d τ : ℝ) : WithTop ℝ) := by exact_mod_cast hb
    rw [if_neg (not_lt.2 (le_trans hb' (R.flo z hz hf)))]

/-- a cell of the list whose time is above `tm_` is passed over -/
theorem RB.pass {X : XInput dims g h v pts} {d τ : ℝ} {x : Nat} {rest : List Nat} {T : Nat → WithTop ℝ} {st : Nat → FMState}
    (R : RB X d τ (x :: rest) T st) (hs : Small X d) (hx : (τ : WithTop ℝ) ≤ T x) : RB X d τ rest T st := by
  refine ⟨R.obs, R.flo, R.i2, R.k, ?_, R.fz⟩
  intro y hy ho hf hr
  by_cases e : y = x
  · subst e
    refine ⟨(R.i2 y hy ho hf).mono (fun j hj => R.Tf_le_trunc (le_refl _) (nbr_lt X.fits hy hj)) hx, le_trans ?_ hx⟩
    have hkap : kap dims.length d = Real.sqrt dims.length * (d + eps) + eps := rfl
    have hbz : bz dims.length d τ = τ - d - kap dims.length d - eps := rfl
    have : 0 ≤ Real.sqrt dims.length * (d + eps) := mul_nonneg (Real.sqrt_nonneg _) (by linarith [hs.pos, eps_pos])
    have : bz dims.length d τ + (d + eps) ≤ τ := by linarith [eps_pos]
    exact_mod_cast this
  · exact R.j y hy ho hf (by simp [e, hr])

/-- a cell of the list whose time is at most `tm_` is frozen after its neighbours have been updated -/
theorem RB.freeze {X : XInput dims g h v pts} {d τ : ℝ} {x : Nat} {rest : List Nat} {T : Nat → WithTop ℝ} {st st' : Nat → FMState}
    (R : RB X d τ (x :: rest) T st) (hx : T x ≤ (τ : WithTop ℝ))
    (hst : ∀ z, st' z = .frozen ↔ z = x ∨ st z = .frozen)
    (hn : ∀ j ∈ (Shape.mk' dims).nbrs x, j < dims.prod → g.occ j = false → st j ≠ .frozen → SCv X (XInput.Tf T st') j (T j)) (hxN : x < dims.prod) :
    RB X d τ rest T st' := by
  have hn' : ∀ z, st' z ≠ .frozen → st z ≠ .frozen ∧ z ≠ x := fun z hz => ⟨fun c => hz ((hst z).2 (Or.inr c)), fun c => hz ((hst z).2 (Or.inl c))⟩
  refine ⟨fun y h1 h2 h3 => R.obs y h1 h2 (hn' y h3).1, fun y h1 h3 => R.flo y h1 (hn' y h3).1, ?_, fun y h1 h2 h3 => R.k y h1 h2 (hn' y h3).1, ?_, ?_⟩
  · intro y h1 h2 h3
    by_cases hxy : y ∈ (Shape.mk' dims).nbrs x
    · exact hn y hxy h1 h2 (hn' y h3).1
    · refine (R.i2 y h1 h2 (hn' y h3).1).mono ?_ (le_refl _)
      intro j hj
      have hjx : j ≠ x := by
        rintro rfl
        exact hxy (nbrs_symm X.fits h1 hj)
      unfold XInput.Tf
      by_cases hz : st j = .frozen
      · rw [if_pos hz, if_pos ((hst j).2 (Or.inr hz))]
      · rw [if_neg hz, if_neg (fun c => by rcases (hst j).1 c with c | c; exacts [hjx c, hz c])]
  · intro y h1 h2 h3 h4
    exact R.j y h1 h2 (hn' y h3).1 (by simp [(hn' y h3).2, h4])
  · intro y h1 h2 h3 h4
    by_cases hz : st y = .frozen
    · exact R.fz y h1 h2 hz h4
    · have : y = x := ((hst y).1 h3).resolve_right hz
      subst this
      refine ⟨bz dims.length d τ, le_refl _, ?_, ?_⟩
      · refine le_trans hx ?_
        have hbz : bz dims.length d τ = τ - d - kap dims.length d - eps := rfl
        have : τ ≤ bz dims.length d τ + (d + kap dims.length d + eps) := by linarith
        exact_mod_cast this
      · exact (R.i2 y h1 h2 hz).mono (fun j hj => R.Tf_le_trunc (le_refl _) (nbr_lt X.fits h1 hj)) (le_refl _)

/-- a new round -/
theorem RB.round {X : XInput dims g h v pts} {d τ : ℝ} {gamma : List Nat} {T : Nat → WithTop ℝ} {st : Nat → FMState}
    (R : RB X d τ [] T st) (hs : Small X d) (hop : ∀ y, y < dims.prod → g.occ y = false → st y ≠ .frozen → y ∉ gamma →
      T y = ⊤ ∧ ∀ j ∈ (Shape.mk' dims).nbrs y, st j ≠ .frozen) : RB X d (τ + d) gamma T st := by
  have e1 : bz dims.length d (τ + d) = bz dims.length d τ + d := by unfold bz; ring
  have hflo : ∀ y, y < dims.prod → st y ≠ .frozen → ((bz dims.length d (τ + d) + eps : ℝ) : WithTop ℝ) ≤ T y := by
    intro y hy hf
    rw [e1]
    cases ho : g.occ y with
    | true => rw [R.obs y hy ho hf]; exact le_top
    | false =>
      have := (R.j y hy ho hf (by simp)).2
      rw [show bz dims.length d τ + d + eps = bz dims.length d τ + (d + eps) by ring]; exact this
  have hflo' : ∀ y, y < dims.prod → st y ≠ .frozen → ((bz dims.length d (τ + d) : ℝ) : WithTop ℝ) ≤ T y := by
    intro y hy hf
    refine le_trans ?_ (hflo y hy hf)
    have : bz dims.length d (τ + d) ≤ bz dims.length d (τ + d) + eps := by linarith [eps_pos]
    exact_mod_cast this
  have htr : ∀ z, z < dims.prod → XInput.Tf T st z ≤ trunc (bz dims.length d (τ + d)) T z := by
    intro z hz
    unfold XInput.Tf trunc
    split
    · split
      · exact le_refl _
      · exact le_top
    · next hf => rw [if_neg (not_lt.2 (hflo' z hz hf))]
  refine ⟨R.obs, hflo', R.i2, ?_, ?_, ?_⟩
  · intro y hy ho hf
    exact (R.i2 y hy ho hf).mono (fun j hj => htr j (nbr_lt X.fits hy hj)) (hflo y hy hf)
  · intro y hy ho hf hr
    obtain ⟨t1, t2⟩ := hop y hy ho hf hr
    refine ⟨?_, by rw [t1]; exact le_top⟩
    intro Y hY
    exfalso
    have hz : residL Y (mins (Shape.mk' dims) (trunc (bz dims.length d (τ + d)) T) y) ≤ 0 := by
      have := resid_anti (s := Shape.mk' dims) (T := fun _ => ⊤) (T' := trunc (bz dims.length d (τ + d)) T) (i := y) (by
        intro j hj
        have hjN := nbr_lt X.fits hy hj
        unfold trunc; rw [if_neg (not_lt.2 (hflo' j hjN (t2 j hj)))]) Y
      refine le_trans this ?_
      by_contra hcon
      obtain ⟨t, ht, _⟩ := residL_pos_lt (not_le.1 hcon)
      obtain ⟨_, _, e⟩ := XInput.mem_mins ht WithTop.coe_ne_top
      exact WithTop.coe_ne_top e
    have := X.csq hy ho
    linarith
  · intro y hy ho hf hp
    obtain ⟨b, b1, b2, b3⟩ := R.fz y hy ho hf hp
    exact ⟨b, by rw [e1]; linarith [hs.pos], b2, b3⟩

/-- at the end every free cell is converged up to one step, one diagonal and two margins -/
theorem RB.conv {X : XInput dims g h v pts} {d τ : ℝ} {rest : List Nat} {T : Nat → WithTop ℝ} {st : Nat → FMState}
    (R : RB X d τ rest T st) (hs : Small X d) {y : Nat} (hy : y < dims.prod) (ho : g.occ y = false) (hf : st y = .frozen) (hp : y ∉ pts) :
    X.Conv T (d + kap dims.length d + eps) y := by
  obtain ⟨b, b1, b2, b3⟩ := R.fz y hy ho hf hp
  have hk : 0 ≤ kap dims.length d := by
    unfold kap
    have := mul_nonneg (Real.sqrt_nonneg (dims.length : ℝ)) (show 0 ≤ d + eps by linarith [hs.pos, eps_pos])
    linarith [eps_pos]
  intro Y hY
  by_cases hb : b ≤ Y
  · refine le_trans b2 ?_
    have : b + (d + kap dims.length d + eps) ≤ Y + (d + kap dims.length d + eps) := by linarith
    exact_mod_cast this
  · have h2 := resid_split (s := Shape.mk' dims) T y (b := b) (t := Y)
    rw [max_eq_right (by linarith)] at h2
    refine le_trans (b3 Y (by nlinarith)) ?_
    have : Y + eps ≤ Y + (d + kap dims.length d + eps) := by linarith [hs.pos]
    exact_mod_cast this

end GMM
end FMV
