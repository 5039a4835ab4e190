import Verif.Lemmas.GMMSmall
/-! Group marching with a small time step and an approximate local solver: the invariant of the wave in terms of times (fm/gmm.hpp). The analogue of
`GMM.RB` with an error `θ` in the residual and an excess `β` of the local solver, and rounds of varying length. -/
set_option linter.unusedSectionVars false
set_option linter.unusedVariables false
namespace FMV
open Spec Shape XR FMM
namespace GMMA
open GMM (trunc le_trunc resid_anti resid_split ndims_mk)
variable {dims : List Nat} {g : Grid XR} {h : ℝ} {v : Nat → ℝ} {pts : List Nat} {θ β d : ℝ}

/-- `t` is at most (up to `β`) every time that the neighbours' times `T` can explain at `y` -/
def SCv (X : XInput dims g h v pts) (β : ℝ) (T : Nat → WithTop ℝ) (y : Nat) (t : WithTop ℝ) : Prop :=
  ∀ Y : ℝ, (h / v y)^2 ≤ residL Y (mins (Shape.mk' dims) T y) → t ≤ ((Y + β : ℝ) : WithTop ℝ)

theorem SCv.mono {X : XInput dims g h v pts} {T T' : Nat → WithTop ℝ} {y : Nat} {t t' : WithTop ℝ} (hs : SCv X β T y t)
    (hT : ∀ j ∈ (Shape.mk' dims).nbrs y, T j ≤ T' j) (ht : t' ≤ t) : SCv X β T' y t' :=
  fun Y hY => le_trans ht (hs Y (le_trans hY (resid_anti hT Y)))

/-- the constants of the analysis: `bz` is the time below which nothing changes any more; `e` is `θ + β` -/
noncomputable def kap (n : Nat) (e d : ℝ) : ℝ := Real.sqrt n * (d + e) + e
noncomputable def bz (n : Nat) (e d τ : ℝ) : ℝ := τ - d - kap n e d - e

/-- what one round of the wave keeps -/
structure RB (X : XInput dims g h v pts) (θ β d τ : ℝ) (rest : List Nat) (T : Nat → WithTop ℝ) (st : Nat → FMState) : Prop where
  obs : ∀ y, y < dims.prod → g.occ y = true → st y ≠ .frozen → T y = ⊤
  flo : ∀ y, y < dims.prod → st y ≠ .frozen → ((bz dims.length (θ + β) d τ : ℝ) : WithTop ℝ) ≤ T y
  i2 : ∀ y, y < dims.prod → g.occ y = false → st y ≠ .frozen → SCv X β (XInput.Tf T st) y (T y)
  k : ∀ y, y < dims.prod → g.occ y = false → st y ≠ .frozen →
    SCv X β (trunc (bz dims.length (θ + β) d τ) T) y ((bz dims.length (θ + β) d τ + (θ + β) : ℝ) : WithTop ℝ)
  j : ∀ y, y < dims.prod → g.occ y = false → st y ≠ .frozen → y ∉ rest →
    SCv X β (trunc (bz dims.length (θ + β) d τ) T) y (τ : WithTop ℝ) ∧ ((bz dims.length (θ + β) d τ + (d + (θ + β)) : ℝ) : WithTop ℝ) ≤ T y
  fz : ∀ y, y < dims.prod → g.occ y = false → st y = .frozen → y ∉ pts →
    ∃ b : ℝ, b ≤ bz dims.length (θ + β) d τ ∧ T y ≤ ((b + (d + kap dims.length (θ + β) d + (θ + β)) : ℝ) : WithTop ℝ) ∧ SCv X β (trunc b T) y (T y)

/-- the step is small enough -/
structure Small (X : XInput dims g h v pts) (θ β d : ℝ) : Prop where
  d0 : 0 ≤ d
  θ0 : 0 ≤ θ
  β0 : 0 < β
  le : ∀ i, i < dims.prod → g.occ i = false → Real.sqrt dims.length * (d + (θ + β)) ≤ h / v i - θ

theorem Small.e0 {X : XInput dims g h v pts} (hs : Small X θ β d) : 0 < θ + β := by linarith [hs.θ0, hs.β0]

theorem sqrt_len_pos (X : XInput dims g h v pts) : 0 < Real.sqrt (dims.length : ℝ) := by
  apply Real.sqrt_pos.2
  have := X.fits.two
  exact_mod_cast (by omega : 0 < dims.length)

theorem Small.qpos {X : XInput dims g h v pts} (hs : Small X θ β d) : 0 < Real.sqrt dims.length * (d + (θ + β)) :=
  mul_pos (sqrt_len_pos X) (by linarith [hs.e0, hs.d0])

theorem Small.cpos {X : XInput dims g h v pts} (hs : Small X θ β d) {i : Nat} (hi : i < dims.prod) (ho : g.occ i = false) : 0 < h / v i - θ :=
  lt_of_lt_of_le hs.qpos (hs.le i hi ho)

/-- effect of an update of `y` -/
structure Upd (X : XInput dims g h v pts) (θ β : ℝ) (y : Nat) (s : WithTop ℝ) (T T' : Nat → WithTop ℝ) : Prop where
  other : ∀ z, z ≠ y → T' z = T z
  self : T' y = min (T y) s
  apr : Apr (h / v y) θ β (T y) (mins (Shape.mk' dims) T y) s

theorem Upd.le {X : XInput dims g h v pts} {y : Nat} {s : WithTop ℝ} {T T' : Nat → WithTop ℝ} (u : Upd X θ β y s T T') (z : Nat) : T' z ≤ T z := by
  by_cases e : z = y
  · rw [e, u.self]; exact min_le_left _ _
  · rw [u.other z e]

theorem Upd.scv {X : XInput dims g h v pts} {y : Nat} {s : WithTop ℝ} {T T' : Nat → WithTop ℝ} (u : Upd X θ β y s T T') (hβ : 0 < β) : SCv X β T y (T' y) := by
  intro Y hY
  rw [u.self]
  by_cases hlt : (Y : WithTop ℝ) < T y
  · exact le_trans (min_le_right _ _) (u.apr.upper Y hlt hY)
  · refine le_trans (min_le_left _ _) (le_trans (not_lt.1 hlt) ?_)
    have : Y ≤ Y + β := by linarith
    exact_mod_cast this

/-- nothing falls below `bz` -/
theorem RB.upd_flo {X : XInput dims g h v pts} {τ : ℝ} {rest : List Nat} {T : Nat → WithTop ℝ} {st : Nat → FMState} (R : RB X θ β d τ rest T st)
    (hs : Small X θ β d) {y : Nat} (hy : y < dims.prod) (ho : g.occ y = false) (hf : st y ≠ .frozen) {s : WithTop ℝ}
    (ap : Apr (h / v y) θ β (T y) (mins (Shape.mk' dims) T y) s) : ((bz dims.length (θ + β) d τ : ℝ) : WithTop ℝ) ≤ s := by
  by_contra hlt
  obtain ⟨t, ht⟩ := WithTop.ne_top_iff_exists.1 (ne_top_of_lt (not_le.1 hlt))
  rw [← ht] at hlt
  have hlt' : t < bz dims.length (θ + β) d τ := by exact_mod_cast not_le.1 hlt
  have h1 := ap.lower t ht.symm
  have h2 := resid_split (s := Shape.mk' dims) T y (b := bz dims.length (θ + β) d τ) (t := t)
  rw [max_eq_right (by linarith)] at h2
  have h3 : (h / v y - θ)^2 ≤ residL t (mins (Shape.mk' dims) (trunc (bz dims.length (θ + β) d τ) T) y) := by
    have : ((Shape.mk' dims).ndims : ℝ) * 0^2 = 0 := by ring
    linarith
  have hg := residL_grow (hs.cpos hy ho) hs.θ0 h3
  rw [sub_add_cancel] at hg
  have := R.k y hy ho hf _ hg
  have : bz dims.length (θ + β) d τ + (θ + β) ≤ t + θ + β := by exact_mod_cast this
  linarith

/-- a cell already treated in this round stays above the next `bz` -/
theorem RB.upd_flo2 {X : XInput dims g h v pts} {τ : ℝ} {rest : List Nat} {T : Nat → WithTop ℝ} {st : Nat → FMState} (R : RB X θ β d τ rest T st)
    (hs : Small X θ β d) {y : Nat} (hy : y < dims.prod) (ho : g.occ y = false) (hf : st y ≠ .frozen) (hr : y ∉ rest) {s : WithTop ℝ}
    (ap : Apr (h / v y) θ β (T y) (mins (Shape.mk' dims) T y) s) :
    ((bz dims.length (θ + β) d τ + (d + (θ + β)) : ℝ) : WithTop ℝ) ≤ s := by
  by_contra hlt
  obtain ⟨t, ht⟩ := WithTop.ne_top_iff_exists.1 (ne_top_of_lt (not_le.1 hlt))
  have hge := R.upd_flo hs hy ho hf ap
  rw [← ht] at hlt hge
  have hlt' : t < bz dims.length (θ + β) d τ + (d + (θ + β)) := by exact_mod_cast not_le.1 hlt
  have hge' : bz dims.length (θ + β) d τ ≤ t := by exact_mod_cast hge
  have hc := hs.cpos hy ho
  have hcs := hs.le y hy ho
  have hd := hs.d0
  have he := hs.e0
  have hθ := hs.θ0
  have hβ := hs.β0
  have h1 := ap.lower t ht.symm
  have h2 := resid_split (s := Shape.mk' dims) T y (b := bz dims.length (θ + β) d τ) (t := t)
  rw [max_eq_left (by linarith), ndims_mk] at h2
  obtain ⟨j1, _⟩ := R.j y hy ho hf hr
  have hkap : kap dims.length (θ + β) d = Real.sqrt dims.length * (d + (θ + β)) + (θ + β) := rfl
  have hbz : bz dims.length (θ + β) d τ = τ - d - kap dims.length (θ + β) d - (θ + β) := rfl
  set e := θ + β with hedef
  set n : ℝ := (dims.length : ℝ) with hn
  have hn1 : 1 ≤ n := by
    have h2 := X.fits.two
    have : (2:ℝ) ≤ n := by rw [hn]; exact_mod_cast h2
    linarith
  set q := Real.sqrt n with hq
  have hqq : q^2 = n := Real.sq_sqrt (by linarith)
  have hq0 : 0 < q := Real.sqrt_pos.2 (by linarith)
  set R0 := residL t (mins (Shape.mk' dims) (trunc (bz dims.length e d τ) T) y) with hR0
  have hR0n : 0 ≤ R0 := residL_nonneg _ _
  -- the part that is not settled is small
  have h3 : n * (t - bz dims.length e d τ)^2 < n * (d + e)^2 := by
    have : (t - bz dims.length e d τ)^2 < (d + e)^2 := by
      apply pow_lt_pow_left₀ (by linarith) (by linarith) (by norm_num)
    nlinarith
  set c := h / v y - θ with hcdef
  have hcsq : n * (d + e)^2 ≤ c^2 := by
    have : (q * (d + e))^2 ≤ c^2 := pow_le_pow_left₀ (by positivity) hcs 2
    rw [mul_pow, hqq] at this; exact this
  have hpos : 0 < R0 := by linarith
  set a := Real.sqrt R0 with ha
  have haa : a^2 = R0 := Real.sq_sqrt hR0n
  have ha0 : 0 < a := Real.sqrt_pos.2 hpos
  have hqde : 0 < q * (d + e) := by positivity
  have hcc : h / v y = c + θ := by rw [hcdef]; ring
  rw [SCv, hcc] at j1
  by_cases hac : c ≤ a
  · have hg := residL_grow (X := t) (ms := mins (Shape.mk' dims) (trunc (bz dims.length e d τ) T) y) ha0 (d := θ) hθ (by rw [haa])
    have : (c + θ)^2 ≤ (a + θ)^2 := pow_le_pow_left₀ (by linarith) (by linarith) 2
    have := j1 _ (le_trans this hg)
    have : τ ≤ t + θ + β := by exact_mod_cast this
    linarith
  · have hac' := not_le.1 hac
    have hg := residL_grow (X := t) (ms := mins (Shape.mk' dims) (trunc (bz dims.length e d τ) T) y) ha0 (d := c + θ - a) (by linarith) (by rw [haa])
    rw [show a + (c + θ - a) = c + θ by ring] at hg
    have := j1 _ hg
    have : τ ≤ t + (c + θ - a) + β := by exact_mod_cast this
    -- c - a is less than q (d+e)
    have hca : c - a < q * (d + e) := by
      by_contra hcon
      have hcon' := not_lt.1 hcon
      have h5 : (c - a) * (c + a) < n * (d + e)^2 := by nlinarith
      have h6 : q * (d + e) * (q * (d + e)) ≤ (c - a) * (c + a) := by
        apply mul_le_mul hcon' (by linarith) (by positivity) (by linarith)
      have : q * (d + e) * (q * (d + e)) = n * (d + e)^2 := by rw [← hqq]; ring
      linarith
    linarith

theorem trunc_upd {X : XInput dims g h v pts} {τ : ℝ} {rest : List Nat} {T T' : Nat → WithTop ℝ} {st : Nat → FMState} (R : RB X θ β d τ rest T st)
    (hs : Small X θ β d) {y : Nat} (hy : y < dims.prod) (ho : g.occ y = false) (hf : st y ≠ .frozen) {s : WithTop ℝ} (u : Upd X θ β y s T T') {b : ℝ}
    (hb : b ≤ bz dims.length (θ + β) d τ) : trunc b T' = trunc b T := by
  funext z
  unfold trunc
  by_cases e : z = y
  · subst e
    have hb' : (b : WithTop ℝ) ≤ ((bz dims.length (θ + β) d τ : ℝ) : WithTop ℝ) := by exact_mod_cast hb
    rw [if_neg (not_lt.2 (le_trans hb' (R.flo z hy hf))), if_neg]
    rw [u.self]
    exact not_lt.2 (le_min (le_trans hb' (R.flo z hy hf)) (le_trans hb' (R.upd_flo hs hy ho hf u.apr)))
  · rw [u.other z e]

theorem Tf_upd {T T' : Nat → WithTop ℝ} {st : Nat → FMState} {X : XInput dims g h v pts} {y : Nat} (hf : st y ≠ .frozen) {s : WithTop ℝ}
    (u : Upd X θ β y s T T') : XInput.Tf T' st = XInput.Tf T st := by
  funext z
  unfold XInput.Tf
  by_cases e : z = y
  · subst e; rw [if_neg hf, if_neg hf]
  · rw [u.other z e]

/-- an update keeps the round invariant -/
theorem RB.upd {X : XInput dims g h v pts} {τ : ℝ} {rest : List Nat} {T T' : Nat → WithTop ℝ} {st : Nat → FMState} (R : RB X θ β d τ rest T st)
    (hs : Small X θ β d) {y : Nat} (hy : y < dims.prod) (ho : g.occ y = false) (hf : st y ≠ .frozen) {s : WithTop ℝ} (u : Upd X θ β y s T T') :
    RB X θ β d τ rest T' st := by
  have ht : ∀ {b : ℝ}, b ≤ bz dims.length (θ + β) d τ → trunc b T' = trunc b T := fun hb => trunc_upd R hs hy ho hf u hb
  have hTf := Tf_upd hf u
  refine ⟨?_, ?_, ?_, ?_, ?_, ?_⟩
  · intro z hz hoz hfz
    have e : z ≠ y := by rintro rfl; rw [ho] at hoz; cases hoz
    rw [u.other z e]; exact R.obs z hz hoz hfz
  · intro z hz hfz
    by_cases e : z = y
    · subst e; rw [u.self]; exact le_min (R.flo z hz hfz) (R.upd_flo hs hz ho hf u.apr)
    · rw [u.other z e]; exact R.flo z hz hfz
  · intro z hz hoz hfz
    rw [hTf]
    exact (R.i2 z hz hoz hfz).mono (fun _ _ => le_refl _) (u.le z)
  · intro z hz hoz hfz
    rw [ht (le_refl _)]; exact R.k z hz hoz hfz
  · intro z hz hoz hfz hrz
    rw [ht (le_refl _)]
    obtain ⟨j1, j2⟩ := R.j z hz hoz hfz hrz
    refine ⟨j1, ?_⟩
    by_cases e : z = y
    · subst e; rw [u.self]; exact le_min j2 (R.upd_flo2 hs hz ho hf hrz u.apr)
    · rw [u.other z e]; exact j2
  · intro z hz hoz hfz hpz
    obtain ⟨b, b1, b2, b3⟩ := R.fz z hz hoz hfz hpz
    have e : z ≠ y := by rintro rfl; exact hf hfz
    refine ⟨b, b1, ?_, ?_⟩
    · rw [u.other z e]; exact b2
    · rw [ht b1, u.other z e]; exact b3

theorem RB.congr {X : XInput dims g h v pts} {τ : ℝ} {rest rest' : List Nat} {T T' : Nat → WithTop ℝ} {st st' : Nat → FMState}
    (R : RB X θ β d τ rest T st) (hT : ∀ z, T' z = T z) (hst : ∀ z, st' z = .frozen ↔ st z = .frozen)
    (hrest : ∀ z, z < dims.prod → g.occ z = false → st z ≠ .frozen → z ∉ rest' → z ∉ rest) : RB X θ β d τ rest' T' st' := by
  have e : T' = T := funext hT
  subst e
  have hTf : XInput.Tf T' st' = XInput.Tf T' st := by
    funext z; unfold XInput.Tf
    by_cases hz : st z = .frozen
    · rw [if_pos hz, if_pos ((hst z).2 hz)]
    · rw [if_neg hz, if_neg (fun c => hz ((hst z).1 c))]
  have hn : ∀ z, st' z ≠ .frozen → st z ≠ .frozen := fun z hz c => hz ((hst z).2 c)
  refine ⟨fun y h1 h2 h3 => R.obs y h1 h2 (hn y h3), fun y h1 h3 => R.flo y h1 (hn y h3), ?_, fun y h1 h2 h3 => R.k y h1 h2 (hn y h3),
    fun y h1 h2 h3 h4 => R.j y h1 h2 (hn y h3) (hrest y h1 h2 (hn y h3) h4), fun y h1 h2 h3 h4 => R.fz y h1 h2 ((hst y).1 h3) h4⟩
  intro y h1 h2 h3
  rw [hTf]; exact R.i2 y h1 h2 (hn y h3)

/-- times below `bz` belong to frozen cells -/
theorem RB.Tf_le_trunc {X : XInput dims g h v pts} {τ : ℝ} {rest : List Nat} {T : Nat → WithTop ℝ} {st : Nat → FMState} (R : RB X θ β d τ rest T st)
    {b : ℝ} (hb : b ≤ bz dims.length (θ + β) d τ) {z : Nat} (hz : z < dims.prod) : XInput.Tf T st z ≤ trunc b T z := by
  unfold XInput.Tf trunc
  split
  · split
    · exact le_refl _
    · exact le_top
  · next hf =>
    have hb' : (b : WithTop ℝ) ≤ ((bz dims.length (θ + β) d τ : ℝ) : WithTop ℝ) := by exact_mod_cast hb
    rw [if_neg (not_lt.2 (le_trans hb' (R.flo z hz hf)))]

theorem bz_next (hs0 : 0 ≤ Real.sqrt dims.length * (d + (θ + β))) (he : 0 < θ + β) (τ : ℝ) :
    bz dims.length (θ + β) d τ + (d + (θ + β)) ≤ τ := by
  unfold bz kap; linarith

/-- a cell of the list whose time is above `tm_` is passed over -/
theorem RB.pass {X : XInput dims g h v pts} {τ : ℝ} {x : Nat} {rest : List Nat} {T : Nat → WithTop ℝ} {st : Nat → FMState}
    (R : RB X θ β d τ (x :: rest) T st) (hs : Small X θ β d) (hx : (τ : WithTop ℝ) ≤ T x) : RB X θ β d τ rest T st := by
  refine ⟨R.obs, R.flo, R.i2, R.k, ?_, R.fz⟩
  intro y hy ho hf hr
  by_cases e : y = x
  · subst e
    refine ⟨(R.i2 y hy ho hf).mono (fun j hj => R.Tf_le_trunc (le_refl _) (nbr_lt X.fits hy hj)) hx, le_trans ?_ hx⟩
    exact_mod_cast bz_next hs.qpos.le hs.e0 τ
  · exact R.j y hy ho hf (by simp [e, hr])

/-- a cell of the list whose time is at most `tm_` is frozen after its neighbours have been updated -/
theorem RB.freeze {X : XInput dims g h v pts} {τ : ℝ} {x : Nat} {rest : List Nat} {T : Nat → WithTop ℝ} {st st' : Nat → FMState}
    (R : RB X θ β d τ (x :: rest) T st) (hx : T x ≤ (τ : WithTop ℝ))
    (hst : ∀ z, st' z = .frozen ↔ z = x ∨ st z = .frozen)
    (hn : ∀ j ∈ (Shape.mk' dims).nbrs x, j < dims.prod → g.occ j = false → st j ≠ .frozen → SCv X β (XInput.Tf T st') j (T j)) (hxN : x < dims.prod) :
    RB X θ β d τ rest T st' := by
  have hn' : ∀ z, st' z ≠ .frozen → st z ≠ .frozen ∧ z ≠ x := fun z hz => ⟨fun c => hz ((hst z).2 (Or.inr c)), fun c => hz ((hst z).2 (Or.inl c))⟩
  refine ⟨fun y h1 h2 h3 => R.obs y h1 h2 (hn' y h3).1, fun y h1 h3 => R.flo y h1 (hn' y h3).1, ?_, fun y h1 h2 h3 => R.k y h1 h2 (hn' y h3).1, ?_, ?_⟩
  · intro y h1 h2 h3
    by_cases hxy : y ∈ (Shape.mk' dims).nbrs x
    · exact hn y hxy h1 h2 (hn' y h3).1
    · refine (R.i2 y h1 h2 (hn' y h3).1).mono ?_ (le_refl _)
      intro j hj
      have hjx : j ≠ x := by
        rintro rfl
        exact hxy (nbrs_symm X.fits h1 hj)
      unfold XInput.Tf
      by_cases hz : st j = .frozen
      · rw [if_pos hz, if_pos ((hst j).2 (Or.inr hz))]
      · rw [if_neg hz, if_neg (fun c => by rcases (hst j).1 c with c | c; exacts [hjx c, hz c])]
  · intro y h1 h2 h3 h4
    exact R.j y h1 h2 (hn' y h3).1 (by simp [(hn' y h3).2, h4])
  · intro y h1 h2 h3 h4
    by_cases hz : st y = .frozen
    · exact R.fz y h1 h2 hz h4
    · have : y = x := ((hst y).1 h3).resolve_right hz
      subst this
      refine ⟨bz dims.length (θ + β) d τ, le_refl _, ?_, ?_⟩
      · refine le_trans hx ?_
        have hbz : bz dims.length (θ + β) d τ = τ - d - kap dims.length (θ + β) d - (θ + β) := rfl
        have : τ ≤ bz dims.length (θ + β) d τ + (d + kap dims.length (θ + β) d + (θ + β)) := by linarith
        exact_mod_cast this
      · exact (R.i2 y h1 h2 hz).mono (fun j hj => R.Tf_le_trunc (le_refl _) (nbr_lt X.fits h1 hj)) (le_refl _)

/-- a new round, of length at most `d` -/
theorem RB.round {X : XInput dims g h v pts} {τ τ' : ℝ} {gamma : List Nat} {T : Nat → WithTop ℝ} {st : Nat → FMState}
    (R : RB X θ β d τ [] T st) (hs : Small X θ β d) (h1 : τ ≤ τ') (h2 : τ' ≤ τ + d)
    (hop : ∀ y, y < dims.prod → g.occ y = false → st y ≠ .frozen → y ∉ gamma →
      T y = ⊤ ∧ ∀ j ∈ (Shape.mk' dims).nbrs y, st j ≠ .frozen) : RB X θ β d τ' gamma T st := by
  have e1 : bz dims.length (θ + β) d τ' ≤ bz dims.length (θ + β) d τ + d := by unfold bz; linarith
  have e2 : bz dims.length (θ + β) d τ ≤ bz dims.length (θ + β) d τ' := by unfold bz; linarith
  have he := hs.e0
  have hflo : ∀ y, y < dims.prod → st y ≠ .frozen → ((bz dims.length (θ + β) d τ' + (θ + β) : ℝ) : WithTop ℝ) ≤ T y := by
    intro y hy hf
    cases ho : g.occ y with
    | true => rw [R.obs y hy ho hf]; exact le_top
    | false =>
      refine le_trans ?_ (R.j y hy ho hf (by simp)).2
      have : bz dims.length (θ + β) d τ' + (θ + β) ≤ bz dims.length (θ + β) d τ + (d + (θ + β)) := by linarith
      exact_mod_cast this
  have hflo' : ∀ y, y < dims.prod → st y ≠ .frozen → ((bz dims.length (θ + β) d τ' : ℝ) : WithTop ℝ) ≤ T y := by
    intro y hy hf
    refine le_trans ?_ (hflo y hy hf)
    have : bz dims.length (θ + β) d τ' ≤ bz dims.length (θ + β) d τ' + (θ + β) := by linarith
    exact_mod_cast this
  have htr : ∀ z, z < dims.prod → XInput.Tf T st z ≤ trunc (bz dims.length (θ + β) d τ') T z := by
    intro z hz
    unfold XInput.Tf trunc
    split
    · split
      · exact le_refl _
      · exact le_top
    · next hf => rw [if_neg (not_lt.2 (hflo' z hz hf))]
  refine ⟨R.obs, hflo', R.i2, ?_, ?_, ?_⟩
  · intro y hy ho hf
    exact (R.i2 y hy ho hf).mono (fun j hj => htr j (nbr_lt X.fits hy hj)) (hflo y hy hf)
  · intro y hy ho hf hr
    obtain ⟨t1, t2⟩ := hop y hy ho hf hr
    refine ⟨?_, by rw [t1]; exact le_top⟩
    intro Y hY
    exfalso
    have hz : residL Y (mins (Shape.mk' dims) (trunc (bz dims.length (θ + β) d τ') T) y) ≤ 0 := by
      have := resid_anti (s := Shape.mk' dims) (T := fun _ => ⊤) (T' := trunc (bz dims.length (θ + β) d τ') T) (i := y) (by
        intro j hj
        have hjN := nbr_lt X.fits hy hj
        unfold trunc; rw [if_neg (not_lt.2 (hflo' j hjN (t2 j hj)))]) Y
      refine le_trans this ?_
      by_contra hcon
      obtain ⟨t, ht, _⟩ := residL_pos_lt (not_le.1 hcon)
      obtain ⟨_, _, e⟩ := XInput.mem_mins ht WithTop.coe_ne_top
      exact WithTop.coe_ne_top e
    have := X.csq hy ho
    linarith
  · intro y hy ho hf hp
    obtain ⟨b, b1, b2, b3⟩ := R.fz y hy ho hf hp
    exact ⟨b, by linarith, b2, b3⟩

/-- at the end every free cell is converged up to one step, one diagonal and the errors -/
theorem RB.conv {X : XInput dims g h v pts} {τ : ℝ} {rest : List Nat} {T : Nat → WithTop ℝ} {st : Nat → FMState}
    (R : RB X θ β d τ rest T st) (hs : Small X θ β d) {y : Nat} (hy : y < dims.prod) (ho : g.occ y = false) (hf : st y = .frozen) (hp : y ∉ pts) :
    X.Conv T (d + kap dims.length (θ + β) d + (θ + β)) y := by
  obtain ⟨b, b1, b2, b3⟩ := R.fz y hy ho hf hp
  have hq := hs.qpos
  have hd := hs.d0
  have hθ := hs.θ0
  have hβ := hs.β0
  have hk : 0 ≤ kap dims.length (θ + β) d := by unfold kap; linarith
  intro Y hY
  by_cases hb : b ≤ Y
  · refine le_trans b2 ?_
    have : b + (d + kap dims.length (θ + β) d + (θ + β)) ≤ Y + (d + kap dims.length (θ + β) d + (θ + β)) := by linarith
    exact_mod_cast this
  · have h2 := resid_split (s := Shape.mk' dims) T y (b := b) (t := Y)
    rw [max_eq_right (by linarith)] at h2
    refine le_trans (b3 Y (by nlinarith)) ?_
    have : Y + β ≤ Y + (d + kap dims.length (θ + β) d + (θ + β)) := by linarith
    exact_mod_cast this

end GMMA
end FMV
