import Verif.Spec.Eikonal
import Verif.Lemmas.EikReal
import Verif.Lemmas.GridBasic
/-! Residual of the discrete equation, and the update of `solveEikonal` in those terms. -/
set_option linter.unusedSectionVars false
set_option linter.unusedVariables false
set_option linter.unusedSimpArgs false
namespace FMV
open XR Spec

/-! ### posSq -/

@[simp] theorem posSq_top (X : ℝ) : posSq X ⊤ = 0 := rfl
@[simp] theorem posSq_coe (X m : ℝ) : posSq X (m : WithTop ℝ) = (max (X - m) 0)^2 := rfl

theorem posSq_nonneg (X : ℝ) (m : WithTop ℝ) : 0 ≤ posSq X m := by
  cases m with
  | top => simp
  | coe m => simp only [posSq_coe]; positivity

theorem posSq_mono {X Y : ℝ} (h : X ≤ Y) (m : WithTop ℝ) : posSq X m ≤ posSq Y m := by
  cases m with
  | top => simp
  | coe m =>
    simp only [posSq_coe]
    apply pow_le_pow_left₀ (le_max_right _ _)
    exact max_le_max (by linarith) (le_refl _)

theorem posSq_anti (X : ℝ) {m m' : WithTop ℝ} (h : m ≤ m') : posSq X m' ≤ posSq X m := by
  cases m' with
  | top => simp; exact posSq_nonneg _ _
  | coe m' =>
    cases m with
    | top => simp at h
    | coe m =>
      simp only [posSq_coe]
      have : m ≤ m' := by exact_mod_cast h
      apply pow_le_pow_left₀ (le_max_right _ _)
      exact max_le_max (by linarith) (le_refl _)

theorem posSq_eq_zero {X : ℝ} {m : WithTop ℝ} (h : (X : WithTop ℝ) ≤ m) : posSq X m = 0 := by
  cases m with
  | top => simp
  | coe m =>
    have : X ≤ m := by exact_mod_cast h
    simp [posSq_coe, max_eq_right (show X - m ≤ 0 by linarith)]

theorem posSq_shift (X d m : ℝ) : posSq (X + d) ((m + d : ℝ) : WithTop ℝ) = posSq X (m : WithTop ℝ) := by
  simp only [posSq_coe]; congr 2; ring

/-! ### residual -/

/-- sum of `posSq` over a list -/
noncomputable def residL (X : ℝ) (ms : List (WithTop ℝ)) : ℝ := (ms.map (posSq X)).sum

@[simp] theorem residL_nil (X : ℝ) : residL X [] = 0 := rfl
@[simp] theorem residL_cons (X : ℝ) (m) (ms : List (WithTop ℝ)) : residL X (m :: ms) = posSq X m + residL X ms := by
  simp [residL]

theorem residL_nonneg (X : ℝ) (ms : List (WithTop ℝ)) : 0 ≤ residL X ms := by
  induction ms with
  | nil => simp
  | cons m ms ih => rw [residL_cons]; exact add_nonneg (posSq_nonneg _ _) ih

theorem residL_mono {X Y : ℝ} (h : X ≤ Y) (ms : List (WithTop ℝ)) : residL X ms ≤ residL Y ms := by
  induction ms with
  | nil => simp
  | cons m ms ih => rw [residL_cons, residL_cons]; exact add_le_add (posSq_mono h _) ih

/-- comparison of residuals in different arguments and different neighbour values -/
theorem residL_le_map {X Y : ℝ} {ι : Type} (l : List ι) (m m' : ι → WithTop ℝ)
    (h : ∀ k ∈ l, posSq X (m k) ≤ posSq Y (m' k)) : residL X (l.map m) ≤ residL Y (l.map m') := by
  induction l with
  | nil => simp
  | cons k l ih =>
    rw [List.map_cons, List.map_cons, residL_cons, residL_cons]
    exact add_le_add (h k (by simp)) (ih (fun k hk => h k (by simp [hk])))

theorem posSq_strict {X Y : ℝ} (h : X < Y) {m : WithTop ℝ} (hm : 0 < posSq Y m) : posSq X m < posSq Y m := by
  cases m with
  | top => simp at hm
  | coe m =>
    simp only [posSq_coe] at hm ⊢
    have hpos : 0 < max (Y - m) 0 := by
      rcases lt_or_eq_of_le (le_max_right (Y - m) 0) with h0 | h0
      · exact h0
      · rw [← h0] at hm; simp at hm
    apply pow_lt_pow_left₀ _ (le_max_right _ _) (by norm_num)
    apply max_lt
    · have : Y - m ≤ max (Y - m) 0 := le_max_left _ _; linarith
    · exact hpos

/-- strictly increasing where positive -/
theorem residL_strict {X Y : ℝ} (h : X < Y) {ms : List (WithTop ℝ)} (hpos : 0 < residL Y ms) :
    residL X ms < residL Y ms := by
  induction ms with
  | nil => simp at hpos
  | cons m ms ih =>
    rw [residL_cons] at hpos
    rw [residL_cons, residL_cons]
    by_cases hm : 0 < posSq Y m
    · exact add_lt_add_of_lt_of_le (posSq_strict h hm) (residL_mono h.le ms)
    · have : 0 < residL Y ms := by linarith [not_lt.1 hm]
      exact add_lt_add_of_le_of_lt (posSq_mono h.le m) (ih this)

/-! ### usable values -/

/-- finite entries below the cutoff -/
noncomputable def usableT (Ti : WithTop ℝ) (ms : List (WithTop ℝ)) : List ℝ :=
  match ms with
  | [] => []
  | none :: ms => usableT Ti ms
  | some r :: ms => open Classical in if (r : WithTop ℝ) < Ti then r :: usableT Ti ms else usableT Ti ms

@[simp] theorem usableT_nil (Ti) : usableT Ti [] = [] := rfl
@[simp] theorem usableT_cons_top (Ti) (ms : List (WithTop ℝ)) : usableT Ti (⊤ :: ms) = usableT Ti ms := rfl
theorem usableT_cons_coe (Ti) (r : ℝ) (ms : List (WithTop ℝ)) :
    usableT Ti ((r : WithTop ℝ) :: ms) = open Classical in if (r : WithTop ℝ) < Ti then r :: usableT Ti ms else usableT Ti ms := by
  rfl

theorem mem_usableT {Ti : WithTop ℝ} {ms : List (WithTop ℝ)} {t : ℝ} :
    t ∈ usableT Ti ms ↔ (t : WithTop ℝ) ∈ ms ∧ (t : WithTop ℝ) < Ti := by
  induction ms with
  | nil => simp
  | cons m ms ih =>
    cases m with
    | top => rw [usableT_cons_top, ih]; simp
    | coe r =>
      rw [usableT_cons_coe]
      split
      · next h =>
        simp only [List.mem_cons, ih]
        constructor
        · rintro (rfl | h1)
          · exact ⟨Or.inl rfl, h⟩
          · exact ⟨Or.inr h1.1, h1.2⟩
        · rintro ⟨h1 | h1, h2⟩
          · left; exact_mod_cast h1
          · right; exact ⟨h1, h2⟩
      · next h =>
        rw [ih]
        simp only [List.mem_cons]
        constructor
        · rintro h1; exact ⟨Or.inr h1.1, h1.2⟩
        · rintro ⟨h1 | h1, h2⟩
          · exfalso; have : t = r := by exact_mod_cast h1
            subst this; exact h h2
          · exact ⟨h1, h2⟩

/-- sum of `posSq` over real values -/
noncomputable def residR (X : ℝ) (ts : List ℝ) : ℝ := (ts.map (fun t => (max (X - t) 0)^2)).sum

theorem residR_append (X : ℝ) (a b : List ℝ) : residR X (a ++ b) = residR X a + residR X b := by simp [residR]
theorem residR_perm (X : ℝ) {a b : List ℝ} (h : a.Perm b) : residR X a = residR X b := (h.map _).sum_eq
@[simp] theorem residR_cons (X t : ℝ) (l : List ℝ) : residR X (t :: l) = (max (X - t) 0)^2 + residR X l := by simp [residR]
@[simp] theorem residR_nil (X : ℝ) : residR X [] = 0 := rfl
theorem residR_nonneg (X : ℝ) (l : List ℝ) : 0 ≤ residR X l := by
  induction l with
  | nil => simp
  | cons t l ih => rw [residR_cons]; positivity

theorem residR_usable_le (X : ℝ) (Ti : WithTop ℝ) (ms : List (WithTop ℝ)) :
    residR X (usableT Ti ms) ≤ residL X ms := by
  induction ms with
  | nil => simp
  | cons m ms ih =>
    cases m with
    | top => simpa using ih
    | coe r =>
      rw [usableT_cons_coe, residL_cons]
      split
      · rw [residR_cons, posSq_coe]; linarith
      · have := posSq_nonneg X (r : WithTop ℝ); linarith

theorem residR_usable_eq {X : ℝ} {Ti : WithTop ℝ} (h : (X : WithTop ℝ) ≤ Ti) (ms : List (WithTop ℝ)) :
    residR X (usableT Ti ms) = residL X ms := by
  induction ms with
  | nil => simp
  | cons m ms ih =>
    cases m with
    | top => simpa using ih
    | coe r =>
      rw [usableT_cons_coe, residL_cons]
      split
      · rw [residR_cons, posSq_coe, ih]
      · next hr =>
        rw [posSq_eq_zero (le_trans h (not_lt.1 hr)), ih, zero_add]

theorem residR_eq_sqs {X : ℝ} {l : List ℝ} (h : ∀ t ∈ l, t ≤ X) : residR X l = sqs X l := by
  induction l with
  | nil => simp
  | cons t l ih =>
    rw [residR_cons, sqs_cons, ih (fun t ht => h t (by simp [ht])),
      max_eq_left (by linarith [h t (by simp)])]

theorem residR_eq_zero {X : ℝ} {l : List ℝ} (h : ∀ t ∈ l, X ≤ t) : residR X l = 0 := by
  induction l with
  | nil => simp
  | cons t l ih =>
    rw [residR_cons, ih (fun t ht => h t (by simp [ht])), max_eq_right (by linarith [h t (by simp)])]
    simp

theorem residR_lt_sqs {X u c : ℝ} (hc : 0 < c) (hXu : X < u) {l : List ℝ} (h : ∀ t ∈ l, t ≤ u)
    (hs : sqs u l = c^2) : residR X l < c^2 := by
  rw [← hs, ← residR_eq_sqs h]
  have hpos : 0 < residR u l := by rw [residR_eq_sqs h, hs]; positivity
  have e : ∀ Y, residR Y l = residL Y (l.map (fun t : ℝ => (t : WithTop ℝ))) := by
    intro Y
    clear hpos hs h
    induction l with
    | nil => rfl
    | cons t l ih => rw [residR_cons, List.map_cons, residL_cons, ih]; rfl
  rw [e, e]
  rw [e] at hpos
  exact residL_strict hXu hpos

/-! ### the update -/

/-- value proposed by `solveEikonal`, in terms of directional minima `ms` and current time `Ti` -/
noncomputable def upd (c : ℝ) (Ti : WithTop ℝ) (ms : List (WithTop ℝ)) : WithTop ℝ := eikR c (usableT Ti ms)

theorem upd_lower {c : ℝ} (hc : 0 < c) {Ti : WithTop ℝ} {ms : List (WithTop ℝ)} {u : ℝ}
    (h : upd c Ti ms = (u : WithTop ℝ)) : c^2 ≤ residL u ms := by
  unfold upd at h
  have hne : usableT Ti ms ≠ [] := by intro h0; rw [h0, eikR_nil] at h; exact absurd h WithTop.top_ne_coe
  obtain ⟨u', used, unused, h1, h2, h3, h4, h5, h6, _⟩ := eikR_spec hc hne
  have : u' = u := by rw [h1] at h; exact_mod_cast h
  subst this
  calc c^2 = residR u' used := by rw [residR_eq_sqs h5, h4]
    _ ≤ residR u' (usableT Ti ms) := by
      rw [residR_perm u' h2, residR_append]; linarith [residR_nonneg u' unused]
    _ ≤ residL u' ms := residR_usable_le _ _ _

/-- some usable value is strictly below the outcome -/
theorem upd_gt {c : ℝ} (hc : 0 < c) {Ti : WithTop ℝ} {ms : List (WithTop ℝ)} {u : ℝ}
    (h : upd c Ti ms = (u : WithTop ℝ)) : ∃ t : ℝ, (t : WithTop ℝ) ∈ ms ∧ (t : WithTop ℝ) < Ti ∧ t < u := by
  unfold upd at h
  have hne : usableT Ti ms ≠ [] := by intro h0; rw [h0, eikR_nil] at h; exact absurd h WithTop.top_ne_coe
  obtain ⟨u', used, unused, h1, h2, h3, h4, h5, h6, _⟩ := eikR_spec hc hne
  have : u' = u := by rw [h1] at h; exact_mod_cast h
  subst this
  by_contra hcon
  push Not at hcon
  have hz : sqs u' used = 0 := by
    rw [← residR_eq_sqs h5]
    apply residR_eq_zero
    intro t ht
    have hm : t ∈ usableT Ti ms := h2.symm.subset (by simp [ht])
    rw [mem_usableT] at hm
    exact hcon t hm.1 hm.2
  rw [h4] at hz
  have : (0:ℝ) < c^2 := by positivity
  linarith

theorem upd_eq_top_iff {c : ℝ} (hc : 0 < c) {Ti : WithTop ℝ} {ms : List (WithTop ℝ)} :
    upd c Ti ms = ⊤ ↔ ∀ m ∈ ms, m = ⊤ ∨ Ti ≤ m := by
  unfold upd
  constructor
  · intro h m hm
    cases m with
    | top => exact Or.inl rfl
    | coe r =>
      right
      by_contra hlt
      have : r ∈ usableT Ti ms := mem_usableT.2 ⟨hm, not_le.1 hlt⟩
      obtain ⟨u, _, _, h1, _⟩ := eikR_spec hc (ts := usableT Ti ms) (List.ne_nil_of_mem this)
      rw [h1] at h; exact WithTop.coe_ne_top h
  · intro h
    have : usableT Ti ms = [] := by
      rw [List.eq_nil_iff_forall_not_mem]
      intro t ht
      rw [mem_usableT] at ht
      rcases h _ ht.1 with h1 | h1
      · exact WithTop.coe_ne_top h1
      · exact absurd ht.2 (not_lt.2 h1)
    rw [this, eikR_nil]

theorem upd_upper {c : ℝ} (hc : 0 < c) {Ti : WithTop ℝ} {ms : List (WithTop ℝ)} {X : ℝ}
    (hX : (X : WithTop ℝ) < Ti) (hr : c^2 ≤ residL X ms) :
    ∃ u : ℝ, upd c Ti ms = (u : WithTop ℝ) ∧ u ≤ X + eps := by
  rw [← residR_usable_eq hX.le] at hr
  have hcc : (0:ℝ) < c^2 := by positivity
  have hne : usableT Ti ms ≠ [] := by
    intro h0; rw [h0] at hr; simp at hr; linarith
  obtain ⟨u, used, unused, h1, h2, h3, h4, h5, h6, _⟩ := eikR_spec hc hne
  refine ⟨u, h1, ?_⟩
  by_contra hcon
  have hlt : X < u - eps := by linarith [not_le.1 hcon]
  rw [residR_perm X h2, residR_append, residR_eq_zero (l := unused) (fun t ht => by linarith [h6 t ht]), add_zero] at hr
  have := residR_lt_sqs hc (X := X) (u := u) (by linarith [eps_pos]) h5 h4
  linarith

theorem filter_usable_congr {θ : ℝ} {ι : Type} (l : List ι) (m m' : ι → WithTop ℝ) (Ti Ti' : WithTop ℝ)
    (hT : (θ : WithTop ℝ) ≤ Ti) (hT' : (θ : WithTop ℝ) ≤ Ti')
    (h : ∀ k ∈ l, (m k < θ ∨ m' k < θ) → m k = m' k) :
    (usableT Ti (l.map m)).filter (fun t => decide (t < θ)) = (usableT Ti' (l.map m')).filter (fun t => decide (t < θ)) := by
  induction l with
  | nil => simp
  | cons k l ih =>
    have ih' := ih (fun k hk => h k (by simp [hk]))
    have hk := h k (by simp)
    rw [List.map_cons, List.map_cons]
    have key : ∀ (M : WithTop ℝ) (T : WithTop ℝ) (ms : List (WithTop ℝ)), (θ : WithTop ℝ) ≤ T →
        (usableT T (M :: ms)).filter (fun t => decide (t < θ)) =
          (match M with | none => [] | some r => if r < θ then [r] else []) ++
            (usableT T ms).filter (fun t => decide (t < θ)) := by
      intro M T ms hTT
      cases M with
      | top => rw [usableT_cons_top]; rfl
      | coe r =>
        rw [usableT_cons_coe]
        show _ = (if r < θ then [r] else []) ++ _
        by_cases hr : r < θ
        · have : (r : WithTop ℝ) < T := lt_of_lt_of_le (by exact_mod_cast hr) hTT
          rw [if_pos this, if_pos hr]
          simp [hr]
        · rw [if_neg hr]
          split
          · simp [hr]
          · simp
    rw [key _ _ _ hT, key _ _ _ hT', ih']
    congr 1
    by_cases hlt : m k < θ ∨ m' k < θ
    · rw [hk hlt]
    · push Not at hlt
      have e : ∀ M : WithTop ℝ, (θ : WithTop ℝ) ≤ M →
          (match M with | none => ([] : List ℝ) | some r => if r < θ then [r] else []) = [] := by
        intro M hM
        cases M with
        | top => rfl
        | coe r =>
          show (if r < θ then [r] else []) = []
          have : θ ≤ r := by exact_mod_cast hM
          rw [if_neg (by linarith)]
      rw [e _ hlt.1, e _ hlt.2]

/-- The update only depends on neighbour values below any bound exceeding its outcome. -/
theorem upd_congr {c θ : ℝ} (hc : 0 < c) {ι : Type} (l : List ι) (m m' : ι → WithTop ℝ) {Ti Ti' : WithTop ℝ}
    (hT : (θ : WithTop ℝ) ≤ Ti) (hT' : (θ : WithTop ℝ) ≤ Ti')
    (h : ∀ k ∈ l, (m k < θ ∨ m' k < θ) → m k = m' k) {u : ℝ}
    (hu : upd c Ti (l.map m) = (u : WithTop ℝ)) (hlt : u < θ) : upd c Ti' (l.map m') = (u : WithTop ℝ) := by
  unfold upd at *
  exact eikR_congr hc (by rw [filter_usable_congr l m m' Ti Ti' hT hT' h]) hu hlt

/-- removing the cutoff does not matter if the outcome is below it -/
theorem upd_cut {c : ℝ} (hc : 0 < c) {ι : Type} (l : List ι) (m : ι → WithTop ℝ) {Ti : WithTop ℝ} {u : ℝ}
    (hlt : (u : WithTop ℝ) < Ti) :
    upd c Ti (l.map m) = (u : WithTop ℝ) ↔ upd c ⊤ (l.map m) = (u : WithTop ℝ) := by
  cases Ti with
  | top => exact Iff.rfl
  | coe r =>
    have : u < r := by exact_mod_cast hlt
    constructor
    · intro h; exact upd_congr hc l m m (le_refl _) le_top (fun _ _ _ => rfl) h this
    · intro h; exact upd_congr hc l m m le_top (le_refl _) (fun _ _ _ => rfl) h this

/-! ### the model's `solveEikonal` -/

/-- a time that can occur: `+inf` or a non-negative number -/
def GoodT (x : XR) : Prop := x = pinf ∨ ∃ r : ℝ, 0 ≤ r ∧ x = fin r

theorem GoodT.ofT_toT {x : XR} (h : GoodT x) : ofT (toT x) = x := by
  rcases h with rfl | ⟨r, _, rfl⟩ <;> rfl

theorem GoodT.toT_nonneg {x : XR} (h : GoodT x) : 0 ≤ toT x := by
  rcases h with rfl | ⟨r, h0, rfl⟩
  · simp
  · simp only [toT_fin]; exact_mod_cast h0

theorem goodT_ofT {t : WithTop ℝ} (h : 0 ≤ t) : GoodT (ofT t) := by
  cases t with
  | top => exact Or.inl rfl
  | coe r => exact Or.inr ⟨r, by exact_mod_cast h, rfl⟩

theorem lt_ofT (a b : WithTop ℝ) : Arith.lt (ofT a) (ofT b) = true ↔ a < b := by
  cases a with
  | top => cases b <;> simp [Arith.lt, XR.lt]
  | coe a =>
    cases b with
    | top => simp [Arith.lt, XR.lt, WithTop.coe_lt_top]
    | coe b => simp [Arith.lt, XR.lt]

theorem better_ofT (a b : WithTop ℝ) : Arith.better (ofT a) (ofT b) = true ↔ a + (eps : WithTop ℝ) < b := by
  unfold Arith.better
  have : (Arith.add (ofT a) (Arith.margin : XR)) = ofT (a + (eps : WithTop ℝ)) := by
    cases a with
    | top => rfl
    | coe a => rfl
  rw [this, lt_ofT]

/-- arrival times as extended reals -/
noncomputable def tv (g : Grid XR) (i : Nat) : WithTop ℝ := toT (g.value i)

/-- minimum of `T` over the neighbours of `i` in dimension `k` -/
noncomputable def dimMin (s : Shape) (T : Nat → WithTop ℝ) (i k : Nat) : WithTop ℝ :=
  ((s.nbrsDim i k).map T).foldr min ⊤

/-- the directional minima of a cell -/
noncomputable def mins (s : Shape) (T : Nat → WithTop ℝ) (i : Nat) : List (WithTop ℝ) :=
  (List.range s.ndims).map (dimMin s T i)

theorem dimMin_le {s : Shape} {T : Nat → WithTop ℝ} {i k j : Nat} (h : j ∈ s.nbrsDim i k) : dimMin s T i k ≤ T j := by
  unfold dimMin
  generalize s.nbrsDim i k = l at *
  induction l with
  | nil => simp at h
  | cons a l ih =>
    simp only [List.map_cons, List.foldr_cons]
    rcases List.mem_cons.1 h with rfl | h
    · exact min_le_left _ _
    · exact le_trans (min_le_right _ _) (ih h)

theorem dimMin_attained {s : Shape} {T : Nat → WithTop ℝ} {i k : Nat} (h : dimMin s T i k ≠ ⊤) :
    ∃ j ∈ s.nbrsDim i k, dimMin s T i k = T j := by
  unfold dimMin at *
  generalize s.nbrsDim i k = l at *
  induction l with
  | nil => simp at h
  | cons a l ih =>
    simp only [List.map_cons, List.foldr_cons] at *
    rcases le_total (T a) ((l.map T).foldr min ⊤) with h1 | h1
    · exact ⟨a, by simp, min_eq_left h1⟩
    · rw [min_eq_right h1] at h ⊢
      obtain ⟨j, hj, he⟩ := ih h
      exact ⟨j, by simp [hj], he⟩

theorem le_dimMin {s : Shape} {T : Nat → WithTop ℝ} {i k : Nat} {x : WithTop ℝ}
    (h : ∀ j ∈ s.nbrsDim i k, x ≤ T j) : x ≤ dimMin s T i k := by
  by_cases ht : dimMin s T i k = ⊤
  · rw [ht]; exact le_top
  · obtain ⟨j, hj, he⟩ := dimMin_attained ht
    rw [he]; exact h j hj

/-- The values of all cells are times. -/
def GoodG (g : Grid XR) : Prop := ∀ i, GoodT (g.value i)

theorem dimMin_nonneg {g : Grid XR} (hg : GoodG g) (i k : Nat) : 0 ≤ dimMin g.shape (tv g) i k :=
  le_dimMin (fun j _ => (hg j).toT_nonneg)

theorem minDim_eq {g : Grid XR} (hg : GoodG g) (i k : Nat) : g.minDim i k = ofT (dimMin g.shape (tv g) i k) := by
  have hlen := Shape.nbrsDim_length_le g.shape i k
  unfold Grid.minDim dimMin
  match hn : g.shape.nbrsDim i k with
  | [] => rfl
  | [a] =>
    simp only [List.map_cons, List.map_nil, List.foldr_cons, List.foldr_nil, min_top_right]
    exact (hg a).ofT_toT.symm
  | a :: b :: l =>
    rw [hn] at hlen
    have hl : l = [] := by simpa using hlen
    subst hl
    simp only [List.map_cons, List.map_nil, List.foldr_cons, List.foldr_nil, min_top_right]
    have ha := (hg a).ofT_toT
    have hb := (hg b).ofT_toT
    by_cases hlt : tv g a < tv g b
    · have : Arith.lt (g.value a) (g.value b) = true := by rw [← ha, ← hb]; exact (lt_ofT _ _).2 hlt
      rw [if_pos this, min_eq_left hlt.le]; exact ha.symm
    · have : ¬ Arith.lt (g.value a) (g.value b) = true := by rw [← ha, ← hb, lt_ofT]; exact hlt
      rw [if_neg this, min_eq_right (not_lt.1 hlt)]; exact hb.symm

theorem usable_eq {g : Grid XR} (hg : GoodG g) (i : Nat) :
    usable g i = (usableT (tv g i) (mins g.shape (tv g) i)).map fin := by
  unfold usable mins
  have e : (List.range g.shape.ndims).map (g.minDim i) = ((List.range g.shape.ndims).map (dimMin g.shape (tv g) i)).map ofT := by
    rw [List.map_map]; apply List.map_congr_left; intro k _; exact minDim_eq hg i k
  rw [e]
  generalize (List.range g.shape.ndims).map (dimMin g.shape (tv g) i) = ms
  have hi := (hg i).ofT_toT
  rw [← hi]
  show (ms.map ofT).filter _ = (usableT (toT (g.value i)) ms).map fin
  generalize toT (g.value i) = Ti
  induction ms with
  | nil => rfl
  | cons m ms ih =>
    rw [List.map_cons, List.filter_cons, ih]
    cases m with
    | top => rw [usableT_cons_top]; rfl
    | coe r =>
      rw [usableT_cons_coe]
      have : (!Arith.isInf (ofT (r : WithTop ℝ)) && Arith.lt (ofT (r : WithTop ℝ)) (ofT Ti)) = true ↔ (r : WithTop ℝ) < Ti := by
        have h1 : Arith.isInf (ofT (r : WithTop ℝ)) = false := rfl
        rw [h1]; simp only [Bool.not_false, Bool.true_and]; exact lt_ofT _ _
      by_cases hlt : (r : WithTop ℝ) < Ti
      · rw [if_pos (this.2 hlt), if_pos hlt]; rfl
      · rw [if_neg (fun h => hlt (this.1 h)), if_neg hlt]

/-- **bridge**: `solveEikonal` over the extended reals is `upd`. -/
theorem solveEikonal_eq {g : Grid XR} (hg : GoodG g) {i : Nat} {h v : ℝ} (hh : 0 < h) (hv : 0 < v)
    (hleaf : g.leaf = fin h) (hvel : g.vel i = fin v) :
    solveEikonal g i = ofT (upd (h/v) (tv g i) (mins g.shape (tv g) i)) := by
  unfold solveEikonal
  rw [usable_eq hg, hleaf, hvel, solveList_fin hh hv]
  rfl

theorem upd_nonneg {c : ℝ} (hc : 0 < c) {Ti : WithTop ℝ} {ms : List (WithTop ℝ)} (h : ∀ m ∈ ms, 0 ≤ m) : 0 ≤ upd c Ti ms := by
  cases hu : upd c Ti ms with
  | top => simp
  | coe u =>
    obtain ⟨t, ht, _, htu⟩ := upd_gt hc hu
    have := h _ ht
    have h0 : (0:ℝ) ≤ t := by exact_mod_cast this
    have : 0 ≤ u := by linarith
    exact_mod_cast this

theorem mins_nonneg {g : Grid XR} (hg : GoodG g) (i : Nat) : ∀ m ∈ mins g.shape (tv g) i, 0 ≤ m := by
  intro m hm
  unfold mins at hm
  rw [List.mem_map] at hm
  obtain ⟨k, _, rfl⟩ := hm
  exact dimMin_nonneg hg i k

theorem solveEikonal_good {g : Grid XR} (hg : GoodG g) {i : Nat} {h v : ℝ} (hh : 0 < h) (hv : 0 < v)
    (hleaf : g.leaf = fin h) (hvel : g.vel i = fin v) : GoodT (solveEikonal g i) := by
  rw [solveEikonal_eq hg hh hv hleaf hvel]
  exact goodT_ofT (upd_nonneg (div_pos hh hv) (mins_nonneg hg i))

end FMV
