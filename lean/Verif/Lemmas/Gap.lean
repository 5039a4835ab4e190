import Verif.Lemmas.Residual
/-!
The update uses only values that are smaller than its outcome by a fixed amount, and does not depend on any others.
-/
set_option linter.unusedSectionVars false
set_option linter.unusedVariables false
namespace FMV
open XR

/-- the loop of `solveEikonal` has used the values `pre`, the largest of which is `x`; `δ` is the gap -/
structure GapOk (δ c : ℝ) (pre : List ℝ) (x : ℝ) : Prop where
  ne : pre ≠ []
  le : ∀ s ∈ pre, s ≤ x
  sq : sqs x pre ≤ c^2
  gap : x + δ ≤ ndR c pre

theorem sqs_le_sum_sq {u : ℝ} {l : List ℝ} (h : ∀ s ∈ l, s ≤ u) : 0 ≤ (l.map (fun s => u - s)).sum ∧ sqs u l ≤ (l.map (fun s => u - s)).sum^2 := by
  induction l with
  | nil => simp
  | cons a l ih =>
    obtain ⟨h1, h2⟩ := ih (fun s hs => h s (by simp [hs]))
    have ha := h a (by simp)
    simp only [List.map_cons, List.sum_cons, sqs_cons]
    constructor
    · linarith
    · nlinarith [mul_nonneg (sub_nonneg.2 ha) h1]

theorem sqs_drop {u y w : ℝ} (hw : 0 ≤ w) (hy : y + w ≤ u) {l : List ℝ} (h : ∀ s ∈ l, s ≤ y) :
    sqs y l ≤ sqs u l - w * (l.map (fun s => u - s)).sum := by
  induction l with
  | nil => simp
  | cons a l ih =>
    have := ih (fun s hs => h s (by simp [hs]))
    have ha := h a (by simp)
    simp only [List.map_cons, List.sum_cons, sqs_cons]
    nlinarith [mul_nonneg (sub_nonneg.2 ha) (sub_nonneg.2 hy), mul_nonneg hw (sub_nonneg.2 ha), mul_nonneg hw (sub_nonneg.2 hy), sq_nonneg (u - y)]

theorem GapOk.step {δ c t x : ℝ} {pre : List ℝ} (hδ : 0 < δ) (hδe : δ ≤ eps / 2) (hδc : δ ≤ c) (G : GapOk δ c pre x) (hxt : x ≤ t) (ht : eps ≤ ndR c pre - t) :
    GapOk δ c (pre ++ [t]) t := by
  have sp := ndR_spec G.ne G.le G.sq
  set u := ndR c pre
  have hle : ∀ s ∈ pre, s ≤ t := fun s hs => le_trans (G.le s hs) hxt
  have hleu : ∀ s ∈ pre, s ≤ u := fun s hs => le_trans (G.le s hs) sp.2.1
  have he := eps_pos
  obtain ⟨d0, d1⟩ := sqs_le_sum_sq hleu
  set d := (pre.map (fun s => u - s)).sum
  have hdc : c ≤ d := by
    rw [sp.2.2] at d1
    by_contra hc
    have : d^2 < c^2 := by nlinarith
    linarith
  have key : ∀ y, t ≤ y → y ≤ t + δ → sqs y (pre ++ [t]) ≤ c^2 := by
    intro y h1 h2
    have := sqs_drop (u := u) (y := y) (w := eps / 2) (by linarith) (by linarith) (l := pre) (fun s hs => le_trans (hle s hs) h1)
    rw [sqs_append, sqs_cons, sqs_nil, add_zero]
    rw [sp.2.2] at this
    have hyt : (y - t)^2 ≤ δ * δ := by nlinarith
    have : eps / 2 * d ≥ δ * δ := by nlinarith
    linarith
  have hne : pre ++ [t] ≠ [] := by simp
  have hmem : ∀ s ∈ pre ++ [t], s ≤ t := by
    intro s hs
    rcases List.mem_append.1 hs with h1 | h1
    · exact hle s h1
    · simp at h1; exact h1.le
  exact ⟨hne, hmem, key t (le_refl _) (by linarith),
    (ndR_spec hne (x := t + δ) (fun s hs => by have := hmem s hs; linarith) (key _ (by linarith) (le_refl _))).2.1⟩

theorem GapOk.single {δ c : ℝ} (hc : 0 ≤ c) (hδc : δ ≤ c) (t : ℝ) : GapOk δ c [t] t :=
  ⟨by simp, by simp, by simp; positivity, by rw [ndR_one hc]; linarith⟩

theorem GapOk.result {δ c : ℝ} (hδ : 0 < δ) (hδe : δ ≤ eps / 2) (hδc : δ ≤ c) : ∀ (rest pre : List ℝ) (x : ℝ), GapOk δ c pre x →
    (∀ s ∈ rest, x ≤ s) → rest.Pairwise (· ≤ ·) → x + δ ≤ loopR c pre rest := by
  intro rest
  induction rest with
  | nil => intro pre x G _ _; exact G.gap
  | cons t rest ih =>
    intro pre x G hx hp
    have hxt := hx t (by simp)
    unfold loopR
    split
    · exact G.gap
    · next hc =>
      have := ih (pre ++ [t]) t (G.step hδ hδe hδc hxt (not_lt.1 hc)) (List.pairwise_cons.1 hp).1 (List.pairwise_cons.1 hp).2
      linarith

/-- The outcome of the loop does not depend on elements that are at least `θ` when it is below `θ + δ`. -/
theorem loopR_gap {δ c θ : ℝ} (hδ : 0 < δ) (hδe : δ ≤ eps / 2) (hδc : δ ≤ c) : ∀ (rest pre rest' : List ℝ) (x : ℝ), GapOk δ c pre x →
    (∀ s ∈ rest, x ≤ s) → rest.Pairwise (· ≤ ·) → (∀ s ∈ rest', x ≤ s) → rest'.Pairwise (· ≤ ·) →
    rest.filter (fun t => decide (t < θ)) = rest'.filter (fun t => decide (t < θ)) →
    loopR c pre rest < θ + δ → loopR c pre rest' = loopR c pre rest := by
  have he := eps_pos
  -- an element not below θ ends the loop
  have stop : ∀ (rest pre : List ℝ), rest.Pairwise (· ≤ ·) → rest.filter (fun t => decide (t < θ)) = [] → ndR c pre < θ + δ → loopR c pre rest = ndR c pre := by
    intro rest pre hp hf hn
    cases rest with
    | nil => rfl
    | cons t rest =>
      have ht : θ ≤ t := by
        by_contra hc
        simp [not_le.1 hc] at hf
      unfold loopR
      rw [if_pos (by linarith)]
  have nofilter : ∀ (t : ℝ) (rest : List ℝ), θ ≤ t → (t :: rest).Pairwise (· ≤ ·) → (t :: rest).filter (fun t => decide (t < θ)) = [] := by
    intro t rest ht hp
    rw [List.filter_eq_nil_iff]
    intro s hs
    have : t ≤ s := by
      rcases List.mem_cons.1 hs with rfl | h1
      · exact le_refl _
      · exact (List.pairwise_cons.1 hp).1 s h1
    simp only [decide_eq_true_eq, not_lt]; linarith
  intro rest
  induction rest with
  | nil =>
    intro pre rest' x G _ _ hx' hp' hf hlt
    exact stop rest' pre hp' (by rw [← hf]; rfl) hlt
  | cons t rest ih =>
    intro pre rest' x G hx hp hx' hp' hf hlt
    by_cases htθ : t < θ
    · cases rest' with
      | nil => simp [htθ] at hf
      | cons t' rest' =>
        have ht'θ : t' < θ := by
          by_contra hc
          rw [nofilter t' rest' (not_lt.1 hc) hp'] at hf
          simp [htθ] at hf
        simp only [List.filter_cons, htθ, ht'θ, decide_true, if_true, List.cons.injEq] at hf
        obtain ⟨rfl, hf⟩ := hf
        unfold loopR at hlt ⊢
        by_cases hc : ndR c pre - t < eps
        · rw [if_pos hc, if_pos hc]
        · rw [if_neg hc] at hlt
          rw [if_neg hc, if_neg hc]
          exact ih (pre ++ [t]) rest' t (G.step hδ hδe hδc (hx t (by simp)) (not_lt.1 hc)) (List.pairwise_cons.1 hp).1 (List.pairwise_cons.1 hp).2
            (List.pairwise_cons.1 hp').1 (List.pairwise_cons.1 hp').2 hf hlt
    · have hnone := nofilter t rest (not_lt.1 htθ) hp
      have hnd : ndR c pre < θ + δ := by
        by_cases hc : ndR c pre - t < eps
        · unfold loopR at hlt; rwa [if_pos hc] at hlt
        · unfold loopR at hlt; rw [if_neg hc] at hlt
          have := GapOk.result hδ hδe hδc rest (pre ++ [t]) t (G.step hδ hδe hδc (hx t (by simp)) (not_lt.1 hc)) (List.pairwise_cons.1 hp).1 (List.pairwise_cons.1 hp).2
          linarith
      rw [stop _ _ hp hnone hnd, stop _ _ hp' (by rw [← hf]; exact hnone) hnd]

/-- The update does not depend on values that are at least `θ` when its outcome is below `θ + δ`. -/
theorem eikR_gap {δ c θ : ℝ} (hδ : 0 < δ) (hδe : δ ≤ eps / 2) (hδc : δ ≤ c) {ts ts' : List ℝ}
    (hp : List.Perm (ts.filter (fun t => decide (t < θ))) (ts'.filter (fun t => decide (t < θ))))
    {u : ℝ} (hu : eikR c ts = (u : WithTop ℝ)) (hlt : u < θ + δ) : eikR c ts' = (u : WithTop ℝ) := by
  have hs : (ts.insertionSort (· ≤ ·)).Pairwise (· ≤ ·) := List.pairwise_insertionSort _ _
  have hs' : (ts'.insertionSort (· ≤ ·)).Pairwise (· ≤ ·) := List.pairwise_insertionSort _ _
  have hfe : (ts.insertionSort (· ≤ ·)).filter (fun t => decide (t < θ)) =
      (ts'.insertionSort (· ≤ ·)).filter (fun t => decide (t < θ)) := by
    rw [filter_insertionSort_lt, filter_insertionSort_lt]
    refine List.Perm.eq_of_pairwise (le := fun a b : ℝ => a ≤ b) ?_ ?_ ?_ ?_
    · intro a b _ _ h1 h2; exact le_antisymm h1 h2
    · exact List.pairwise_insertionSort _ _
    · exact List.pairwise_insertionSort _ _
    · exact ((List.perm_insertionSort _ _).trans hp).trans (List.perm_insertionSort _ _).symm
  unfold eikR at hu ⊢
  cases hsort : ts.insertionSort (· ≤ ·) with
  | nil => rw [hsort] at hu; exact absurd hu.symm WithTop.coe_ne_top
  | cons t rest =>
    rw [hsort] at hu hs hfe
    simp only at hu
    have hu' : loopR c [t] rest = u := by exact_mod_cast hu
    have hc : 0 ≤ c := le_trans hδ.le hδc
    have hge := GapOk.result hδ hδe hδc rest [t] t (GapOk.single hc hδc t) (List.pairwise_cons.1 hs).1 (List.pairwise_cons.1 hs).2
    have htθ : t < θ := by linarith
    cases hsort' : ts'.insertionSort (· ≤ ·) with
    | nil => rw [hsort'] at hfe; simp [htθ] at hfe
    | cons t' rest' =>
      rw [hsort'] at hs' hfe
      have ht'θ : t' < θ := by
        by_contra hc'
        have : (t' :: rest').filter (fun t => decide (t < θ)) = [] := by
          rw [List.filter_eq_nil_iff]
          intro s hs1
          rcases List.mem_cons.1 hs1 with rfl | hs1
          · simpa using hc'
          · have := (List.pairwise_cons.1 hs').1 s hs1
            simp only [decide_eq_true_eq, not_lt]; linarith
        rw [this] at hfe
        simp [htθ] at hfe
      simp only [List.filter_cons, htθ, ht'θ, decide_true, if_true, List.cons.injEq] at hfe
      obtain ⟨rfl, hfe⟩ := hfe
      simp only
      rw [loopR_gap hδ hδe hδc rest [t] rest' t (GapOk.single hc hδc t) (List.pairwise_cons.1 hs).1 (List.pairwise_cons.1 hs).2
        (List.pairwise_cons.1 hs').1 (List.pairwise_cons.1 hs').2 hfe (by rw [hu']; exact hlt), hu']

/-- Two assignments of times that agree below `θ` give the same update if one of them is below `θ + δ`. -/
theorem upd_gap {δ c θ : ℝ} (hδ : 0 < δ) (hδe : δ ≤ eps / 2) (hδc : δ ≤ c) {s : Shape} {T T' : Nat → WithTop ℝ} {i : Nat}
    (hT : (θ : WithTop ℝ) ≤ T i) (hT' : (θ : WithTop ℝ) ≤ T' i)
    (hag : ∀ k, k < s.ndims → ∀ j ∈ s.nbrsDim i k, (T j < θ ∨ T' j < θ) → T j = T' j)
    (hlt : upd c (T i) (mins s T i) < ((θ + δ : ℝ) : WithTop ℝ)) :
    upd c (T' i) (mins s T' i) = upd c (T i) (mins s T i) := by
  have hm : ∀ k, k < s.ndims → (dimMin s T i k < θ ∨ dimMin s T' i k < θ) → dimMin s T i k = dimMin s T' i k := by
    have half : ∀ (A B : Nat → WithTop ℝ), (∀ k, k < s.ndims → ∀ j ∈ s.nbrsDim i k, (A j < θ ∨ B j < θ) → A j = B j) → ∀ k, k < s.ndims → dimMin s A i k < θ → dimMin s B i k ≤ dimMin s A i k := by
      intro A B hab k hkn hk
      by_contra hc
      have hc := not_le.1 hc
      have : min (dimMin s B i k) θ ≤ dimMin s A i k := by
        apply le_dimMin
        intro j hj
        by_cases hlt : A j < θ
        · rw [hab k hkn j hj (Or.inl hlt)]; exact le_trans (min_le_left _ _) (dimMin_le hj)
        · exact le_trans (min_le_right _ _) (not_lt.1 hlt)
      rcases min_le_iff.1 this with h1 | h1
      · exact absurd hc (not_lt.2 h1)
      · exact absurd hk (not_lt.2 h1)
    have h1 := half T T' hag
    have h2 := half T' T (fun k hkn j hj h => (hag k hkn j hj h.symm).symm)
    intro k hkn hk
    rcases hk with hk | hk
    · have a := h1 k hkn hk
      exact le_antisymm (h2 k hkn (lt_of_le_of_lt a hk)) a
    · have a := h2 k hkn hk
      exact le_antisymm a (h1 k hkn (lt_of_le_of_lt a hk))
  have hf := filter_usable_congr (θ := θ) (List.range s.ndims) (dimMin s T i) (dimMin s T' i) (T i) (T' i) hT hT' (fun k hk => hm k (List.mem_range.1 hk))
  unfold upd at hlt ⊢
  cases hu : eikR c (usableT (T i) (mins s T i)) with
  | top => rw [hu] at hlt; exact absurd hlt (not_lt.2 le_top)
  | coe u =>
    rw [hu] at hlt
    exact eikR_gap hδ hδe hδc (by unfold mins; rw [hf]) hu (by exact_mod_cast hlt)

end FMV
