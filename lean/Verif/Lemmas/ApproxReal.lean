import Verif.Lemmas.Residual
/-! Real analysis of the update loop of `solveEikonal` when the intermediate results carry errors. -/
set_option linter.unusedSectionVars false
set_option linter.unusedVariables false
namespace FMV
open XR

/-- discriminant of the quadratic equation -/
noncomputable def discR (c : ℝ) (l : List ℝ) : ℝ := (2 * l.sum)^2 - 4 * l.length * ((l.map (fun t => t^2)).sum - c^2)

theorem discR_at (c x : ℝ) (l : List ℝ) : discR c l = (2 * (l.length * x - l.sum))^2 - 4 * l.length * (sqs x l - c^2) := disc_eq c x l

theorem ndR_eq (c : ℝ) (l : List ℝ) : ndR c l = (2 * l.sum + Real.sqrt (discR c l)) / (2 * l.length) := rfl

/-- the computed root solves the equation, and is not below the mean -/
theorem ndR_root {c : ℝ} {l : List ℝ} (hl : l ≠ []) (hd : 0 ≤ discR c l) :
    sqs (ndR c l) l = c^2 ∧ l.sum + Real.sqrt (discR c l) / 2 = l.length * ndR c l := by
  have hn : (0:ℝ) < l.length := by
    have := List.length_pos_iff.2 hl; exact_mod_cast this
  have h2 : l.sum + Real.sqrt (discR c l) / 2 = l.length * ndR c l := by
    rw [ndR_eq]; field_simp
  refine ⟨?_, h2⟩
  have h3 := discR_at c (ndR c l) l
  have h4 : 2 * (l.length * ndR c l - l.sum) = Real.sqrt (discR c l) := by linarith
  rw [h4, Real.sq_sqrt hd] at h3
  have : (4 * (l.length:ℝ)) * (sqs (ndR c l) l - c^2) = 0 := by linarith
  rcases mul_eq_zero.1 this with h | h
  · linarith
  · linarith

theorem sqs_ge_mem {u t : ℝ} {l : List ℝ} (h : t ∈ l) : (u - t)^2 ≤ sqs u l := by
  induction l with
  | nil => simp at h
  | cons a l ih =>
    rw [sqs_cons]
    rcases List.mem_cons.1 h with rfl | h
    · linarith [sqs_nonneg u l]
    · linarith [ih h, sq_nonneg (u - a)]

theorem abs_sub_le_of_sqs {u c : ℝ} (hc : 0 ≤ c) {l : List ℝ} (hs : sqs u l = c^2) {t : ℝ} (h : t ∈ l) : |u - t| ≤ c := by
  have := sqs_ge_mem (u := u) h
  rw [hs] at this
  exact abs_le_of_sq_le_sq this hc

/-- `n·x - sum` is the sum of the differences -/
theorem sum_diff (x : ℝ) (l : List ℝ) : (l.map (fun t => x - t)).sum = l.length * x - l.sum := by
  induction l with
  | nil => simp
  | cons a l ih => simp only [List.map_cons, List.sum_cons, List.length_cons]; rw [ih]; push_cast; ring

/-- the square of a sum of non-negative numbers is at least the sum of the squares -/
theorem sqs_le_sq_sum {x : ℝ} {l : List ℝ} (h : ∀ t ∈ l, t ≤ x) : sqs x l ≤ (l.length * x - l.sum)^2 := by
  rw [← sum_diff]
  induction l with
  | nil => simp
  | cons a l ih =>
    have h1 := ih (fun t ht => h t (by simp [ht]))
    have h2 : 0 ≤ (l.map (fun t => x - t)).sum := by
      apply List.sum_nonneg
      intro y hy
      rw [List.mem_map] at hy
      obtain ⟨t, ht, rfl⟩ := hy
      have := h t (by simp [ht]); linarith
    have h3 : 0 ≤ x - a := by have := h a (by simp); linarith
    rw [sqs_cons, List.map_cons, List.sum_cons]
    nlinarith [mul_nonneg h3 h2]

theorem sqs_shift (u d : ℝ) (l : List ℝ) : sqs (u + d) l = sqs u l + 2 * d * (l.length * u - l.sum) + l.length * d^2 := by
  rw [sqs_expand, sqs_expand]; ring

theorem sum_diff_le {u c : ℝ} {l : List ℝ} (h : ∀ t ∈ l, u - t ≤ c) : l.length * u - l.sum ≤ l.length * c := by
  rw [← sum_diff]
  induction l with
  | nil => simp
  | cons a l ih =>
    have := ih (fun t ht => h t (by simp [ht]))
    have h1 := h a (by simp)
    simp only [List.map_cons, List.sum_cons, List.length_cons]; push_cast; linarith

theorem sqs_mono_of {x y : ℝ} {l : List ℝ} (h : ∀ t ∈ l, t ≤ x) (hxy : x ≤ y) : sqs x l ≤ sqs y l := by
  induction l with
  | nil => simp
  | cons a l ih =>
    rw [sqs_cons, sqs_cons]
    have h1 := ih (fun t ht => h t (by simp [ht]))
    have h2 := h a (by simp)
    have : (x - a)^2 ≤ (y - a)^2 := by nlinarith
    linarith

/-- **one round of the loop with errors**: if the next value is at most `e` above the exact root of the values used so far, the equation with it included
still has a well-conditioned root, which is at most `2e` below that value -/
theorem loop_step {c e t u : ℝ} {pre : List ℝ} (hc : 0 < c) (he : 0 ≤ e) (hp : pre ≠ []) (hs : sqs u pre = c^2) (hle : ∀ s ∈ pre, s ≤ t) (ht : t ≤ u + e)
    (hsm : 8 * ((pre.length : ℝ) + 1)^2 * e ≤ c) :
    c^2 ≤ discR c (pre ++ [t]) ∧ sqs (ndR c (pre ++ [t])) (pre ++ [t]) = c^2 ∧ t ≤ ndR c (pre ++ [t]) + 2 * e := by
  set m : ℝ := (pre.length : ℝ) with hm
  have hm1 : 1 ≤ m := by
    have := List.length_pos_iff.2 hp; rw [hm]; exact_mod_cast this
  have hec : e ≤ c := by
    have h1 : 1 ≤ 8 * (m+1)^2 := by nlinarith
    have := mul_le_mul_of_nonneg_right h1 he; linarith
  -- spread of the values
  have hV : sqs t pre ≤ c^2 + 3 * m * e * c := by
    have h1 : sqs t pre ≤ sqs (u + e) pre := sqs_mono_of hle ht
    rw [sqs_shift, hs] at h1
    have h2 := sum_diff_le (u := u) (c := c) (l := pre) (fun t ht => le_trans (le_abs_self _) (abs_sub_le_of_sqs hc.le hs ht))
    rw [← hm] at h1 h2
    have h3 : 2 * e * (m * u - pre.sum) ≤ 2 * e * (m * c) := mul_le_mul_of_nonneg_left h2 (by linarith)
    have h4 : m * e^2 ≤ m * e * c := by nlinarith [mul_nonneg (by linarith : 0 ≤ m) he]
    nlinarith
  have hV0 := sqs_nonneg t pre
  have hsq := sqs_le_sq_sum hle
  rw [← hm] at hsq
  have hlen : ((pre ++ [t]).length : ℝ) = m + 1 := by simp [hm]
  have hsum : (pre ++ [t]).sum = pre.sum + t := by simp
  have hsm2 : 6 * m * (m * e * c) ≤ c^2 := by
    have h5 : 6 * m * m * e ≤ c := by nlinarith [mul_nonneg (mul_nonneg (by linarith : 0 ≤ m) (by linarith : 0 ≤ m)) he, mul_nonneg (by linarith : 0 ≤ m) he]
    nlinarith
  have hdisc : c^2 ≤ discR c (pre ++ [t]) := by
    rw [discR_at c t, hlen, hsum, sqs_append]
    simp only [sqs_cons, sub_self, sqs_nil]
    have e1 : (m + 1) * t - (pre.sum + t) = m * t - pre.sum := by ring
    rw [e1]
    have h6 : m * sqs t pre ≤ m * (c^2 + 3 * m * e * c) := mul_le_mul_of_nonneg_left hV (by linarith)
    nlinarith
  have hd0 : 0 ≤ discR c (pre ++ [t]) := le_trans (sq_nonneg c) hdisc
  obtain ⟨r1, r2⟩ := ndR_root (l := pre ++ [t]) (by simp) hd0
  refine ⟨hdisc, r1, ?_⟩
  set u' := ndR c (pre ++ [t]) with hu'
  by_contra hcon
  push Not at hcon
  rw [hlen, hsum] at r2
  have hsq0 := Real.sqrt_nonneg (discR c (pre ++ [t]))
  rw [sqs_append, sqs_cons, sqs_nil] at r1
  -- z = t - u'
  set z := t - u' with hz
  have hz2 : 2 * e < z := by rw [hz]; linarith
  have hd : z - e ≤ u - u' := by rw [hz]; linarith
  set d := u - u' with hdd
  have h7 : z ≤ m * u' - pre.sum := by rw [hz]; linarith
  have h8 := sqs_shift u' d pre
  rw [show u' + d = u by rw [hdd]; ring, hs, ← hm] at h8
  have h9 : sqs u' pre + z^2 = c^2 := by rw [← r1, hz]; ring
  have hz0 : 0 < z := by linarith
  have hd2 : z < 2 * d := by linarith
  have hd0' : 0 < d := by linarith
  have h10 : 2 * d * z ≤ 2 * d * (m * u' - pre.sum) := mul_le_mul_of_nonneg_left h7 (by linarith)
  have h11 : z^2 < 2 * d * z := by nlinarith
  have h12 : 0 ≤ m * d^2 := by positivity
  linarith

/-- strictly below the exact root, the residual is below `c^2` -/
theorem residR_lt_sqs' {X u c : ℝ} (hc : 0 < c) (hXu : X < u) {l : List ℝ} (hs : sqs u l = c^2) : residR X l < c^2 := by
  have key : ∀ l : List ℝ, residR X l ≤ sqs u l ∧ (residR X l = sqs u l → sqs u l = 0) := by
    intro l
    induction l with
    | nil => simp
    | cons t l ih =>
      rw [residR_cons, sqs_cons]
      have h1 : (max (X - t) 0)^2 ≤ (u - t)^2 := by
        rcases le_total (X - t) 0 with h | h
        · rw [max_eq_right h]; nlinarith [sq_nonneg (u - t)]
        · rw [max_eq_left h]; nlinarith
      refine ⟨by linarith [ih.1], ?_⟩
      intro he
      have h2 : (max (X - t) 0)^2 = (u - t)^2 := by linarith [ih.1]
      have h3 : residR X l = sqs u l := by linarith [ih.1]
      have h4 : (u - t)^2 = 0 := by
        rcases le_total (X - t) 0 with h | h
        · rw [max_eq_right h] at h2; linarith
        · rw [max_eq_left h] at h2; nlinarith
      rw [h4, ih.2 h3, add_zero]
  obtain ⟨k1, k2⟩ := key l
  rcases lt_or_eq_of_le k1 with h | h
  · linarith
  · have := k2 h
    rw [hs] at this
    have : (0:ℝ) < c^2 := by positivity
    linarith

/-- residual at a number close to the exact root -/
theorem residR_near {s u e c : ℝ} (hc : 0 < c) (he : 0 ≤ e) {l : List ℝ} (hs : sqs u l = c^2) (hle : ∀ t ∈ l, t ≤ u + 2 * e) (hsu : u - e ≤ s) :
    c^2 - 2 * l.length * e * c ≤ residR s l := by
  have habs : ∀ t ∈ l, |u - t| ≤ c := fun t ht => abs_sub_le_of_sqs hc.le hs ht
  rw [← hs]
  clear hs
  induction l with
  | nil => simp
  | cons t l ih =>
    rw [residR_cons, sqs_cons, List.length_cons]
    have h1 := ih (fun t ht => hle t (by simp [ht])) (fun t ht => habs t (by simp [ht]))
    have h2 := abs_le.1 (habs t (by simp))
    have h3 := hle t (by simp)
    have : (u - t)^2 - 2 * e * c ≤ (max (s - t) 0)^2 := by
      rcases le_total (u - t) 0 with h | h
      · have : (u - t)^2 ≤ 2 * e * c := by nlinarith
        nlinarith [sq_nonneg (max (s - t) 0)]
      · rcases le_total (u - t) e with h4 | h4
        · have : (u - t)^2 ≤ 2 * e * c := by nlinarith
          nlinarith [sq_nonneg (max (s - t) 0)]
        · have h5 : u - t - e ≤ max (s - t) 0 := le_trans (by linarith) (le_max_left _ _)
          have h6 : (u - t - e)^2 ≤ (max (s - t) 0)^2 := by nlinarith
          nlinarith [mul_le_mul_of_nonneg_left h2.2 he]
    push_cast
    linarith

theorem residR_pos {s : ℝ} {l : List ℝ} (h : 0 < residR s l) : ∃ t ∈ l, t < s := by
  by_contra hc
  push Not at hc
  rw [residR_eq_zero hc] at h
  exact lt_irrefl _ h

end FMV
