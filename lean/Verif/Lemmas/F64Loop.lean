import Verif.Lemmas.F64Eik
/-! The update loop of `solveEikonal` in doubles. -/
set_option linter.unusedSectionVars false
set_option linter.unusedVariables false
namespace FMV
open XR
namespace F64
variable {R : Rounding} {h v A : ℝ} {D : Nat}

/-- error of one solution of the quadratic equation -/
noncomputable def eerr (c A : ℝ) (D : Nat) : ℝ := 70 * (D:ℝ)^2 * uu * A^2 / c

theorem eerr_nonneg {c : ℝ} (hc : 0 < c) (A : ℝ) (D : Nat) : 0 ≤ eerr c A D := by
  unfold eerr; have := uu_pos; positivity

theorem Scale.eerr_small (S : Scale h v A D) : 8 * (D:ℝ)^2 * eerr (h/v) A D ≤ h/v := by
  unfold eerr
  have hc := S.cpos
  have : 8 * (D:ℝ)^2 * (70 * (D:ℝ)^2 * uu * A^2 / (h/v)) = (560 * (D:ℝ)^4 * uu * A^2) / (h/v) := by ring
  rw [this, div_le_iff₀ hc]
  have h0 : 0 ≤ (D:ℝ)^4 * uu * A^2 := by have := uu_pos; positivity
  have := S.small
  nlinarith

theorem solveND_apx (S : Scale h v A D) {hF vF : F64 R} (hh : hF.1 = .fin h) (hv : vF.1 = .fin v) {ts : List (F64 R)} (hT : Times A ts) {n : Nat}
    (hn1 : 1 ≤ n) (hnD : n ≤ D) (hn : n ≤ ts.length) (hQ : (h/v)^2 ≤ discR (h/v) ((ts.take n).map rv)) :
    Apx (solveND hF vF ts n) (ndR (h/v) ((ts.take n).map rv)) (eerr (h/v) A D) := by
  have hc := S.cpos
  have hw := uu_pos
  have hA := S.Apos
  by_cases h1 : n = 1
  · subst h1
    cases ts with
    | nil => simp at hn
    | cons t ts =>
      unfold solveND
      simp only [if_true, List.headD_cons, List.take_succ_cons, List.take_zero, List.map_cons, List.map_nil]
      rw [ndR_one hc.le]
      refine (solve1_apx S hh hv (hT t (by simp))).mono ?_
      unfold eerr
      rw [le_div_iff₀ hc]
      have d1 := S.D1'
      have : A * (h/v) ≤ A^2 := by rw [sq]; exact mul_le_mul_of_nonneg_left S.cA hA.le
      have h2 : uu * (A * (h/v)) ≤ uu * A^2 := mul_le_mul_of_nonneg_left this hw.le
      have h3 : 1 * (uu * A^2) ≤ (D:ℝ)^2 * (uu * A^2) := mul_le_mul_of_nonneg_right (by nlinarith) (by positivity)
      nlinarith
  · refine (solveQ_apx S hh hv hT hn1 hnD hn h1 hQ).mono ?_
    unfold eerr
    apply div_le_div_of_nonneg_right _ hc.le
    have : (n:ℝ) ≤ D := by exact_mod_cast hnD
    gcongr
    norm_num

/-- `rd(s - t) < margin` decides `s - t < eps`, up to `s = t`-like cases -/
theorem sub_lt_margin {s t : F64 R} (hs : IsNum s) (ht : IsNum t) (h : Arith.lt (Arith.sub s t) (Arith.margin : F64 R) = true) : rv s - rv t < eps := by
  by_contra hc
  push Not at hc
  have m := R.mono _ _ hc
  rw [R.exact _ IsDouble.eps] at m
  have e : (Arith.sub s t : F64 R).1 = R.rd (rv s - rv t) := by
    show (rnd R (XR.add s.1 (XR.neg t.1))).1 = _
    rw [hs, ht]; rw [sub_eq_add_neg]; rfl
  have h' : XR.lt (R.rd (rv s - rv t)) (fin eps) = true := by rw [← e]; exact h
  rcases R.mem (rv s - rv t) with ⟨x, _, e'⟩ | e' | e' <;> rw [e'] at m h'
  · simp [XR.le, XR.lt] at m h'; linarith
  · simp [XR.lt] at h'
  · simp [XR.le] at m

theorem not_sub_lt_margin {s t : F64 R} (hs : IsNum s) (ht : IsNum t) (h : Arith.lt (Arith.sub s t) (Arith.margin : F64 R) = false) : rv t < rv s := by
  by_contra hc
  push Not at hc
  have m := R.mono (rv s - rv t) 0 (by linarith)
  rw [R.exact _ IsDouble.zero] at m
  have e : (Arith.sub s t : F64 R).1 = R.rd (rv s - rv t) := by
    show (rnd R (XR.add s.1 (XR.neg t.1))).1 = _
    rw [hs, ht]; rw [sub_eq_add_neg]; rfl
  have h' : XR.lt (R.rd (rv s - rv t)) (fin eps) = false := by rw [← e]; exact h
  have := eps_pos
  rcases R.mem (rv s - rv t) with ⟨x, _, e'⟩ | e' | e' <;> rw [e'] at m h'
  · simp [XR.le, XR.lt] at m h'; linarith
  · simp [XR.le] at m
  · simp [XR.lt] at h'

/-- outcome of the loop -/
structure Outcome64 (c e : ℝ) (l : List ℝ) (x : F64 R) : Prop where
  ex : ∃ (u : ℝ) (used unused : List ℝ), IsNum x ∧ l = used ++ unused ∧ used ≠ [] ∧ |rv x - u| ≤ e ∧ sqs u used = c^2 ∧ (∀ t ∈ used, t ≤ u + 2 * e) ∧
    ∀ t ∈ unused, rv x - eps < t

theorem loop64 (S : Scale h v A D) {hF vF : F64 R} (hh : hF.1 = .fin h) (hv : vF.1 = .fin v) :
    ∀ (rest pre : List (F64 R)), pre ≠ [] → Times A (pre ++ rest) → ((pre ++ rest).map rv).Pairwise (· ≤ ·) → (pre ++ rest).length ≤ D →
      (h/v)^2 ≤ discR (h/v) (pre.map rv) → (∀ t ∈ pre, rv t ≤ ndR (h/v) (pre.map rv) + 2 * eerr (h/v) A D) →
      Outcome64 (h/v) (eerr (h/v) A D) ((pre ++ rest).map rv) (eikLoop hF vF (pre ++ rest) pre.length rest.length) := by
  have hc := S.cpos
  have he := eerr_nonneg hc A D
  intro rest
  induction rest with
  | nil =>
    intro pre hp hT hs hl hd hle
    rw [List.append_nil] at *
    have hr := ndR_root (l := pre.map rv) (by simpa using hp) (le_trans (sq_nonneg _) hd)
    have a := solveND_apx S hh hv hT (n := pre.length) (List.length_pos_iff.2 hp) hl (le_refl _) (by rw [List.take_length]; exact hd)
    rw [List.take_length] at a
    obtain ⟨x, x1, x2⟩ := a
    obtain ⟨y1, y2⟩ := isNum_of x1
    refine ⟨ndR (h/v) (pre.map rv), pre.map rv, [], y1, by simp, by simpa using hp, ?_, hr.1, ?_, by simp⟩
    · show |rv (solveND hF vF pre pre.length) - _| ≤ _
      rw [y2]; exact x2
    · intro t ht
      rw [List.mem_map] at ht
      obtain ⟨t', h1, rfl⟩ := ht
      exact hle t' h1
  | cons t rest ih =>
    intro pre hp hT hs hl hd hle
    have hr := ndR_root (l := pre.map rv) (by simpa using hp) (le_trans (sq_nonneg _) hd)
    have hlen : pre.length + 1 ≤ D := by simp at hl; omega
    have a := solveND_apx S hh hv hT (n := pre.length) (List.length_pos_iff.2 hp) (by omega) (by simp) (by rw [List.take_left]; exact hd)
    rw [List.take_left] at a
    obtain ⟨x, x1, x2⟩ := a
    obtain ⟨y1, y2⟩ := isNum_of x1
    have hget : (pre ++ t :: rest).getD pre.length Arith.zero = t := by
      rw [List.getD_eq_getElem?_getD, List.getElem?_append_right (le_refl _)]; simp
    have ht := hT t (by simp)
    rw [List.map_append, List.map_cons] at hs
    have hs' := List.pairwise_append.1 hs
    show Outcome64 _ _ _ (if Arith.lt (Arith.sub (solveND hF vF (pre ++ t :: rest) pre.length) ((pre ++ t :: rest).getD pre.length Arith.zero)) (Arith.margin : F64 R) = true
      then solveND hF vF (pre ++ t :: rest) pre.length else eikLoop hF vF (pre ++ t :: rest) (pre.length + 1) rest.length)
    rw [hget]
    by_cases hcond : Arith.lt (Arith.sub (solveND hF vF (pre ++ t :: rest) pre.length) t) (Arith.margin : F64 R) = true
    · rw [if_pos hcond]
      have hlt := sub_lt_margin y1 ht.1 hcond
      refine ⟨ndR (h/v) (pre.map rv), pre.map rv, rv t :: rest.map rv, y1, by simp, by simpa using hp, by rw [y2]; exact x2, hr.1, ?_, ?_⟩
      · intro t ht
        rw [List.mem_map] at ht
        obtain ⟨t', h1, rfl⟩ := ht
        exact hle t' h1
      · intro y hy
        rcases List.mem_cons.1 hy with rfl | hy
        · linarith
        · have := (List.pairwise_cons.1 hs'.2.1).1 y hy
          linarith
    · rw [if_neg hcond]
      have hlt := not_sub_lt_margin y1 ht.1 (by simpa using hcond)
      rw [y2] at hlt
      have hx := abs_le.1 x2
      have hD : ((pre.map rv).length : ℝ) + 1 ≤ D := by
        rw [List.length_map]; exact_mod_cast hlen
      have hsm : 8 * (((pre.map rv).length : ℝ) + 1)^2 * eerr (h/v) A D ≤ h/v := by
        refine le_trans ?_ S.eerr_small
        gcongr
      have st := loop_step hc he (by simpa using hp) hr.1 (t := rv t) (fun s hs1 => hs'.2.2 s hs1 _ (by simp)) (by linarith) hsm
      have := ih (pre ++ [t]) (by simp) (by simpa using hT) (by simpa using hs) (by simpa using hl)
        (by rw [List.map_append]; exact st.1) (by
          rw [List.map_append]
          intro y hy
          rcases List.mem_append.1 hy with h1 | h1
          · have : rv y ≤ rv t := hs'.2.2 (rv y) (List.mem_map_of_mem h1) _ (by simp)
            exact le_trans this st.2.2
          · rw [List.mem_singleton] at h1; subst h1; exact st.2.2)
      simpa using this

/-! ### sorting -/

theorem insertF_rv (x : F64 R) (l : List (F64 R)) (hx : IsNum x) (hl : ∀ t ∈ l, IsNum t) :
    (insertF x l).map rv = (l.map rv).orderedInsert (· ≤ ·) (rv x) ∧ (insertF x l).Perm (x :: l) := by
  induction l with
  | nil => exact ⟨rfl, List.Perm.refl _⟩
  | cons y l ih =>
    obtain ⟨i1, i2⟩ := ih (fun t ht => hl t (by simp [ht]))
    have hy := hl y (by simp)
    have hlt : Arith.lt y x = decide (rv y < rv x) := by
      show XR.lt y.1 x.1 = _
      rw [hy, hx]; rfl
    simp only [insertF, List.map_cons, List.orderedInsert, hlt]
    by_cases hxy : rv y < rv x
    · simp only [hxy, decide_true, if_true]
      rw [if_neg (not_le.2 hxy), List.map_cons, i1]
      exact ⟨rfl, (i2.cons y).trans (List.Perm.swap x y l)⟩
    · simp only [hxy, decide_false, Bool.false_eq_true, if_false]
      rw [if_pos (not_lt.1 hxy)]
      exact ⟨rfl, List.Perm.refl _⟩

theorem sortF_rv (l : List (F64 R)) (hl : ∀ t ∈ l, IsNum t) :
    (sortF l).map rv = (l.map rv).insertionSort (· ≤ ·) ∧ (sortF l).Perm l := by
  induction l with
  | nil => exact ⟨rfl, List.Perm.refl _⟩
  | cons x l ih =>
    obtain ⟨i1, i2⟩ := ih (fun t ht => hl t (by simp [ht]))
    have := insertF_rv x (sortF l) (hl x (by simp)) (fun t ht => hl t (by simp [i2.subset ht]))
    rw [i1] at this
    exact ⟨by simp only [sortF, List.map_cons, List.insertionSort_cons]; exact this.1, by simp only [sortF]; exact this.2.trans (i2.cons x)⟩

/-- **`solveEikonal` in doubles** after the usable values have been collected: a number is returned which is within the error bound of the exact root for the
values it used, and every unused value is above it (up to the margin) -/
theorem solveList64 (S : Scale h v A D) {hF vF : F64 R} (hh : hF.1 = .fin h) (hv : vF.1 = .fin v) {ts : List (F64 R)} (hne : ts ≠ []) (hT : Times A ts)
    (hl : ts.length ≤ D) : Outcome64 (h/v) (eerr (h/v) A D) ((ts.map rv).insertionSort (· ≤ ·)) (solveList hF vF ts) := by
  obtain ⟨s1, s2⟩ := sortF_rv ts (fun t ht => (hT t ht).1)
  have e : solveList hF vF ts = eikLoop hF vF (sortF ts) 1 (ts.length - 1) := by
    cases ts with
    | nil => exact absurd rfl hne
    | cons t ts => rfl
  rw [e, ← s1]
  have hT' : Times A (sortF ts) := fun t ht => hT t (s2.subset ht)
  have hlen : (sortF ts).length = ts.length := s2.length_eq
  have hpw : ((sortF ts).map rv).Pairwise (· ≤ ·) := by rw [s1]; exact List.pairwise_insertionSort _ _
  have hc := S.cpos
  cases hs : sortF ts with
  | nil => rw [hs] at hlen; simp at hlen; exact absurd (List.length_eq_zero_iff.1 hlen.symm) hne
  | cons t rest =>
    rw [hs] at hlen hT' hpw
    have : ts.length - 1 = rest.length := by simp at hlen; omega
    rw [this]
    refine loop64 S hh hv rest [t] (by simp) hT' hpw (by simp at hlen ⊢; omega) ?_ ?_
    · have : discR (h/v) ([t].map rv) = (2 * (h/v))^2 := by simp [discR]; ring
      rw [this]; nlinarith [sq_nonneg (h/v)]
    · intro y hy
      rw [List.mem_singleton] at hy
      subst hy
      simp only [List.map_cons, List.map_nil]
      rw [ndR_one hc.le]
      linarith [eerr_nonneg hc A D]

end F64
end FMV
