import Verif.Lemmas.Exact
/-! Comparison of the exact solution with super- and subsolutions. -/
set_option linter.unusedSectionVars false
set_option linter.unusedVariables false
namespace FMV
open Spec Shape

theorem residL_all_top (r : ℝ) : ∀ {ms : List (WithTop ℝ)}, (∀ m ∈ ms, m = ⊤) → residL r ms = 0 := by
  intro ms
  induction ms with
  | nil => simp
  | cons m ms ih =>
    intro h
    rw [residL_cons, h m (by simp), posSq_top, ih (fun m hm => h m (by simp [hm])), zero_add]

/-- a map of times whose residual is at least the crossing time wherever it is finite lies above the exact solution -/
theorem ExSol.le_super {dims : List Nat} (hf : Fits dims (2^31+1)) {c : Nat → ℝ} {src obs : Nat → Prop} {U V : Nat → WithTop ℝ}
    (hc : ∀ i, i < dims.prod → ¬ src i → ¬ obs i → 0 < c i)
    (hU : ExSol dims c src obs U) (hV0 : ∀ i, i < dims.prod → src i → 0 ≤ V i)
    (hV : ∀ i, i < dims.prod → ¬ src i → ∀ r : ℝ, V i = (r : WithTop ℝ) → ¬ obs i ∧ (c i)^2 ≤ residL r (mins (Shape.mk' dims) V i)) :
    ∀ i, i < dims.prod → U i ≤ V i := by
  by_contra hcon
  push Not at hcon
  obtain ⟨i0, hi0, hlt0⟩ := hcon
  classical
  obtain ⟨i, hi, hmin⟩ : ∃ i ∈ (Finset.range dims.prod).filter (fun i => V i < U i), ∀ j ∈ (Finset.range dims.prod).filter (fun i => V i < U i), V i ≤ V j :=
    Finset.exists_min_image _ V ⟨i0, by simp [hi0, hlt0]⟩
  rw [Finset.mem_filter, Finset.mem_range] at hi
  obtain ⟨hiN, hlt⟩ := hi
  have hmin' : ∀ j, j < dims.prod → V j < V i → U j ≤ V j := by
    intro j hj hjv
    by_contra hh
    exact absurd (hmin j (by simp [hj, not_le.1 hh])) (not_le.2 hjv)
  obtain ⟨u1, u2, u3⟩ := hU i hiN
  by_cases hs : src i
  · rw [u1 hs] at hlt; exact absurd (hV0 i hiN hs) (not_le.2 hlt)
  obtain ⟨r, e1⟩ : ∃ r : ℝ, V i = (r : WithTop ℝ) := by
    cases hv : V i with
    | top => rw [hv] at hlt; exact absurd hlt not_top_lt
    | coe r => exact ⟨r, rfl⟩
  obtain ⟨ho, e2⟩ := hV i hiN hs r e1
  have hci := hc i hiN hs ho
  have hcc : (0:ℝ) < (c i)^2 := by positivity
  have hres : (c i)^2 ≤ residL r (mins (Shape.mk' dims) U i) := by
    refine le_trans e2 ?_
    unfold mins
    apply residL_le_map
    intro k hk
    rcases lt_or_ge (dimMin (Shape.mk' dims) V i k) (r : WithTop ℝ) with hlt' | hge
    · apply posSq_anti
      obtain ⟨j, hj, hje⟩ := dimMin_attained (s := Shape.mk' dims) (T := V) (i := i) (k := k) (ne_top_of_lt hlt')
      have hjN : j < dims.prod := nbrsDim_lt hf hiN (List.mem_range.1 hk) hj
      rw [hje, ← e1] at hlt'
      rw [hje]
      exact le_trans (dimMin_le hj) (hmin' j hjN hlt')
    · rw [posSq_eq_zero hge]; exact posSq_nonneg _ _
  rw [e1] at hlt
  rcases u3 hs ho with ⟨r', f1, f2⟩ | ⟨f1, f2⟩
  · rw [f1] at hlt
    have hrr : r < r' := by exact_mod_cast hlt
    have := residL_strict hrr (ms := mins (Shape.mk' dims) U i) (by rw [f2]; exact hcc)
    rw [f2] at this
    linarith
  · rw [residL_all_top r f2] at hres; linarith

/-- a map of real numbers whose residual is at most the crossing time lies below the exact solution -/
theorem ExSol.ge_sub {dims : List Nat} (hf : Fits dims (2^31+1)) {c : Nat → ℝ} {src obs : Nat → Prop} {U : Nat → WithTop ℝ} {W : Nat → ℝ}
    (hc : ∀ i, i < dims.prod → ¬ src i → ¬ obs i → 0 < c i)
    (hU : ExSol dims c src obs U) (hW0 : ∀ i, i < dims.prod → src i → W i ≤ 0)
    (hW : ∀ i, i < dims.prod → ¬ src i → ¬ obs i → residL (W i) (mins (Shape.mk' dims) (fun j => (W j : WithTop ℝ)) i) ≤ (c i)^2) :
    ∀ i, i < dims.prod → (W i : WithTop ℝ) ≤ U i := by
  by_contra hcon
  push Not at hcon
  obtain ⟨i0, hi0, hlt0⟩ := hcon
  classical
  obtain ⟨i, hi, hmin⟩ : ∃ i ∈ (Finset.range dims.prod).filter (fun i => U i < (W i : WithTop ℝ)),
      ∀ j ∈ (Finset.range dims.prod).filter (fun i => U i < (W i : WithTop ℝ)), U i ≤ U j :=
    Finset.exists_min_image _ U ⟨i0, by simp [hi0, hlt0]⟩
  rw [Finset.mem_filter, Finset.mem_range] at hi
  obtain ⟨hiN, hlt⟩ := hi
  have hmin' : ∀ j, j < dims.prod → U j < U i → (W j : WithTop ℝ) ≤ U j := by
    intro j hj hjv
    by_contra hh
    exact absurd (hmin j (by simp [hj, not_le.1 hh])) (not_le.2 hjv)
  obtain ⟨u1, u2, u3⟩ := hU i hiN
  by_cases hs : src i
  · rw [u1 hs] at hlt
    have : (0:ℝ) < W i := by exact_mod_cast hlt
    linarith [hW0 i hiN hs]
  by_cases ho : obs i
  · rw [u2 hs ho] at hlt; exact absurd hlt not_top_lt
  have hci := hc i hiN hs ho
  have hcc : (0:ℝ) < (c i)^2 := by positivity
  rcases u3 hs ho with ⟨r, e1, e2⟩ | ⟨f1, f2⟩
  · have hres : (c i)^2 ≤ residL r (mins (Shape.mk' dims) (fun j => (W j : WithTop ℝ)) i) := by
      rw [← e2]
      unfold mins
      apply residL_le_map
      intro k hk
      rcases lt_or_ge (dimMin (Shape.mk' dims) U i k) (r : WithTop ℝ) with hlt' | hge
      · apply posSq_anti
        obtain ⟨j, hj, hje⟩ := dimMin_attained (s := Shape.mk' dims) (T := U) (i := i) (k := k) (ne_top_of_lt hlt')
        have hjN : j < dims.prod := nbrsDim_lt hf hiN (List.mem_range.1 hk) hj
        rw [hje, ← e1] at hlt'
        rw [hje]
        exact le_trans (dimMin_le (T := fun j => (W j : WithTop ℝ)) hj) (hmin' j hjN hlt')
      · rw [posSq_eq_zero hge]; exact posSq_nonneg _ _
    rw [e1] at hlt
    have hrr : r < W i := by exact_mod_cast hlt
    have h1 := hW i hiN hs ho
    have hp : 0 < residL (W i) (mins (Shape.mk' dims) (fun j => (W j : WithTop ℝ)) i) :=
      lt_of_lt_of_le (lt_of_lt_of_le hcc hres) (residL_mono hrr.le _)
    have := residL_strict hrr hp
    linarith
  · rw [f1] at hlt; exact absurd hlt not_top_lt

/-- the exact solution depends monotonically on crossing times, obstacles and sources -/
theorem ExSol.mono {dims : List Nat} (hf : Fits dims (2^31+1)) {c c' : Nat → ℝ} {src obs src' obs' : Nat → Prop} {U V : Nat → WithTop ℝ}
    (hc : ∀ i, i < dims.prod → ¬ src i → ¬ obs i → 0 < c i) (hc' : ∀ i, i < dims.prod → ¬ src' i → ¬ obs' i → 0 < c' i)
    (hU : ExSol dims c src obs U) (hV : ExSol dims c' src' obs' V) (hV0 : ∀ i, i < dims.prod → 0 ≤ V i)
    (h1 : ∀ i, i < dims.prod → src' i → src i) (h2 : ∀ i, i < dims.prod → obs i → obs' i)
    (h3 : ∀ i, i < dims.prod → ¬ obs' i → c i ≤ c' i) : ∀ i, i < dims.prod → U i ≤ V i := by
  apply ExSol.le_super hf hc hU (fun i hi _ => hV0 i hi)
  intro i hi hs r hr
  have hs' : ¬ src' i := fun h => hs (h1 i hi h)
  obtain ⟨_, v2, v3⟩ := hV i hi
  have ho' : ¬ obs' i := fun h => by rw [v2 hs' h] at hr; cases hr
  have ho : ¬ obs i := fun h => ho' (h2 i hi h)
  refine ⟨ho, ?_⟩
  rcases v3 hs' ho' with ⟨r', e1, e2⟩ | ⟨e1, _⟩
  · rw [hr] at e1
    have : r = r' := by exact_mod_cast e1
    subst this
    rw [e2]
    exact pow_le_pow_left₀ (hc i hi hs ho).le (h3 i hi ho') 2
  · rw [hr] at e1; cases e1

/-- equality version: the two problems only have to agree on what matters -/
theorem ExSol.congr {dims : List Nat} (hf : Fits dims (2^31+1)) {c c' : Nat → ℝ} {src obs src' obs' : Nat → Prop} {U V : Nat → WithTop ℝ}
    (hc : ∀ i, i < dims.prod → ¬ src i → ¬ obs i → 0 < c i) (hc' : ∀ i, i < dims.prod → ¬ src' i → ¬ obs' i → 0 < c' i)
    (hU : ExSol dims c src obs U) (hV : ExSol dims c' src' obs' V)
    (h1 : ∀ i, i < dims.prod → (src' i ↔ src i)) (h2 : ∀ i, i < dims.prod → (obs i ↔ obs' i))
    (h3 : ∀ i, i < dims.prod → ¬ obs i → c i = c' i) : ∀ i, i < dims.prod → U i = V i := fun i hi =>
  le_antisymm (ExSol.mono hf hc hc' hU hV (hV.nonneg hf hc') (fun i hi => (h1 i hi).1) (fun i hi => (h2 i hi).1)
      (fun i hi ho => (h3 i hi (fun h => ho ((h2 i hi).1 h))).le) i hi)
    (ExSol.mono hf hc' hc hV hU (hU.nonneg hf hc) (fun i hi => (h1 i hi).2) (fun i hi => (h2 i hi).2) (fun i hi ho => (h3 i hi ho).ge) i hi)
end FMV
