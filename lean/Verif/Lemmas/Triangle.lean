import Verif.Lemmas.Compare
import Verif.Lemmas.FMMExact
import Verif.Lemmas.Approx
/-! Relations between exact solutions for different starting points: way points, several starts. -/
set_option linter.unusedSectionVars false
set_option linter.unusedVariables false
namespace FMV
open Spec Shape XR

theorem posSq_add (X d : ℝ) (m : WithTop ℝ) : posSq (d + X) ((d : WithTop ℝ) + m) = posSq X m := by
  cases m with
  | top => simp
  | coe m =>
    rw [← WithTop.coe_add, add_comm d X, add_comm d m]
    exact posSq_shift X d m

theorem dimMin_mono {s : Shape} {T T' : Nat → WithTop ℝ} (h : ∀ j, T j ≤ T' j) (i k : Nat) : dimMin s T i k ≤ dimMin s T' i k :=
  le_dimMin (fun j hj => le_trans (dimMin_le hj) (h j))

theorem dimMin_add {s : Shape} {T : Nat → WithTop ℝ} (d : ℝ) (i k : Nat) : dimMin s (fun j => (d : WithTop ℝ) + T j) i k ≤ (d : WithTop ℝ) + dimMin s T i k := by
  by_cases ht : dimMin s T i k = ⊤
  · rw [ht]; simp
  · obtain ⟨j, hj, e⟩ := dimMin_attained ht
    rw [e]
    exact dimMin_le (T := fun j => (d : WithTop ℝ) + T j) hj

/-- **way points**: the exact time from `src` is at most the time from `src` to `w` plus the time from `w` -/
theorem ExSol.triangle {dims : List Nat} (hf : Fits dims (2^31+1)) {c : Nat → ℝ} {src obs : Nat → Prop} {U V : Nat → WithTop ℝ} {w : Nat}
    (hc : ∀ i, i < dims.prod → ¬ obs i → 0 < c i)
    (hU : ExSol dims c src obs U) (hV : ExSol dims c (fun i => i = w) obs V) (i : Nat) (hi : i < dims.prod) :
    U i ≤ U w + V i := by
  cases huw : U w with
  | top => simp
  | coe d =>
    have hU0 := hU.nonneg hf (fun i hi _ ho => hc i hi ho)
    have hV0 := hV.nonneg hf (fun i hi _ ho => hc i hi ho)
    refine le_trans (ExSol.le_super hf (V := fun j => min (U j) ((d : WithTop ℝ) + V j)) (fun j hj _ ho => hc j hj ho) hU ?_ ?_ i hi) (min_le_right _ _)
    · intro j hj hs
      by_cases hw : w < dims.prod
      · have := hU0 w hw
        rw [huw] at this
        exact le_min (hU0 j hj) (add_nonneg this (hV0 j hj))
      · -- `w` is outside the grid: nothing is reached from it
        have hV' : V j = ⊤ := by
          by_contra hne
          have := ExSol.le_super hf (V := V) (U := fun _ => ⊤) (src := fun _ => False) (obs := obs) (c := c) (fun j hj _ ho => hc j hj ho) ?_ (fun _ _ h => h.elim) ?_ j hj
          · exact hne (top_le_iff.1 this)
          · intro k hk
            refine ⟨fun h => h.elim, fun _ _ => rfl, fun _ _ => Or.inr ⟨rfl, ?_⟩⟩
            intro m hm
            unfold mins at hm
            obtain ⟨q, _, rfl⟩ := List.mem_map.1 hm
            exact top_le_iff.1 (le_dimMin (fun _ _ => le_refl _))
          · intro k hk _ r hr
            have hkw : k ≠ w := fun e => hw (e ▸ hk)
            obtain ⟨_, v2, v3⟩ := hV k hk
            have ho : ¬ obs k := fun h => by rw [v2 hkw h] at hr; cases hr
            refine ⟨ho, ?_⟩
            rcases v3 hkw ho with ⟨r', e1, e2⟩ | ⟨e1, _⟩
            · rw [hr] at e1
              have : r = r' := by exact_mod_cast e1
              subst this; rw [e2]
            · rw [hr] at e1; cases e1
        show (0 : WithTop ℝ) ≤ min (U j) ((d : WithTop ℝ) + V j)
        rw [hV']; simpa using hU0 j hj
    · intro j hj hs r hr
      obtain ⟨_, u2, u3⟩ := hU j hj
      obtain ⟨v1, v2, v3⟩ := hV j hj
      rcases le_or_gt (U j) ((d : WithTop ℝ) + V j) with hle | hlt
      · have hr : U j = (r : WithTop ℝ) := by rw [← hr]; exact (min_eq_left hle).symm
        have ho : ¬ obs j := fun h => by rw [u2 hs h] at hr; cases hr
        refine ⟨ho, ?_⟩
        rcases u3 hs ho with ⟨r', e1, e2⟩ | ⟨e1, _⟩
        · rw [hr] at e1
          have : r = r' := by exact_mod_cast e1
          subst this
          rw [← e2]
          unfold mins
          apply residL_le_map
          intro k _
          exact posSq_anti _ (dimMin_mono (fun _ => min_le_left _ _) _ _)
        · rw [hr] at e1; cases e1
      · have hr : (d : WithTop ℝ) + V j = (r : WithTop ℝ) := by rw [← hr]; exact (min_eq_right hlt.le).symm
        have hjw : j ≠ w := by
          rintro rfl
          rw [huw, v1 rfl, add_zero] at hlt
          exact lt_irrefl _ hlt
        have ho : ¬ obs j := fun h => by rw [v2 hjw h] at hr; cases hr
        refine ⟨ho, ?_⟩
        rcases v3 hjw ho with ⟨r', e1, e2⟩ | ⟨e1, _⟩
        · rw [e1, ← WithTop.coe_add] at hr
          have : d + r' = r := by exact_mod_cast hr
          subst this
          rw [← e2]
          unfold mins
          apply residL_le_map
          intro k _
          rw [← posSq_add r' d]
          exact posSq_anti _ (le_trans (dimMin_mono (fun _ => min_le_right _ _) _ _) (dimMin_add _ _ _))
        · rw [e1] at hr; cases hr

/-- one step costs at most the crossing time of the entered cell -/
theorem ExSol.step_le {dims : List Nat} (hf : Fits dims (2^31+1)) {c : Nat → ℝ} {src obs : Nat → Prop} {U : Nat → WithTop ℝ}
    (hc : ∀ i, i < dims.prod → ¬ obs i → 0 < c i)
    (hU : ExSol dims c src obs U) {i j : Nat} (hi : i < dims.prod) (ho : ¬ obs i) (hj : j ∈ (Shape.mk' dims).nbrs i) :
    U i ≤ U j + ((c i : ℝ) : WithTop ℝ) := by
  have hU0 := hU.nonneg hf (fun i hi _ ho => hc i hi ho)
  have hci := hc i hi ho
  cases huj : U j with
  | top => simp
  | coe t =>
    by_cases hs : src i
    · rw [(hU i hi).1 hs]
      have hjN : j < dims.prod := FMM.nbr_lt hf hi hj
      have := hU0 j hjN
      rw [huj] at this
      have : 0 ≤ t := by exact_mod_cast this
      exact_mod_cast (by linarith : (0:ℝ) ≤ t + c i)
    · obtain ⟨m, hm, hmi⟩ := XInput.mins_le (T := U) hj
      rw [huj] at hmi
      rcases (hU i hi).2.2 hs ho with ⟨x, hx, hres⟩ | ⟨_, hall⟩
      · rw [hx]
        have h5 := posSq_anti x hmi
        have h6 := posSq_le_residL (X := x) hm
        rw [hres] at h6
        rw [posSq_coe] at h5
        have h7 : max (x - t) 0 ≤ c i := (abs_le_of_sq_le_sq' (h5.trans h6) hci.le).2
        have : x - t ≤ c i := (le_max_left _ _).trans h7
        exact_mod_cast (by linarith : x ≤ t + c i)
      · rw [hall m hm] at hmi
        exact absurd hmi (not_le.2 (WithTop.coe_lt_top _))

/-- some direction carries at least its share of the residual -/
theorem residL_share {X c : ℝ} (hc : 0 < c) : ∀ {n : Nat} {ms : List (WithTop ℝ)}, ms.length = n → residL X ms = c^2 →
    ∃ t : ℝ, (t : WithTop ℝ) ∈ ms ∧ c ≤ Real.sqrt n * (X - t) := by
  intro n ms hn hr
  by_contra hcon
  push Not at hcon
  -- every direction carries less
  have hn0 : 0 < n := by
    rcases Nat.eq_zero_or_pos n with h | h
    · subst h
      rw [List.length_eq_zero_iff] at hn
      subst hn
      simp at hr; nlinarith
    · exact h
  have hlt : ∀ m ∈ ms, (n : ℝ) * posSq X m < c^2 := by
    intro m hm
    cases m with
    | top => rw [posSq_top]; nlinarith
    | coe t =>
      have h1 := hcon t hm
      rw [posSq_coe]
      rcases le_or_gt (X - t) 0 with h2 | h2
      · rw [max_eq_right h2]; nlinarith
      · rw [max_eq_left h2.le]
        have h3 : Real.sqrt n ^ 2 = n := Real.sq_sqrt (by positivity)
        have h4 : 0 ≤ Real.sqrt n * (X - t) := by positivity
        have : (Real.sqrt n * (X - t))^2 < c^2 := by
          apply pow_lt_pow_left₀ h1 h4 (by norm_num)
        rw [mul_pow, h3] at this
        exact this
  have hsum : ∀ l : List (WithTop ℝ), l ≠ [] → (∀ m ∈ l, (n : ℝ) * posSq X m < c^2) → (n : ℝ) * residL X l < l.length * c^2 := by
    intro l
    induction l with
    | nil => simp
    | cons m l ih =>
      intro _ h
      have h1 := h m (by simp)
      rw [residL_cons]
      by_cases hl : l = []
      · subst hl; simp; simpa using h1
      · have h2 := ih hl (fun k hk => h k (by simp [hk]))
        push_cast [List.length_cons]
        nlinarith
  have hne : ms ≠ [] := by rintro rfl; simp at hn; omega
  have := hsum ms hne hlt
  rw [hr, hn] at this
  exact lt_irrefl _ this

/-- **several starts**: the exact time from a set of starts is at most `√n` times better than the one from the best of them alone -/
theorem ExSol.one_of {dims : List Nat} (hf : Fits dims (2^31+1)) {c : Nat → ℝ} {src obs : Nat → Prop} {U : Nat → WithTop ℝ} {V : Nat → Nat → WithTop ℝ}
    (hc : ∀ i, i < dims.prod → ¬ obs i → 0 < c i)
    (hU : ExSol dims c src obs U) (hV : ∀ s, s < dims.prod → src s → ExSol dims c (fun i => i = s) obs (V s)) :
    ∀ i, i < dims.prod → ∀ r : ℝ, U i = (r : WithTop ℝ) → ∃ s, s < dims.prod ∧ src s ∧ V s i ≤ ((Real.sqrt dims.length * r : ℝ) : WithTop ℝ) := by
  have key : ∀ q i, i < dims.prod → XInput.rank dims.prod U i ≤ q → ∀ r : ℝ, U i = (r : WithTop ℝ) →
      ∃ s, s < dims.prod ∧ src s ∧ V s i ≤ ((Real.sqrt dims.length * r : ℝ) : WithTop ℝ) := by
    intro q
    induction q with
    | zero =>
      intro i hi hq r hr
      by_cases hs : src i
      · have h0 := (hU i hi).1 hs
        rw [h0] at hr
        have : r = 0 := by exact_mod_cast hr.symm
        subst this
        exact ⟨i, hi, hs, by rw [((hV i hi hs) i hi).1 rfl]; simp⟩
      · exfalso
        by_cases ho : obs i
        · rw [(hU i hi).2.1 hs ho] at hr; cases hr
        rcases (hU i hi).2.2 hs ho with ⟨x, hx, hres⟩ | ⟨e, _⟩
        · have hci := hc i hi ho
          obtain ⟨t, ht, htc⟩ := residL_share hci (by unfold mins; simp; rfl) hres
          have htx : t < x := by
            by_contra hh
            have := mul_nonneg (Real.sqrt_nonneg (((Shape.mk' dims).ndims : ℕ) : ℝ)) (show 0 ≤ t - x by linarith)
            nlinarith
          unfold mins at ht
          obtain ⟨k, hk, hkt⟩ := List.mem_map.1 ht
          obtain ⟨j, hj, hje⟩ := dimMin_attained (s := Shape.mk' dims) (T := U) (i := i) (k := k) (by rw [hkt]; exact WithTop.coe_ne_top)
          have hjN : j < dims.prod := nbrsDim_lt hf hi (List.mem_range.1 hk) hj
          have : U j < U i := by
            rw [← hje, hkt, hx]; exact_mod_cast htx
          have := XInput.rank_lt hjN this
          omega
        · rw [e] at hr; cases hr
    | succ q ih =>
      intro i hi hq r hr
      by_cases hs : src i
      · have h0 := (hU i hi).1 hs
        rw [h0] at hr
        have : r = 0 := by exact_mod_cast hr.symm
        subst this
        exact ⟨i, hi, hs, by rw [((hV i hi hs) i hi).1 rfl]; simp⟩
      · by_cases ho : obs i
        · rw [(hU i hi).2.1 hs ho] at hr; cases hr
        rcases (hU i hi).2.2 hs ho with ⟨x, hx, hres⟩ | ⟨e, _⟩
        · have hci := hc i hi ho
          have hxr : x = r := by rw [hx] at hr; exact_mod_cast hr
          subst hxr
          obtain ⟨t, ht, htc⟩ := residL_share hci (n := dims.length) (by unfold mins; simp; rfl) hres
          have htx : t < x := by
            by_contra hh
            have := mul_nonneg (Real.sqrt_nonneg ((dims.length : ℕ) : ℝ)) (show 0 ≤ t - x by linarith)
            nlinarith
          unfold mins at ht
          obtain ⟨k, hk, hkt⟩ := List.mem_map.1 ht
          obtain ⟨j, hj, hje⟩ := dimMin_attained (s := Shape.mk' dims) (T := U) (i := i) (k := k) (by rw [hkt]; exact WithTop.coe_ne_top)
          have hjN : j < dims.prod := nbrsDim_lt hf hi (List.mem_range.1 hk) hj
          have hlt : U j < U i := by
            rw [← hje, hkt, hx]; exact_mod_cast htx
          have hrk := XInput.rank_lt hjN hlt
          have hujt : U j = (t : WithTop ℝ) := by rw [← hje, hkt]
          obtain ⟨s, hsN, hss, hle⟩ := ih j hjN (by omega) t hujt
          refine ⟨s, hsN, hss, ?_⟩
          have hjn : j ∈ (Shape.mk' dims).nbrs i := mem_nbrs.2 ⟨k, List.mem_range.1 hk, hj⟩
          have h1 := (hV s hsN hss).step_le hf hc hi ho hjn
          refine le_trans h1 (le_trans (add_le_add_left hle _) ?_)
          rw [← WithTop.coe_add]
          exact_mod_cast (by nlinarith : Real.sqrt dims.length * t + c i ≤ Real.sqrt dims.length * x)
        · rw [e] at hr; cases hr
  exact fun i hi => key _ i hi (le_refl _)
end FMV
