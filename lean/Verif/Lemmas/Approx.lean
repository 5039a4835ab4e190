import Verif.Lemmas.Accuracy
import Verif.Lemmas.ApproxReal
/-! Comparison with the exact solution when the local solver and the acceptance test carry errors. -/
set_option linter.unusedSectionVars false
set_option linter.unusedVariables false
namespace FMV
open Spec Shape XR

/-- `x` is what an approximate local solver returns for directional minima `ms` and present time `Ti`: `θ` is its error in the residual, `β` its excess. -/
structure Apr (c θ β : ℝ) (Ti : WithTop ℝ) (ms : List (WithTop ℝ)) (x : WithTop ℝ) : Prop where
  top : (∀ m ∈ ms, m = ⊤ ∨ Ti ≤ m) → x = ⊤
  lower : ∀ u : ℝ, x = (u : WithTop ℝ) → (c - θ)^2 ≤ residL u ms
  upper : ∀ Y : ℝ, (Y : WithTop ℝ) < Ti → c^2 ≤ residL Y ms → x ≤ ((Y + β : ℝ) : WithTop ℝ)
  near : ∀ t : ℝ, (t : WithTop ℝ) ∈ ms → (t : WithTop ℝ) < Ti → x ≤ ((t + (c + β) : ℝ) : WithTop ℝ)

/-- the residual grows at least as fast as the square of a distance -/
theorem residL_grow {a d X : ℝ} (ha : 0 < a) (hd : 0 ≤ d) {ms : List (WithTop ℝ)} (h : a^2 ≤ residL X ms) : (a + d)^2 ≤ residL (X + d) ms := by
  -- sums of positive parts
  have key : ∀ ms : List (WithTop ℝ), ∃ S : ℝ, 0 ≤ S ∧ residL X ms ≤ S^2 ∧ residL X ms + 2 * d * S ≤ residL (X + d) ms ∧
      (0 < residL X ms → residL X ms + 2 * d * S + d^2 ≤ residL (X + d) ms) := by
    intro ms
    induction ms with
    | nil => exact ⟨0, by simp⟩
    | cons m ms ih =>
      obtain ⟨S, s0, s1, s2, s3⟩ := ih
      cases m with
      | top => simpa using ⟨S, s0, s1, s2, s3⟩
      | coe m =>
        have hR := residL_nonneg X ms
        rcases le_or_gt X m with hm | hm
        · refine ⟨S, s0, ?_, ?_, ?_⟩
          · rw [residL_cons, posSq_eq_zero (by exact_mod_cast hm), zero_add]; exact s1
          · rw [residL_cons, residL_cons, posSq_eq_zero (by exact_mod_cast hm), zero_add]
            linarith [posSq_nonneg (X + d) (m : WithTop ℝ)]
          · rw [residL_cons, residL_cons, posSq_eq_zero (by exact_mod_cast hm), zero_add]
            intro hp
            linarith [posSq_nonneg (X + d) (m : WithTop ℝ), s3 hp]
        · have e1 : posSq X (m : WithTop ℝ) = (X - m)^2 := by rw [posSq_coe, max_eq_left (by linarith)]
          have e2 : posSq (X + d) (m : WithTop ℝ) = (X + d - m)^2 := by rw [posSq_coe, max_eq_left (by linarith)]
          have hx : 0 < X - m := by linarith
          refine ⟨S + (X - m), by linarith, ?_, ?_, ?_⟩
          · rw [residL_cons, e1]; nlinarith
          · rw [residL_cons, residL_cons, e1, e2]; nlinarith [sq_nonneg d]
          · intro _
            rw [residL_cons, residL_cons, e1, e2]; nlinarith
  obtain ⟨S, s0, s1, s2, s3⟩ := key ms
  have hpos : 0 < residL X ms := lt_of_lt_of_le (by positivity) h
  have h3 := s3 hpos
  have haS : a ≤ S := by
    have : a^2 ≤ S^2 := le_trans h s1
    exact abs_le_of_sq_le_sq' this s0 |>.2
  have : 2 * d * a ≤ 2 * d * S := mul_le_mul_of_nonneg_left haS (by linarith)
  nlinarith

theorem residL_pos_lt {X : ℝ} {ms : List (WithTop ℝ)} (h : 0 < residL X ms) : ∃ t : ℝ, (t : WithTop ℝ) ∈ ms ∧ t < X := by
  induction ms with
  | nil => simp at h
  | cons m ms ih =>
    by_cases hp : 0 < residL X ms
    · obtain ⟨t, h1, h2⟩ := ih hp; exact ⟨t, by simp [h1], h2⟩
    · have h0 : residL X ms = 0 := le_antisymm (not_lt.1 hp) (residL_nonneg _ _)
      rw [residL_cons, h0, add_zero] at h
      cases m with
      | top => simp at h
      | coe t =>
        refine ⟨t, by simp, ?_⟩
        by_contra hc
        rw [posSq_eq_zero (by exact_mod_cast not_lt.1 hc)] at h
        exact lt_irrefl _ h

/-- multiplication by a number -/
noncomputable def scl (a : ℝ) (t : WithTop ℝ) : WithTop ℝ := WithTop.map (fun r => a * r) t
@[simp] theorem scl_top (a : ℝ) : scl a ⊤ = ⊤ := rfl
@[simp] theorem scl_coe (a r : ℝ) : scl a (r : WithTop ℝ) = ((a * r : ℝ) : WithTop ℝ) := rfl

theorem scl_zero (a : ℝ) : scl a 0 = 0 := by
  show ((a * 0 : ℝ) : WithTop ℝ) = 0
  rw [mul_zero]; rfl

theorem scl_mono {a : ℝ} (ha : 0 ≤ a) {s t : WithTop ℝ} (h : s ≤ t) : scl a s ≤ scl a t := by
  cases t with
  | top => simp
  | coe t =>
    cases s with
    | top => simp at h
    | coe s =>
      have : s ≤ t := by exact_mod_cast h
      simp only [scl_coe]
      exact_mod_cast mul_le_mul_of_nonneg_left this ha

theorem posSq_scl {a : ℝ} (ha : 0 < a) (X : ℝ) (m : WithTop ℝ) : posSq (a * X) (scl a m) = a^2 * posSq X m := by
  cases m with
  | top => simp
  | coe m =>
    simp only [scl_coe, posSq_coe]
    have : a * X - a * m = a * (X - m) := by ring
    rw [this, ← mul_zero a, ← mul_max_of_nonneg _ _ ha.le, mul_zero]; ring

namespace XInput
variable {dims : List Nat} {g : Grid XR} {h : ℝ} {v : Nat → ℝ} {pts : List Nat}

/-- Lower bound with errors: from times at or above `a·U`, a local solver whose residual error is at most `(1-a)c` stays there. -/
theorem lower_rel (X : XInput dims g h v pts) {U : Nat → WithTop ℝ} (hU : X.problem.IsSolution U) {T : Nat → WithTop ℝ} {a : ℝ} (ha : 0 < a)
    (hT : ∀ j, j < dims.prod → scl a (U j) ≤ T j) {i : Nat} (hi : i < dims.prod) (ho : g.occ i = false) {x : WithTop ℝ}
    (hx : ∀ u : ℝ, x = (u : WithTop ℝ) → (a * (h / v i))^2 ≤ residL u (mins (Shape.mk' dims) T i)) :
    scl a (U i) ≤ x := by
  have hE := X.exSol hU
  have hc := X.cpos hi ho
  have hcc := X.csq hi ho
  have hnn := hE.nonneg X.fits (fun i hi _ ho => X.cpos hi (by simpa using ho))
  obtain ⟨e1, _, e3⟩ := hE i hi
  cases x with
  | top => exact le_top
  | coe u =>
    have h1 := hx u rfl
    have h2 : residL u (mins (Shape.mk' dims) T i) ≤ a^2 * residL (u / a) (mins (Shape.mk' dims) U i) := by
      unfold mins residL
      rw [← List.sum_map_mul_left, List.map_map, List.map_map]
      apply List.sum_le_sum
      intro k hk
      show posSq u (dimMin (Shape.mk' dims) T i k) ≤ a^2 * posSq (u / a) (dimMin (Shape.mk' dims) U i k)
      rw [← posSq_scl ha]
      have : a * (u / a) = u := by field_simp
      rw [this]
      apply posSq_anti
      apply le_dimMin
      intro j hj
      exact le_trans (scl_mono ha.le (dimMin_le hj)) (hT j (nbrsDim_lt X.fits hi (List.mem_range.1 hk) hj))
    have h3 : (h / v i)^2 ≤ residL (u / a) (mins (Shape.mk' dims) U i) := by
      have : a^2 * (h / v i)^2 ≤ a^2 * residL (u / a) (mins (Shape.mk' dims) U i) := by
        rw [mul_pow] at h1; linarith
      exact le_of_mul_le_mul_left this (by positivity)
    by_cases hs : i ∈ pts
    · rw [e1 hs]
      obtain ⟨t, ht, htu⟩ := residL_pos_lt (lt_of_lt_of_le hcc h3)
      have ht0 : (0 : WithTop ℝ) ≤ (t : WithTop ℝ) := by
        unfold mins at ht
        rw [List.mem_map] at ht
        obtain ⟨k, hk, hkt⟩ := ht
        rw [← hkt]
        exact le_dimMin (fun j hj => hnn j (nbrsDim_lt X.fits hi (List.mem_range.1 hk) hj))
      have ht0' : (0:ℝ) ≤ t := by exact_mod_cast ht0
      have : 0 < u := by
        have h4 : 0 < u / a := by linarith
        have := mul_pos h4 ha
        rwa [div_mul_cancel₀ _ ha.ne'] at this
      rw [scl_zero]; exact_mod_cast this.le
    · rcases e3 hs (by simpa using ho) with ⟨r, f1, f2⟩ | ⟨f1, f2⟩
      · rw [f1, scl_coe]
        by_contra hlt
        have hlt' : u < a * r := by
          have := not_le.1 hlt
          exact_mod_cast this
        have hlt2 : u / a < r := by rw [div_lt_iff₀ ha]; linarith
        have := residL_strict hlt2 (ms := mins (Shape.mk' dims) U i) (by rw [f2]; exact hcc)
        rw [f2] at this
        linarith
      · exfalso
        obtain ⟨t, ht, _⟩ := residL_pos_lt (lt_of_lt_of_le hcc h3)
        exact WithTop.coe_ne_top (f2 _ ht)

/-- one cell: if the cells that precede `i` exceed their exact times by at most the factor and `i` is converged up to `δ`, so does `i` -/
theorem step_rel (X : XInput dims g h v pts) {U : Nat → WithTop ℝ} (hU : X.problem.IsSolution U) {T : Nat → WithTop ℝ}
    {δ cm : ℝ} (hδ : 0 ≤ δ) (hcm : 0 < cm) (hcmin : ∀ i, i < dims.prod → g.occ i = false → cm ≤ h / v i) {i : Nat} (hi : i < dims.prod)
    (hsrc : i ∈ pts → T i ≤ 0) (hconv : g.occ i = false → i ∉ pts → X.Conv T δ i)
    (ih : ∀ j, j < dims.prod → U j < U i → T j ≤ scl (1 + 2 * dims.length * δ / cm) (U j)) : T i ≤ scl (1 + 2 * dims.length * δ / cm) (U i) := by
  have hE := X.exSol hU
  set κ : ℝ := 2 * dims.length * δ / cm with hκ
  have hκ0 : 0 ≤ κ := by positivity
  obtain ⟨e1, e2, e3⟩ := hE i hi
  by_cases hs : i ∈ pts
  · rw [e1 hs]
    rw [scl_zero]; exact hsrc hs
  cases ho : g.occ i with
  | true => rw [e2 hs ho]; simp
  | false =>
    rcases e3 hs (by simp [ho]) with ⟨r, f1, f2⟩ | ⟨f1, _⟩
    · have hc := X.cpos hi ho
      have hcm' := hcmin i hi ho
      have hres : (h / v i)^2 ≤ residL ((1 + κ) * r - δ) (mins (Shape.mk' dims) T i) := by
        -- each direction
        have hdir : ∀ k ∈ List.range dims.length, (1 + κ) * ((1 + κ) * posSq r (dimMin (Shape.mk' dims) U i k) - 2 * δ * (h / v i)) ≤
            posSq ((1 + κ) * r - δ) (dimMin (Shape.mk' dims) T i k) := by
          intro k hk
          have hk' := List.mem_range.1 hk
          rcases lt_or_ge (dimMin (Shape.mk' dims) U i k) (r : WithTop ℝ) with hlt | hge
          · obtain ⟨j, hj, hje⟩ := dimMin_attained (s := Shape.mk' dims) (T := U) (i := i) (k := k) (ne_top_of_lt hlt)
            have hjN := nbrsDim_lt X.fits hi hk' hj
            have hle : posSq r (dimMin (Shape.mk' dims) U i k) ≤ (h / v i)^2 := by
              rw [← f2]
              apply posSq_le_residL
              unfold mins
              exact List.mem_map_of_mem hk
            rw [hje] at hlt hle ⊢
            have hTj := ih j hjN (by rw [f1]; exact hlt)
            cases hUj : U j with
            | top => rw [hUj] at hlt; exact absurd hlt not_top_lt
            | coe m =>
              rw [hUj] at hTj hlt hle
              have hmr : m < r := by exact_mod_cast hlt
              rw [scl_coe] at hTj
              refine le_trans ?_ (posSq_anti _ (le_trans (dimMin_le hj) hTj))
              rw [posSq_coe] at hle ⊢
              rw [max_eq_left (by linarith)] at hle ⊢
              have hale : r - m ≤ h / v i := abs_le_of_sq_le_sq' hle hc.le |>.2
              rw [posSq_coe]
              set a := r - m with ha
              have ha0 : 0 < a := by rw [ha]; linarith
              have e4 : (1 + κ) * r - δ - (1 + κ) * m = (1 + κ) * a - δ := by rw [ha]; ring
              rw [e4]
              have h5 : (1 + κ) * ((1 + κ) * a^2 - 2 * δ * (h / v i)) ≤ (1 + κ)^2 * a^2 - 2 * δ * ((1 + κ) * a) := by
                have h7 : δ * a ≤ δ * (h / v i) := mul_le_mul_of_nonneg_left hale hδ
                have h8 := mul_le_mul_of_nonneg_left h7 (show 0 ≤ 1 + κ by linarith)
                nlinarith
              refine le_trans h5 ?_
              set b := (1 + κ) * a with hb
              have hb0 : 0 ≤ b := by positivity
              have h6 : (1 + κ)^2 * a^2 - 2 * δ * b = b^2 - 2 * δ * b := by rw [hb]; ring
              rw [h6]
              rcases le_total b δ with h7 | h7
              · nlinarith [sq_nonneg (max (b - δ) 0)]
              · rw [max_eq_left (by linarith)]; nlinarith [sq_nonneg δ]
          · rw [posSq_eq_zero hge]
            have h9 := posSq_nonneg ((1 + κ) * r - δ) (dimMin (Shape.mk' dims) T i k)
            have : 0 ≤ (1 + κ) * (2 * δ * (h / v i)) := by positivity
            linarith
        have hsum := List.sum_le_sum hdir
        have e6 : residL ((1 + κ) * r - δ) (mins (Shape.mk' dims) T i) =
            ((List.range dims.length).map (fun k => posSq ((1 + κ) * r - δ) (dimMin (Shape.mk' dims) T i k))).sum := by
          unfold residL mins; rw [List.map_map]; rfl
        have e7 : residL r (mins (Shape.mk' dims) U i) = ((List.range dims.length).map (fun k => posSq r (dimMin (Shape.mk' dims) U i k))).sum := by
          unfold residL mins; rw [List.map_map]; rfl
        rw [e6]
        refine le_trans ?_ hsum
        have e8 : ((List.range dims.length).map (fun k => (1 + κ) * ((1 + κ) * posSq r (dimMin (Shape.mk' dims) U i k) - 2 * δ * (h / v i)))).sum =
            (1 + κ) * ((1 + κ) * (h / v i)^2 - dims.length * (2 * δ * (h / v i))) := by
          rw [← f2, e7]
          have : ∀ l : List Nat, (l.map (fun k => (1 + κ) * ((1 + κ) * posSq r (dimMin (Shape.mk' dims) U i k) - 2 * δ * (h / v i)))).sum =
              (1 + κ) * ((1 + κ) * (l.map (fun k => posSq r (dimMin (Shape.mk' dims) U i k))).sum - l.length * (2 * δ * (h / v i))) := by
            intro l
            induction l with
            | nil => simp
            | cons k l ihl => simp only [List.map_cons, List.sum_cons, List.length_cons, ihl]; push_cast; ring
          rw [this, List.length_range]
        rw [e8]
        have h10 : dims.length * (2 * δ * (h / v i)) ≤ κ * (h / v i)^2 := by
          have h11 : κ * cm = 2 * dims.length * δ := by rw [hκ]; field_simp
          have h12 : κ * cm ≤ κ * (h / v i) := mul_le_mul_of_nonneg_left hcm' hκ0
          have h13 := mul_le_mul_of_nonneg_right h12 hc.le
          rw [h11] at h13
          nlinarith
        have h14 : 0 ≤ (h / v i)^2 := sq_nonneg _
        nlinarith
      have := hconv ho hs _ hres
      rw [f1, scl_coe]
      refine le_trans this ?_
      have : (1 + κ) * r - δ + δ = (1 + κ) * r := by ring
      rw [this]
    · rw [f1]; simp

/-- **Relative accuracy**: if initial points have time at most 0 and every free cell is converged up to `δ`, the times exceed the exact ones by at most
the factor `1 + 2·D·δ/c`, where `c` is the shortest time it takes to cross a cell and `D` the number of dimensions. -/
theorem accuracy_rel (X : XInput dims g h v pts) {U : Nat → WithTop ℝ} (hU : X.problem.IsSolution U) {T : Nat → WithTop ℝ}
    {δ cm : ℝ} (hδ : 0 ≤ δ) (hcm : 0 < cm) (hcmin : ∀ i, i < dims.prod → g.occ i = false → cm ≤ h / v i) (hsrc : ∀ i ∈ pts, T i ≤ 0)
    (hconv : ∀ i, i < dims.prod → g.occ i = false → i ∉ pts → X.Conv T δ i) :
    ∀ i, i < dims.prod → T i ≤ scl (1 + 2 * dims.length * δ / cm) (U i) := by
  suffices H : ∀ n i, i < dims.prod → rank dims.prod U i = n → T i ≤ scl (1 + 2 * dims.length * δ / cm) (U i) from fun i hi => H _ i hi rfl
  intro n
  induction n using Nat.strong_induction_on with
  | _ n ih =>
    intro i hi hn
    refine X.step_rel hU hδ hcm hcmin hi (hsrc i) (hconv i hi) ?_
    intro j hj hlt
    have := rank_lt (U := U) (i := i) (N := dims.prod) hj hlt
    exact ih (rank dims.prod U j) (by omega) j hj rfl

end XInput
end FMV
