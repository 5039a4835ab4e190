import Verif.Lemmas.Compare
import Verif.Spec.Heuristic
import Mathlib.Analysis.SpecialFunctions.Log.Basic
import Mathlib.Algebra.Order.Chebyshev
import Mathlib.Algebra.BigOperators.Field
/-! Straight-line distance as a barrier for the discrete Eikonal equation. -/
set_option linter.unusedSectionVars false
set_option linter.unusedVariables false
namespace FMV
open Spec Shape
variable {dims : List Nat}

/-- distance of two cells along axis `k` -/
noncomputable def dk (dims : List Nat) (i p k : Nat) : ℝ := (digit dims i k : ℝ) - digit dims p k

/-- squared distance of two cells -/
noncomputable def sqD (dims : List Nat) (i p : Nat) : ℝ := ∑ k ∈ Finset.range dims.length, (dk dims i p k)^2

theorem sqD_nonneg (i p : Nat) : 0 ≤ sqD dims i p := Finset.sum_nonneg (fun _ _ => sq_nonneg _)

theorem euclid_eq (hf : Fits dims (2^31+1)) {i p : Nat} (hi : i < dims.prod) (hp : p < dims.prod) :
    euclid ((Shape.mk' dims).idx2coord i) ((Shape.mk' dims).idx2coord p) = Real.sqrt (sqD dims i p) := by
  have h32 : Fits dims 4294967296 := hf.mono (by norm_num)
  rw [idx2coord_eq h32 hi, idx2coord_eq h32 hp]
  unfold euclid sqD
  congr 1
  rw [List.zipWith_map, List.zipWith_self, sum_map_range]
  rfl

theorem dk_sq_le {i p k : Nat} (hk : k < dims.length) : (dk dims i p k)^2 ≤ sqD dims i p :=
  Finset.single_le_sum (f := fun k => (dk dims i p k)^2) (fun _ _ => sq_nonneg _) (Finset.mem_range.2 hk)

/-- distance of a neighbour -/
theorem sqD_nbr (hf : Fits dims (2^31+1)) {i j k p : Nat} (hi : i < dims.prod) (hk : k < dims.length) (hj : j ∈ (Shape.mk' dims).nbrsDim i k) :
    ∃ σ : ℝ, (σ = 1 ∨ σ = -1) ∧ (digit dims j k : ℝ) = digit dims i k + σ ∧ sqD dims j p = sqD dims i p + 2 * σ * dk dims i p k + 1 := by
  obtain ⟨h1, h2⟩ := nbrsDim_digits hf hi hk hj
  obtain ⟨σ, hσ, he⟩ : ∃ σ : ℝ, (σ = 1 ∨ σ = -1) ∧ (digit dims j k : ℝ) = digit dims i k + σ := by
    rcases h1 with h1 | h1
    · exact ⟨1, Or.inl rfl, by rw [← h1]; push_cast; ring⟩
    · exact ⟨-1, Or.inr rfl, by rw [← h1]; push_cast; ring⟩
  refine ⟨σ, hσ, he, ?_⟩
  unfold sqD
  rw [← Finset.add_sum_erase _ _ (Finset.mem_range.2 hk), ← Finset.add_sum_erase (Finset.range dims.length) (fun m => (dk dims i p m)^2) (Finset.mem_range.2 hk)]
  have e : ∑ m ∈ (Finset.range dims.length).erase k, (dk dims j p m)^2 = ∑ m ∈ (Finset.range dims.length).erase k, (dk dims i p m)^2 := by
    apply Finset.sum_congr rfl
    intro m hm
    obtain ⟨hm1, hm2⟩ := Finset.mem_erase.1 hm
    unfold dk
    rw [h2 m (Finset.mem_range.1 hm2) hm1]
  rw [e]
  have hs : σ^2 = 1 := by rcases hσ with rfl | rfl <;> norm_num
  have : dk dims j p k = dk dims i p k + σ := by unfold dk; rw [he]; ring
  rw [this]
  linear_combination hs

/-- moving to a neighbour shortens the distance by at most its component in that direction -/
theorem dist_drop {s a : ℝ} (hs : 0 < s) (ha : a^2 ≤ s) : Real.sqrt s - Real.sqrt (s - 2 * a + 1) ≤ a / Real.sqrt s := by
  have hp : 0 < Real.sqrt s := Real.sqrt_pos.2 hs
  have hss := Real.mul_self_sqrt hs.le
  rw [le_div_iff₀ hp, sub_mul, hss]
  have hn : 0 ≤ s - 2 * a + 1 := by nlinarith [sq_nonneg (a - 1)]
  have : s - a ≤ Real.sqrt (s - 2 * a + 1) * Real.sqrt s := by
    rw [← Real.sqrt_mul hn]
    apply Real.le_sqrt_of_sq_le
    nlinarith
  linarith

/-- the distance to a cell is a subsolution -/
theorem dist_sub (hf : Fits dims (2^31+1)) {c : ℝ} (hc : 0 ≤ c) {p i : Nat} (hi : i < dims.prod) :
    residL (c * Real.sqrt (sqD dims i p)) (mins (Shape.mk' dims) (fun j => ((c * Real.sqrt (sqD dims j p) : ℝ) : WithTop ℝ)) i) ≤ c^2 := by
  rw [residL_mins]
  have key : ∀ k ∈ Finset.range dims.length, posSq (c * Real.sqrt (sqD dims i p)) (dimMin (Shape.mk' dims) (fun j => ((c * Real.sqrt (sqD dims j p) : ℝ) : WithTop ℝ)) i k)
      ≤ c^2 * ((dk dims i p k)^2 / sqD dims i p) := by
    intro k hk
    have hk' := Finset.mem_range.1 hk
    have h0 := sqD_nonneg (dims := dims) i p
    have hr : 0 ≤ c^2 * ((dk dims i p k)^2 / sqD dims i p) := by positivity
    by_cases ht : dimMin (Shape.mk' dims) (fun j => ((c * Real.sqrt (sqD dims j p) : ℝ) : WithTop ℝ)) i k = ⊤
    · rw [ht, posSq_top]; exact hr
    obtain ⟨j, hj, he⟩ := dimMin_attained ht
    rw [he, posSq_coe, ← mul_sub]
    rcases h0.eq_or_lt with h0 | h0
    · rw [← h0, Real.sqrt_zero, max_eq_right (by have := mul_nonneg hc (Real.sqrt_nonneg (sqD dims j p)); linarith)]
      simp
    obtain ⟨σ, hσ, _, h2⟩ := sqD_nbr hf (p := p) hi hk' hj
    have hs : σ^2 = 1 := by rcases hσ with rfl | rfl <;> norm_num
    have hd := dist_drop (a := -σ * dk dims i p k) h0 (by have := dk_sq_le (i := i) (p := p) hk'; nlinarith)
    have e : sqD dims i p - 2 * (-σ * dk dims i p k) + 1 = sqD dims j p := by rw [h2]; ring
    rw [e] at hd
    have hq : c^2 * ((dk dims i p k)^2 / sqD dims i p) = (c * (-σ * dk dims i p k / Real.sqrt (sqD dims i p)))^2 := by
      rw [mul_pow, div_pow, Real.sq_sqrt h0.le]
      congr 2
      linear_combination (-(dk dims i p k)^2) * hs
    rcases le_total (Real.sqrt (sqD dims i p) - Real.sqrt (sqD dims j p)) 0 with hneg | hpos
    · rw [max_eq_right (mul_nonpos_of_nonneg_of_nonpos hc hneg)]
      simpa using hr
    · rw [max_eq_left (mul_nonneg hc hpos), hq]
      exact pow_le_pow_left₀ (mul_nonneg hc hpos) (mul_le_mul_of_nonneg_left hd hc) 2
  refine le_trans (Finset.sum_le_sum key) ?_
  rw [← Finset.mul_sum, ← Finset.sum_div]
  have : (∑ k ∈ Finset.range dims.length, (dk dims i p k)^2) / sqD dims i p ≤ 1 := div_self_le_one _
  nlinarith [sq_nonneg c]

/-- the discrete barrier above the distance -/
noncomputable def bar (D : Nat) (s : ℝ) : ℝ := Real.sqrt s + (1 + 2 * Real.sqrt D) * Real.log (1 + Real.sqrt s)

/-- along an axis the barrier drops at least as much as needed -/
theorem bar_drop {D : Nat} {s a : ℝ} (ha : 1 ≤ a) (has : a^2 ≤ s) :
    (2 * a - 1) / (2 * Real.sqrt s) * (1 + (1 + 2 * Real.sqrt D) / (1 + Real.sqrt s)) ≤ bar D s - bar D (s - 2 * a + 1) := by
  have hs : 0 < s := by nlinarith
  have hn : 0 ≤ s - 2 * a + 1 := by nlinarith [sq_nonneg (a - 1)]
  have hd := Real.sqrt_pos.2 hs
  have hd' := Real.sqrt_nonneg (s - 2 * a + 1)
  have e1 := Real.mul_self_sqrt hs.le
  have e2 := Real.mul_self_sqrt hn
  have hle : Real.sqrt (s - 2 * a + 1) ≤ Real.sqrt s := Real.sqrt_le_sqrt (by linarith)
  set d := Real.sqrt s
  set d' := Real.sqrt (s - 2 * a + 1)
  have hz : 0 ≤ Real.sqrt D := Real.sqrt_nonneg _
  have h1 : (2 * a - 1) / (2 * d) ≤ d - d' := by
    rw [div_le_iff₀ (by positivity)]
    nlinarith
  have h2 : (d - d') / (1 + d) ≤ Real.log (1 + d) - Real.log (1 + d') := by
    rw [← Real.log_div (by positivity) (by positivity)]
    have := Real.one_sub_inv_le_log_of_pos (x := (1 + d) / (1 + d')) (by positivity)
    refine le_trans (le_of_eq ?_) this
    rw [inv_div, div_eq_iff (by positivity)]
    field_simp
    ring
  have h3 : (d - d') * (1 + (1 + 2 * Real.sqrt D) / (1 + d)) ≤ bar D s - bar D (s - 2 * a + 1) := by
    show _ ≤ (d + (1 + 2 * Real.sqrt D) * Real.log (1 + d)) - (d' + (1 + 2 * Real.sqrt D) * Real.log (1 + d'))
    have := mul_le_mul_of_nonneg_left h2 (show 0 ≤ 1 + 2 * Real.sqrt D by positivity)
    have e : (d - d') * (1 + (1 + 2 * Real.sqrt D) / (1 + d)) = (d - d') + (1 + 2 * Real.sqrt D) * ((d - d') / (1 + d)) := by ring
    rw [e]; linarith
  exact le_trans (mul_le_mul_of_nonneg_right h1 (by positivity)) h3

/-- the scalar inequality behind the barrier -/
theorem bar_scalar {z d Q : ℝ} (hz : 0 ≤ z) (hd : 1 ≤ d) (hQ1 : 1 / 4 ≤ Q) (hQ2 : 1 - z / d ≤ Q) : 1 ≤ Q * (1 + (1 + 2 * z) / (1 + d))^2 := by
  have hd0 : 0 < d := by linarith
  rcases le_total d (2 * z) with h | h
  · have h1 : 1 ≤ (1 + 2 * z) / (1 + d) := by rw [le_div_iff₀ (by linarith)]; linarith
    have h2 : (2:ℝ)^2 ≤ (1 + (1 + 2 * z) / (1 + d))^2 := pow_le_pow_left₀ (by norm_num) (by linarith) 2
    nlinarith
  · have hx : 0 ≤ (1 + 2 * z) / (1 + d) := by positivity
    set x := (1 + 2 * z) / (1 + d) with hxd
    have h1 : 1 + 2 * x ≤ (1 + x)^2 := by nlinarith
    have hq : 0 ≤ 1 - z / d := by
      rw [sub_nonneg, div_le_one hd0]; linarith
    have h2 : 1 ≤ (1 - z / d) * (1 + 2 * x) := by
      rw [hxd]
      have e : (1 - z / d) * (1 + 2 * ((1 + 2 * z) / (1 + d))) = ((d - z) * (1 + d + 2 * (1 + 2 * z))) / (d * (1 + d)) := by
        field_simp
      rw [e, le_div_iff₀ (by positivity)]
      nlinarith [mul_nonneg hz (sub_nonneg.2 h), mul_nonneg hz (sub_nonneg.2 hd)]
    calc (1:ℝ) ≤ (1 - z / d) * (1 + 2 * x) := h2
      _ ≤ (1 - z / d) * (1 + x)^2 := mul_le_mul_of_nonneg_left h1 hq
      _ ≤ Q * (1 + x)^2 := mul_le_mul_of_nonneg_right hQ2 (sq_nonneg _)

/-- the barrier is a supersolution at a cell whose neighbours towards `p` are at most at the barrier -/
theorem bar_super_of (hf : Fits dims (2^31+1)) {c : ℝ} (hc : 0 < c) {p i : Nat} (hi : i < dims.prod) (hp : p < dims.prod) (hne : i ≠ p) {V : Nat → WithTop ℝ}
    (hV : ∀ k j, k < dims.length → j ∈ (Shape.mk' dims).nbrsDim i k → |dk dims j p k| + 1 = |dk dims i p k| → V j ≤ ((c * bar dims.length (sqD dims j p) : ℝ) : WithTop ℝ)) :
    c^2 ≤ residL (c * bar dims.length (sqD dims i p)) (mins (Shape.mk' dims) V i) := by
  rw [residL_mins]
  set s := sqD dims i p with hsd
  -- integers: |dk| is 0 or at least 1
  have hint : ∀ k, dk dims i p k = 0 ∨ 1 ≤ |dk dims i p k| := by
    intro k
    by_cases h : digit dims i k = digit dims p k
    · left; unfold dk; rw [h]; ring
    · right
      unfold dk
      rcases lt_or_gt_of_ne h with h | h
      · have : (digit dims i k : ℝ) + 1 ≤ digit dims p k := by exact_mod_cast h
        rw [abs_of_nonpos (by linarith)]; linarith
      · have : (digit dims p k : ℝ) + 1 ≤ digit dims i k := by exact_mod_cast h
        rw [abs_of_nonneg (by linarith)]; linarith
  have hs1 : 1 ≤ s := by
    have : ∃ k, k < dims.length ∧ digit dims i k ≠ digit dims p k := by
      by_contra hcon
      push Not at hcon
      exact hne (digit_ext hi hp hcon)
    obtain ⟨k, hk, hkn⟩ := this
    have h1 : 1 ≤ |dk dims i p k| := by
      rcases hint k with h | h
      · exfalso; unfold dk at h; apply hkn; have : (digit dims i k : ℝ) = digit dims p k := by linarith
        exact_mod_cast this
      · exact h
    have h2 := dk_sq_le (i := i) (p := p) hk
    rw [← sq_abs] at h2
    nlinarith
  have hd1 : 1 ≤ Real.sqrt s := by rw [Real.one_le_sqrt]; exact hs1
  have hd0 : 0 < Real.sqrt s := by linarith
  have hss : Real.sqrt s ^ 2 = s := Real.sq_sqrt (by linarith)
  set d := Real.sqrt s with hdd
  set z := Real.sqrt (dims.length : ℝ) with hzd
  have hz : 0 ≤ z := Real.sqrt_nonneg _
  let q : Nat → ℝ := fun k => if dk dims i p k = 0 then 0 else (2 * |dk dims i p k| - 1)^2 / (4 * s)
  have key : ∀ k ∈ Finset.range dims.length, c^2 * (q k * (1 + (1 + 2 * z) / (1 + d))^2) ≤
      posSq (c * bar dims.length s) (dimMin (Shape.mk' dims) V i k) := by
    intro k hk
    have hk' := Finset.mem_range.1 hk
    by_cases h0 : dk dims i p k = 0
    · simp only [q, if_pos h0]; simpa using posSq_nonneg _ _
    have ha : 1 ≤ |dk dims i p k| := (hint k).resolve_left h0
    -- the neighbour towards p
    obtain ⟨j, hj, hj2, hj3⟩ : ∃ j, j ∈ (Shape.mk' dims).nbrsDim i k ∧ sqD dims j p = s - 2 * |dk dims i p k| + 1 ∧ |dk dims j p k| + 1 = |dk dims i p k| := by
      have hlt : ∀ m, digit dims m k < dims.getD k 0 := fun m => digit_lt hf.pos hk' m
      rcases lt_or_gt_of_ne h0 with hneg | hpos
      · -- go up
        have hup : digit dims i k + 1 < dims.getD k 0 := by
          have : digit dims i k < digit dims p k := by
            unfold dk at hneg; have : (digit dims i k : ℝ) < digit dims p k := by linarith
            exact_mod_cast this
          have := hlt p; omega
        have hj : i + strideOf dims k ∈ (Shape.mk' dims).nbrsDim i k := (mem_nbrsDim_iff hf hi hk').2 (Or.inr ⟨hup, rfl⟩)
        have hdj : ∀ σ : ℝ, (digit dims (i + strideOf dims k) k : ℝ) = digit dims i k + σ → dk dims (i + strideOf dims k) p k = dk dims i p k + σ := by
          intro σ he; unfold dk; rw [he]; ring
        refine ⟨_, hj, ?_⟩
        obtain ⟨σ, hσ, he, h2⟩ := sqD_nbr hf (p := p) hi hk' hj
        have hdj := hdj σ he
        have hdg := digit_add_stride hf.pos hk' (i := i) hup hk'
        rw [if_pos rfl] at hdg
        rw [hdg] at he
        have : σ = 1 := by push_cast at he; linarith
        refine ⟨by rw [h2, this, abs_of_neg hneg]; ring, ?_⟩
        rw [abs_of_neg hneg] at ha ⊢
        rw [hdj, this, abs_of_nonpos (by linarith)]; ring
      · have hdn : 0 < digit dims i k := by
          have : digit dims p k < digit dims i k := by
            unfold dk at hpos; have : (digit dims p k : ℝ) < digit dims i k := by linarith
            exact_mod_cast this
          omega
        have hj : i - strideOf dims k ∈ (Shape.mk' dims).nbrsDim i k := (mem_nbrsDim_iff hf hi hk').2 (Or.inl ⟨hdn, by have := stride_le_of_digit hdn; omega⟩)
        have hdj : ∀ σ : ℝ, (digit dims (i - strideOf dims k) k : ℝ) = digit dims i k + σ → dk dims (i - strideOf dims k) p k = dk dims i p k + σ := by
          intro σ he; unfold dk; rw [he]; ring
        refine ⟨_, hj, ?_⟩
        obtain ⟨σ, hσ, he, h2⟩ := sqD_nbr hf (p := p) hi hk' hj
        have hdj := hdj σ he
        have hdg := digit_sub_stride_self hf.pos hk' (i := i) hdn
        rw [hdg] at he
        have : σ = -1 := by
          have e : ((digit dims i k - 1 : ℕ) : ℝ) = (digit dims i k : ℝ) - 1 := by rw [Nat.cast_sub hdn]; norm_num
          rw [e] at he; linarith
        refine ⟨by rw [h2, this, abs_of_pos hpos]; ring, ?_⟩
        rw [abs_of_pos hpos] at ha ⊢
        rw [hdj, this, abs_of_nonneg (by linarith)]; ring
    have hab : |dk dims i p k|^2 ≤ s := by rw [sq_abs]; exact dk_sq_le hk'
    have hb := bar_drop (D := dims.length) (s := s) ha hab
    rw [← hj2] at hb
    have hle : posSq (c * bar dims.length s) ((c * bar dims.length (sqD dims j p) : ℝ) : WithTop ℝ) ≤
        posSq (c * bar dims.length s) (dimMin (Shape.mk' dims) V i k) :=
      posSq_anti _ (le_trans (dimMin_le (T := V) hj) (hV k j hk' hj hj3))
    refine le_trans ?_ hle
    have hl0 : 0 ≤ (2 * |dk dims i p k| - 1) / (2 * d) * (1 + (1 + 2 * z) / (1 + d)) := by
      have : 0 ≤ 2 * |dk dims i p k| - 1 := by linarith
      positivity
    have hpos : 0 ≤ bar dims.length s - bar dims.length (sqD dims j p) := le_trans hl0 hb
    rw [posSq_coe, ← mul_sub, max_eq_left (mul_nonneg hc.le hpos), mul_pow]
    apply mul_le_mul_of_nonneg_left _ (sq_nonneg c)
    have := pow_le_pow_left₀ hl0 hb 2
    refine le_trans (le_of_eq ?_) this
    simp only [q, if_neg h0]
    rw [mul_pow, div_pow, mul_pow, hss]
    ring
  refine le_trans ?_ (Finset.sum_le_sum key)
  rw [← Finset.mul_sum, ← Finset.sum_mul]
  have hq1 : 1 / 4 ≤ ∑ k ∈ Finset.range dims.length, q k := by
    have : ∑ k ∈ Finset.range dims.length, (dk dims i p k)^2 / (4 * s) ≤ ∑ k ∈ Finset.range dims.length, q k := by
      apply Finset.sum_le_sum
      intro k _
      by_cases h0 : dk dims i p k = 0
      · simp only [q, if_pos h0]; rw [h0]; simp
      · have ha : 1 ≤ |dk dims i p k| := (hint k).resolve_left h0
        simp only [q, if_neg h0]
        apply div_le_div_of_nonneg_right _ (by positivity)
        rw [← sq_abs]
        exact pow_le_pow_left₀ (abs_nonneg _) (by linarith) 2
    refine le_trans (le_of_eq ?_) this
    rw [← Finset.sum_div]
    show _ = s / (4 * s)
    field_simp
  have hq2 : 1 - z / d ≤ ∑ k ∈ Finset.range dims.length, q k := by
    have h1 : ∑ k ∈ Finset.range dims.length, ((dk dims i p k)^2 - |dk dims i p k|) / s ≤ ∑ k ∈ Finset.range dims.length, q k := by
      apply Finset.sum_le_sum
      intro k _
      by_cases h0 : dk dims i p k = 0
      · simp only [q, if_pos h0]; rw [h0]; simp
      · simp only [q, if_neg h0]
        rw [div_le_div_iff₀ (by positivity) (by positivity), ← sq_abs]
        nlinarith
    refine le_trans ?_ h1
    rw [← Finset.sum_div, Finset.sum_sub_distrib]
    have h2 : ∑ k ∈ Finset.range dims.length, |dk dims i p k| ≤ z * d := by
      have hcs := sq_sum_le_card_mul_sum_sq (s := Finset.range dims.length) (f := fun k => |dk dims i p k|)
      rw [Finset.card_range] at hcs
      have e : ∑ k ∈ Finset.range dims.length, |dk dims i p k|^2 = s := by
        rw [hsd]; unfold sqD; exact Finset.sum_congr rfl (fun k _ => sq_abs _)
      rw [e] at hcs
      have hzz : z^2 = (dims.length : ℝ) := Real.sq_sqrt (by positivity)
      apply le_of_sq_le_sq _ (by positivity)
      rw [mul_pow, hzz, hss]; exact hcs
    have e : ∑ k ∈ Finset.range dims.length, (dk dims i p k)^2 = s := rfl
    rw [e, sub_div, div_self (by linarith)]
    have : (∑ k ∈ Finset.range dims.length, |dk dims i p k|) / s ≤ z / d := by
      rw [div_le_div_iff₀ (by linarith) hd0]
      calc (∑ k ∈ Finset.range dims.length, |dk dims i p k|) * d ≤ z * d * d := mul_le_mul_of_nonneg_right h2 hd0.le
        _ = z * s := by rw [← hss]; ring
    linarith
  have := bar_scalar hz hd1 hq1 hq2
  nlinarith [sq_nonneg c]

/-- the barrier is a supersolution on an open map -/
theorem bar_super (hf : Fits dims (2^31+1)) {c : ℝ} (hc : 0 < c) {p i : Nat} (hi : i < dims.prod) (hp : p < dims.prod) (hne : i ≠ p) :
    c^2 ≤ residL (c * bar dims.length (sqD dims i p))
      (mins (Shape.mk' dims) (fun j => ((c * bar dims.length (sqD dims j p) : ℝ) : WithTop ℝ)) i) :=
  bar_super_of hf hc hi hp hne (fun _ _ _ _ _ => le_refl _)
end FMV
