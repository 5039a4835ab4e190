import Verif.Props.SavedMap
import Verif.Props.MatlabF64
/-
C115: the arrival times MATLAB reads from a saved result.
-/
namespace FMV
open Spec Shape XR FMM
variable {R : Rounding} {dims : List Nat} {g : Grid (F64 R)} {h : ℝ} {v : Nat → ℝ} {pts : List Nat} {ρ : ℝ} {a : Grid (F64 R)}

/-- the run left the map as it was -/
theorem Computed64.map (H : Computed64 dims g h v pts ρ a) : SameMap g a := by
  obtain ⟨hfr, -, cm, cM, A, I, -, -, hf⟩ := H
  have hin : Input dims g pts := ⟨I.X.fits, I.X.shape, I.X.inside⟩
  cases hf with
  | fmm h1 h2 h3 h4 => exact C20_FMM _ _ _ _ _ _ (h3.mono fun _ _ h => h.any)
  | fsm h1 h2 h3 h4 h5 => exact C20_FSM _ _ _ _ _ _ _ _ _ h3
  | lsm h1 h2 h3 h4 h5 => exact C20_LSM _ _ _ _ _ _ _ _ _ h3
  | ddqm h1 h2 h3 => exact C20_DDQM _ _ _ _ _ _ _ _ h2
  | ufmm h1 h2 h3 h4 h5 h6 h7 h8 => exact C20_UFMM _ _ _ _ _ _ _ (h7.mono fun _ _ h => h.1)
  | fim h1 h2 h3 h4 h5 h6 h7 => exact C20_FIM _ _ _ _ _ _ hin _ _ h6
  | gmm h1 h2 h3 h4 h5 => exact C20_GMM _ _ _ _ _ _ hin hfr.state _ _ h4

/-- no computed time but that of the starts is below `10^-20`, and none is above `2^300` -/
theorem Computed64.usual (H : Computed64 dims g h v pts ρ a) (hρ : ρ ≤ 1 / 2) {i : Nat} (hi : i < dims.prod) (hp : i ∉ pts) {r : ℝ} (hr : (a.value i).1 = .fin r) : 0 < r ∧ Usual r := by
  obtain ⟨-, -, cm, cM, A, I, hcc, hA, -⟩ := id H
  obtain ⟨U, hU, hnn, -⟩ := C17_unique_solution H.input.problem H.input.wellPosed
  have h0 := I.cm0
  rcases H.close hU hi with ⟨_, h1⟩ | ⟨e, r', e1, e2, e0, e3, e4⟩
  · rw [hr] at h1; cases h1
  rw [hr] at e2
  obtain rfl : r = r' := by injection e2
  obtain ⟨ho, j, hj, -, t, t1, t2⟩ := exact_lower H.input hU hi hp e1
  have ht : 0 ≤ t := by
    have := hnn j hj
    rw [t1] at this; exact_mod_cast this
  have hlen : dims.length ≤ 31 := by
    have h1 := Decimal.pow_length_le I.X.two
    have h2 : dims.prod < 2^31 + 1 := I.X.fits.lt
    by_contra hc
    have : 2^32 ≤ 2 ^ dims.length := Nat.pow_le_pow_right (by norm_num) (by omega)
    omega
  have hs : Real.sqrt dims.length ≤ 6 := by
    rw [show (6:ℝ) = Real.sqrt 36 by rw [show (36:ℝ) = 6^2 by norm_num, Real.sqrt_sq (by norm_num)]]
    apply Real.sqrt_le_sqrt
    have : (dims.length : ℝ) ≤ 31 := by exact_mod_cast hlen
    linarith
  have hs0 : 0 < Real.sqrt dims.length := Real.sqrt_pos.2 (by have := I.X.fits.two; positivity)
  have hlo : cm ≤ h / v i := I.lo i hi ho
  have hq : cm / 6 ≤ h / v i / Real.sqrt dims.length := by
    rw [div_le_div_iff₀ (by norm_num) hs0]
    nlinarith
  have he : (1:ℝ) / 10^19 ≤ e := by
    have hm := I.margin
    have : (1:ℝ) / 10^18 ≤ eps := by unfold eps; norm_num
    have : (1:ℝ) / 10^19 ≤ cm / 6 := by
      have : (1:ℝ) / 10^19 ≤ 4 * (1 / 10^18) / 6 := by norm_num
      linarith
    linarith
  have hr1 : (1:ℝ) / 10^20 ≤ r := by
    have : (1:ℝ) / 10^20 ≤ 1 / 2 * (1 / 10^19) := by norm_num
    nlinarith
  have hup := C106_time_bound H _ (DInput.within_cells I.X) cM (by linarith) I.hi i hi r hr
  have hr2 : r ≤ (2:ℝ)^(300:ℤ) := by
    refine le_trans ?_ (hA.trans I.A2)
    have h1 : ((dims.prod - 1 : Nat) : ℝ) ≤ dims.prod := by exact_mod_cast Nat.sub_le _ _
    have h2 : 0 ≤ (dims.prod : ℝ) * cM := by have : 0 ≤ cM := by linarith
                                             positivity
    have h3 : ((dims.prod - 1 : Nat) : ℝ) * cM ≤ dims.prod * cM := mul_le_mul_of_nonneg_right h1 (by linarith)
    have h4 : (1 + ρ) * (((dims.prod - 1 : Nat) : ℝ) * cM) ≤ 2 * (dims.prod * cM) := by
      have : 0 ≤ ((dims.prod - 1 : Nat) : ℝ) * cM := mul_nonneg (Nat.cast_nonneg _) (by linarith)
      nlinarith [H.nonneg]
    linarith
  have hpos : 0 < r := lt_of_lt_of_le (by norm_num) hr1
  refine ⟨hpos, ?_, ?_⟩
  · rw [abs_of_pos hpos]
    refine le_trans ?_ hr1
    have : (10:ℝ)^(-300:ℤ) ≤ (10:ℝ)^(-20:ℤ) := zpow_le_zpow_right₀ (by norm_num) (by norm_num)
    rwa [zpow_neg (10:ℝ) 20, show ((10:ℝ)^(20:ℤ))⁻¹ = 1 / 10^20 by norm_num] at this
  · rw [abs_of_pos hpos]
    refine hr2.trans ?_
    have h : (2:ℕ)^300 ≤ 10^300 := by decide +kernel
    have a := Decimal.pow_nat 2 300
    have b := Decimal.pow_nat 10 300
    rw [Nat.cast_ofNat, Nat.cast_ofNat] at a b
    rw [a, b]; exact Nat.cast_le.2 h

namespace Decimal

/-- what six digits and one rounding do to a usual number -/
theorem printed_close {x y : F64 R} (hxy : Printed x y) {r : ℝ} (hx : x.1 = .fin r) (h0 : 0 < r) (hu : Usual r) : ∃ s, y.1 = .fin s ∧ |s - r| ≤ 51 / 10^7 * r := by
  obtain ⟨d, ⟨h1, h2⟩, h3⟩ := hxy.1 r hx
  have hd : |d - r| ≤ 5 / 10^6 * r := by
    refine (h2 _ (six_dec r)).trans ?_
    have := dec_rel r
    rwa [abs_of_pos h0] at this
  have c := abs_le.1 hd
  have hd0 : 0 < d := by linarith
  obtain ⟨u1, u2⟩ := hu
  rw [abs_of_pos h0] at u1 u2
  have e1 : (10:ℝ)^(-300:ℤ) = 10 * (10:ℝ)^(-301:ℤ) := by rw [← zpow_one_add₀ (by norm_num)]; norm_num
  have e2 : (10:ℝ)^(301:ℤ) = 10 * (10:ℝ)^(300:ℤ) := by rw [← zpow_one_add₀ (by norm_num)]; norm_num
  have w1 : (10:ℝ)^(-301:ℤ) ≤ d := by
    generalize (10:ℝ)^(-301:ℤ) = X at e1
    rw [e1] at u1; linarith
  have w2 : d ≤ (10:ℝ)^(301:ℤ) := by
    rw [e2]
    generalize (10:ℝ)^(300:ℤ) = X at u2 ⊢
    linarith
  obtain ⟨s, e, he⟩ := rd_err R (r := d) (B := d) (by rw [abs_of_pos hd0]) (big_bounds.1.trans w1) (w2.trans big_bounds.2)
  refine ⟨s, by rw [h3, e], ?_⟩
  have h3 : uu * d ≤ 1 / 10^9 * r := by
    have : uu ≤ 1 / 10^10 := by unfold uu; norm_num
    have := uu_pos
    nlinarith
  calc |s - r| ≤ |s - d| + |d - r| := abs_sub_le _ _ _
    _ ≤ 1 / 10^9 * r + 5 / 10^6 * r := by linarith
    _ ≤ _ := by linarith

theorem printed_zero {x y : F64 R} (hxy : Printed x y) (hx : x.1 = .fin 0) : y.1 = .fin 0 := by
  obtain ⟨d, ⟨h1, h2⟩, h3⟩ := hxy.1 0 hx
  have := h2 0 ⟨0, 0, by norm_num, by norm_num⟩
  rw [sub_self, abs_zero, sub_zero] at this
  obtain rfl := abs_nonpos_iff.1 this
  rw [h3]
  exact R.exact _ IsDouble.zero

/-- the allowance for a computed time that was printed -/
theorem printed_time (H : Computed64 dims g h v pts ρ a) (hρ : ρ ≤ 1 / 2) {U : Nat → WithTop ℝ} (hU : H.input.problem.IsSolution U) {i : Nat} (hi : i < dims.prod) {y : F64 R}
    (hy : Printed (a.value i) y) : RelClose (ρ + 77 / 10^7) (U i) y.1 ∧ (y.1 = .fin 0 ↔ i ∈ pts) := by
  have hE := H.input.exSol hU
  by_cases hp : i ∈ pts
  · have h0 : U i = 0 := (hE i hi).1 hp
    rcases H.close hU hi with ⟨h1, _⟩ | ⟨e, r, e1, e2, -, e3, e4⟩
    · rw [h0] at h1; exact absurd h1 (by simp)
    · rw [h0] at e1
      obtain rfl : (0:ℝ) = e := by exact_mod_cast e1
      obtain rfl : r = 0 := by linarith
      have hz := printed_zero hy e2
      exact ⟨.inr ⟨0, 0, h0, hz, by simp, by simp⟩, fun _ => hp, fun _ => hz⟩
  · rcases H.close hU hi with ⟨h1, h2⟩ | ⟨e, r, e1, e2, e0, e3, e4⟩
    · have h3 : y.1 = .pinf := by
        rw [hy.2 (fun r hr => by rw [h2] at hr; cases hr)]
        exact h2
      exact ⟨.inl ⟨h1, h3⟩, ⟨fun h => (by rw [h3] at h; cases h), fun h => absurd h hp⟩⟩
    · obtain ⟨r0, hu⟩ := H.usual hρ hi hp e2
      obtain ⟨s, s1, s2⟩ := printed_close hy e2 r0 hu
      have c := abs_le.1 s2
      have : r ≤ 3 / 2 * e := by nlinarith
      refine ⟨.inr ⟨e, s, e1, s1, by nlinarith, by nlinarith⟩, fun h => ?_, fun h => absurd h hp⟩
      rw [s1] at h
      obtain rfl : s = 0 := by injection h
      linarith

/-- **C115**: what parsegrid.m reads from the saved result of a run is the exact solution of the equation, up to the relative error of the run and 8 parts in a million: `inf` exactly where no
start is connected, and 0 exactly in the starts. -/
theorem _root_.FMV.C115_saved_result (H : Computed64 dims g h v pts ρ a) (hρ : ρ ≤ 1 / 2) (U : Nat → WithTop ℝ) (hU : H.input.problem.IsSolution U) :
    ∃ p, Matlab.parseGrid (matlabNum R) matlabNat (IO.saveGridValues fmtG a) = some p ∧ p.dimsize = dims ∧ Printed g.leaf p.leafsize ∧
      ∀ cs, InBox dims cs → RelClose (ρ + 77 / 10^7) (U ((Shape.mk' dims).coord2idx cs)) (p.cells.get (if dims.length = 2 then cs.reverse else cs)).1 ∧
        ((p.cells.get (if dims.length = 2 then cs.reverse else cs)).1 = .fin 0 ↔ (Shape.mk' dims).coord2idx cs ∈ pts) := by
  have hm := H.map
  have X := H.input
  have hsh : a.shape = Shape.mk' dims := hm.shape.trans X.shape
  have hlen : dims.length < 2^32 := by
    have h1 := pow_length_le X.two
    have h2 : dims.prod < 2^31 + 1 := X.fits.lt
    have h3 : dims.length < 2 ^ dims.length := Nat.lt_two_pow_self
    omega
  have hf : Fits dims (2^32) := X.fits.mono (by norm_num)
  obtain ⟨p, h1, h2, h3, h4⟩ := C112_matlab_grid a dims hsh hf hlen
  refine ⟨p, h1, h3, by rw [hm.leaf] at h2; exact h2, fun cs hcs => ?_⟩
  have h5 := h4 cs hcs
  rw [hsh] at h5
  exact printed_time H hρ hU (lt_of_lt_of_eq (C01_coord_roundtrip dims hf cs hcs).1 (mk'_ncells hf)) h5

/-- **C115**: the saved results of two runs on one map, of the same or of different solvers, show `inf` in the same cells, and elsewhere numbers that agree up to the two errors. -/
theorem _root_.FMV.C115_files_agree {σ : ℝ} {b : Grid (F64 R)} (H : Computed64 dims g h v pts ρ a) (K : Computed64 dims g h v pts σ b) (hρ : ρ ≤ 1 / 2) (hσ : σ ≤ 1 / 2) :
    ∃ p q, Matlab.parseGrid (matlabNum R) matlabNat (IO.saveGridValues fmtG a) = some p ∧ Matlab.parseGrid (matlabNum R) matlabNat (IO.saveGridValues fmtG b) = some q ∧
      ∀ cs, InBox dims cs → let x := (p.cells.get (if dims.length = 2 then cs.reverse else cs)).1; let y := (q.cells.get (if dims.length = 2 then cs.reverse else cs)).1
        (x = .pinf ∧ y = .pinf) ∨ ∃ r s : ℝ, x = .fin r ∧ y = .fin s ∧ 0 ≤ r ∧ |s - r| ≤ (ρ + σ + 154 / 10^7) / (1 - (ρ + 77 / 10^7)) * r := by
  obtain ⟨U, hU, hnn, -⟩ := C17_unique_solution H.input.problem H.input.wellPosed
  obtain ⟨p, h1, -, -, h2⟩ := C115_saved_result H hρ U hU
  obtain ⟨q, k1, -, -, k2⟩ := C115_saved_result K hσ U hU
  have hf : Fits dims (2^32) := H.input.fits.mono (by norm_num)
  refine ⟨p, q, h1, k1, fun cs hcs => ?_⟩
  have hi := lt_of_lt_of_eq (C01_coord_roundtrip dims hf cs hcs).1 (mk'_ncells hf)
  have hn := hnn _ hi
  have c1 := (h2 cs hcs).1
  have c2 := (k2 cs hcs).1
  dsimp only
  rcases c1 with ⟨u, e⟩ | ⟨e, r, u, e1, e2, e3⟩ <;> rcases c2 with ⟨u', f⟩ | ⟨e', s, u', f1, f2, f3⟩
  · exact .inl ⟨e, f⟩
  · rw [u] at u'; exact absurd u'.symm WithTop.coe_ne_top
  · rw [u'] at u; exact absurd u.symm WithTop.coe_ne_top
  · rw [u] at u'
    obtain rfl : e = e' := WithTop.coe_injective u'
    rw [u] at hn
    have he : (0:ℝ) ≤ e := by exact_mod_cast hn
    have hd : 0 < 1 - (ρ + 77 / 10^7) := by linarith
    refine .inr ⟨r, s, e1, f1, le_trans (mul_nonneg hd.le he) e2, ?_⟩
    have hw : 0 ≤ ρ + σ + 154 / 10^7 := by linarith [H.nonneg, K.nonneg]
    have h5 : (ρ + σ + 154 / 10^7) * e ≤ (ρ + σ + 154 / 10^7) / (1 - (ρ + 77 / 10^7)) * r := by
      rw [div_mul_eq_mul_div, le_div_iff₀ hd, mul_assoc]
      exact mul_le_mul_of_nonneg_left (by linarith) hw
    refine le_trans ?_ h5
    rw [abs_le]
    constructor <;> linarith

/-- non-vacuity: computed grids exist (an empty 2x2 map, from cell 0 and from cell 3), with an error below 1/50 -/
example : ∃ (g a b : Grid (F64 Rounding.nearest)) (ρ : ℝ), Computed64 [2,2] g 1 (fun _ => 1) [0] ρ a ∧ Computed64 [2,2] g 1 (fun _ => 1) [3] ρ b ∧ ρ ≤ 1 / 2 := by
  obtain ⟨g, a, b, _, ρ, ha, hb, -, hρ, -⟩ := Computed64.exists_small
  exact ⟨g, a, b, ρ, ha, hb, by linarith⟩

end Decimal
end FMV
