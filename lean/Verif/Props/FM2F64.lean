import Verif.Props.FM2Reach
import Verif.Props.F64Accuracy
import Verif.Props.F64
/-!
# C91: FM2 in 64-bit doubles
-/
set_option linter.unusedSectionVars false
set_option linter.unusedVariables false
namespace FMV
open Spec Shape XR FMM
variable {R : Rounding} {dims : List Nat} {g : Grid (F64 R)} {h : ℝ} {v : Nat → ℝ} {cm cM : ℝ}

namespace FM2

/-- a quotient that is at most 1 -/
theorem div64 {a b : F64 R} {x y : ℝ} (ha : a.1 = fin x) (hb : b.1 = fin y) (h0 : 0 ≤ x) (hy : 0 < y) (hxy : x ≤ y) :
    ∃ s, (Arith.div a b).1 = fin s ∧ 0 ≤ s ∧ s ≤ 1 ∧ (x = 0 → s = 0) ∧ (x = y → s = 1) ∧ ((2:ℝ)^(-1000:ℤ) ≤ x / y → |s - x / y| ≤ uu * (x / y)) := by
  have e : (Arith.div a b).1 = R.rd (x / y) := by
    show (F64.rnd R (XR.div a.1 b.1)).1 = _
    rw [ha, hb]; simp [XR.div, hy.ne', F64.rnd]
  have e0 := R.exact 0 IsDouble.zero
  have e1 := R.exact 1 IsDouble.one
  have m0 := R.mono 0 (x / y) (div_nonneg h0 hy.le)
  have m1 := R.mono (x / y) 1 ((div_le_one hy).2 hxy)
  rw [e0] at m0
  rw [e1] at m1
  obtain ⟨s, hs⟩ : ∃ s, R.rd (x / y) = fin s := by
    rcases R.mem (x / y) with ⟨s, _, hs⟩ | hs | hs
    · exact ⟨s, hs⟩
    · rw [hs] at m1; simp [XR.le] at m1
    · rw [hs] at m0; simp [XR.le] at m0
  rw [hs] at m0 m1
  refine ⟨s, by rw [e, hs], by simpa [XR.le] using m0, by simpa [XR.le] using m1, ?_, ?_, ?_⟩
  · intro hx
    rw [hx, zero_div, e0] at hs
    injection hs with hs; exact hs.symm
  · intro hx
    rw [hx, div_self hy.ne', e1] at hs
    injection hs with hs; exact hs.symm
  · intro hlow
    have hq : 0 ≤ x / y := div_nonneg h0 hy.le
    obtain ⟨s', h1, h2⟩ := rd_err R (r := x / y) (B := x / y) (by rw [abs_of_nonneg hq]) hlow (by
      refine le_trans ((div_le_one hy).2 hxy) ?_
      have : (2:ℝ)^(0:ℤ) ≤ (2:ℝ)^(1000:ℤ) := zpow_le_zpow_right₀ (by norm_num) (by norm_num)
      simpa using this)
    rw [hs] at h1
    injection h1 with h1
    rw [h1]; exact h2

/-- saturation distances the theorems cover: none, or a positive number that is neither extremely small nor more than ten thousand cells -/
def DistOk (h : ℝ) (D : F64 R) : Prop := D.1 = fin (-1) ∨ ∃ δ : ℝ, D.1 = fin δ ∧ (2:ℝ)^(-200:ℤ) ≤ δ ∧ δ ≤ 10^4 * h

/-- the velocity formula in doubles -/
theorem velocity64 {D l T a : F64 R} {hh y x : ℝ} (hD : DistOk hh D) (hl : l.1 = fin hh) (hh0 : 0 < hh) (hh2 : hh ≤ (2:ℝ)^(200:ℤ)) (hT : T.1 = fin y) (ha : a.1 = fin x)
    (h0 : 0 ≤ x) (hy : 0 < y) (hxy : x ≤ y) :
    ∃ r, (velocity D l T a).1 = fin r ∧ 0 ≤ r ∧ r ≤ 1 ∧ (x = 0 → r = 0) ∧ (1 / 10^6 ≤ x / y → eps ≤ r) ∧
      (D.1 = fin (-1) → (x = y → r = 1) ∧ ((2:ℝ)^(-1000:ℤ) ≤ x / y → |r - x / y| ≤ uu * (x / y))) := by
  obtain ⟨s, e, s0, s1, s2, s3, s4⟩ := div64 ha hT h0 hy hxy
  have hmid : (2:ℝ)^(-1000:ℤ) ≤ 1 / 10^6 := by
    have : (2:ℝ)^(-1000:ℤ) ≤ (2:ℝ)^(-20:ℤ) := zpow_le_zpow_right₀ (by norm_num) (by norm_num)
    refine le_trans this ?_
    rw [zpow_neg]; norm_num
  have hlow : 1 / 10^6 ≤ x / y → 9 / 10^7 ≤ s := by
    intro h1
    have h2 := (abs_le.1 (s4 (le_trans hmid h1))).1
    have : uu ≤ 1/10 := by unfold uu; norm_num
    nlinarith
  rcases hD with hD | ⟨δ, hD, d1, d2⟩
  · have e1 : Arith.eq D (Arith.neg (Arith.one : F64 R)) = true := by
      show XR.eq D.1 (XR.neg (fin 1)) = true
      rw [hD]; simp [XR.eq, XR.neg]
    have ev : velocity D l T a = Arith.div a T := by unfold velocity; simp [e1]
    rw [ev]
    refine ⟨s, e, s0, s1, s2, fun h1 => le_trans (by unfold eps; norm_num) (hlow h1), fun _ => ⟨s3, s4⟩⟩
  · have hδ : 0 < δ := lt_of_lt_of_le (zpow_pos (by norm_num) _) d1
    have hne : δ ≠ -1 := by linarith
    have e1 : Arith.eq D (Arith.neg (Arith.one : F64 R)) = false := by
      show XR.eq D.1 (XR.neg (fin 1)) = false
      rw [hD]; simp [XR.eq, XR.neg, hne]
    have hq : 0 < δ / hh := div_pos hδ hh0
    have hq1 : δ / hh ≤ 10^4 := (div_le_iff₀ hh0).2 d2
    have hq2 : (2:ℝ)^(-1000:ℤ) ≤ δ / hh := by
      rw [le_div_iff₀ hh0]
      have e : (2:ℝ)^(-1000:ℤ) * (2:ℝ)^(200:ℤ) = (2:ℝ)^(-800:ℤ) := by rw [← zpow_add₀ (by norm_num)]; norm_num
      refine le_trans (mul_le_mul_of_nonneg_left hh2 (zpow_pos (by norm_num) _).le) ?_
      rw [e]
      exact le_trans (zpow_le_zpow_right₀ (by norm_num) (by norm_num)) d1
    have eq : (Arith.div D l).1 = R.rd (δ / hh) := by
      show (F64.rnd R (XR.div D.1 l.1)).1 = _
      rw [hD, hl]; simp [XR.div, hh0.ne', F64.rnd]
    obtain ⟨q, k1, k2⟩ := rd_err R (r := δ / hh) (B := δ / hh) (by rw [abs_of_pos hq]) hq2 (by
      refine le_trans hq1 ?_
      have : (2:ℝ)^(20:ℤ) ≤ (2:ℝ)^(1000:ℤ) := zpow_le_zpow_right₀ (by norm_num) (by norm_num)
      refine le_trans ?_ this
      norm_num)
    rw [k1] at eq
    have hu : uu ≤ 1/10 := by unfold uu; norm_num
    have hu0 := uu_pos
    obtain ⟨k3, k4⟩ := abs_le.1 k2
    have qpos : 0 < q := by nlinarith
    have qle : q ≤ 11/10 * 10^4 := by nlinarith
    have elt : Arith.lt (Arith.div a T) (Arith.div D l) = decide (s < q) := by
      show XR.lt (Arith.div a T).1 (Arith.div D l).1 = _
      rw [e, eq]; rfl
    by_cases hsq : s < q
    · have ev : velocity D l T a = Arith.div (Arith.div a T) (Arith.div D l) := by unfold velocity; simp [e1, elt, hsq]
      obtain ⟨r, f, r0, r1, r2, r3, r4⟩ := div64 e eq s0 qpos hsq.le
      rw [ev]
      refine ⟨r, f, r0, r1, fun hx => r2 (s2 hx), fun h1 => ?_, fun hc => by rw [hD] at hc; injection hc with hc; exact absurd hc hne⟩
      have h2 := hlow h1
      have h3 : 8 / 10^11 ≤ s / q := by
        rw [le_div_iff₀ qpos]
        refine le_trans (mul_le_mul_of_nonneg_left qle (by norm_num)) (le_trans ?_ h2)
        norm_num
      have h4 := (abs_le.1 (r4 (le_trans (by
        have : (2:ℝ)^(-1000:ℤ) ≤ (2:ℝ)^(-40:ℤ) := zpow_le_zpow_right₀ (by norm_num) (by norm_num)
        refine le_trans this ?_
        rw [zpow_neg]; norm_num) h3))).1
      have h5 : 7/10^11 ≤ r := by nlinarith
      exact le_trans (by unfold eps; norm_num) h5
    · have ev : velocity D l T a = Arith.one := by unfold velocity; simp [e1, elt, hsq]
      rw [ev]
      refine ⟨1, rfl, zero_le_one, le_refl _, fun hx => ?_, fun _ => by unfold eps; norm_num, fun hc => by rw [hD] at hc; injection hc with hc; exact absurd hc hne⟩
      rw [s2 hx] at hsq
      exact absurd qpos hsq

theorem fresh64 (M : FM2Map dims (gridX g) h v) : Fresh g.cleanGrid := by
  unfold Grid.cleanGrid
  split
  · next hc =>
    exact ⟨fun i => Subtype.ext (M.clean hc i).1, fun i => (M.clean hc i).2.1, fun i => Subtype.ext (M.clean hc i).2.2⟩
  · exact ⟨fun _ => rfl, fun _ => rfl, fun _ => rfl⟩

theorem apart64 (M : FM2Map dims (gridX g) h v) {g' : Grid (F64 R)} (hm : SameMap g g') : StartsApart dims g' g.occupied := by
  intro i hi j _ ho
  have : g.occ i = true := ((M.listed i).1 hi).2
  rw [SameMap.occ_eq hm, this] at ho
  cases ho

theorem dinput64 (M : FM2Map dims (gridX g) h v) (I : DInput dims g h v g.occupied cm cM (2 * cM * dims.prod)) {g' : Grid (F64 R)} (hm : SameMap g g') :
    DInput dims g' h v g.occupied cm cM (2 * cM * dims.prod) := by
  have ho : ∀ i, g'.occ i = g.occ i := SameMap.occ_eq hm
  exact ⟨input M (SameMap.gridX hm), I.h1, I.h2, fun i hi h => I.v2 i hi (by rw [← ho]; exact h), I.cm0, fun i hi h => I.lo i hi (by rw [← ho]; exact h),
    fun i hi h => I.hi i hi (by rw [← ho]; exact h), I.cA, I.cmA, I.A2, I.small, I.margin⟩

/-- crossing a free cell takes at least `cm`: speeds are at most `h / cm` -/
theorem wave_low (M : FM2Map dims (gridX g) h v) (I : DInput dims g h v g.occupied cm cM (2 * cM * dims.prod)) {U : Nat → WithTop ℝ}
    (hU : (obstacleWave dims (gridX g) h v).IsSolution U) {i : Nat} (hi : i < dims.prod) (ho : g.occ i = false) {r : ℝ} (hr : U i = (r : WithTop ℝ)) :
    cm ≤ Real.sqrt dims.length * r := by
  have hc := I.cm0
  obtain ⟨p, hp, hle⟩ := obstacleWave_ge M hU (vhi := h / cm) (div_pos M.hpos hc) (fun k hk hko => by
    have h1 := I.lo k hk hko
    have h2 : 0 < v k := I.X.vpos hk hko
    rw [le_div_iff₀ h2] at h1
    rw [le_div_iff₀ hc]; linarith) hi hr
  obtain ⟨hpN, hpo⟩ := (M.listed p).1 hp
  have h1 := one_le_euclid I.X.fits hi hpN (fun he => by
    rw [he] at ho
    have hpo' : g.occ p = true := hpo
    rw [hpo'] at ho; cases ho)
  have e : h / (h / cm) = cm := by have := M.hpos; field_simp
  rw [e] at hle
  nlinarith

/-- the arrival times after the first wave, in doubles -/
theorem wave64 (M : FM2Map dims (gridX g) h v) (I : DInput dims g h v g.occupied cm cM (2 * cM * dims.prod)) (hcc : cm ≤ cM) {U : Nat → WithTop ℝ}
    (hU : (obstacleWave dims (gridX g) h v).IsSolution U) {d : Bool} {n : Nat} {st : St (F64 R)}
    (hs : Steps (StepMin (waveCfg d)) n (FMM.init (waveCfg d) (g.cleanGrid.setClean false) [] g.occupied) st) (hd : Done st) :
    st.heap = [] ∧ SameMap g st.g ∧ (∀ i, ¬ i < dims.prod → st.g.value i = Arith.inf ∧ st.g.state i = .opn) ∧ (∀ i, (st.g.cells i).hValue = Arith.zero) ∧
    ∃ t : Nat → ℝ, (∀ i, i < dims.prod → (st.g.value i).1 = fin (t i) ∧ 0 ≤ t i ∧ t i ≤ 2 * cM * dims.prod ∧ (g.occ i = true → t i = 0) ∧
        (g.occ i = false → 3/4 * cm ≤ Real.sqrt dims.length * t i) ∧
        ∃ u : ℝ, U i = (u : WithTop ℝ) ∧ 0 ≤ u ∧ (1 - relErr dims.length cm (2 * cM * dims.prod)) * u ≤ t i ∧ t i ≤ (1 + relErr dims.length cm (2 * cM * dims.prod)) * u) ∧
      ∃ mx, mx < dims.prod ∧ (∀ i, i < dims.prod → t i ≤ t mx) ∧ 0 < t mx ∧ (st.g.getMaxValue).1 = fin (t mx) := by
  have hm : SameMap g (g.cleanGrid.setClean false) := (clean_map g).trans (setClean_map _ _)
  have I' := dinput64 M I hm
  have hfr : Fresh (g.cleanGrid.setClean false) := ⟨(fresh64 M).value, (fresh64 M).state, (fresh64 M).hValue⟩
  have ha := apart64 M hm
  have hU' : I'.X.problem.IsSolution U := sol M (SameMap.gridX hm) hU
  have hemp := C14_no_goal_ends_empty (waveCfg d) dims (g.cleanGrid.setClean false) g.occupied ⟨I'.X.fits, I'.X.shape, I'.X.inside⟩ (by
    show dims.prod ≤ noGoal
    have := I'.X.fits.lt; unfold noGoal; omega) n st (hs.mono (fun _ _ => StepMin.any)) hd
  have hN1 : 1 ≤ dims.prod := by obtain ⟨f, hf, _⟩ := M.free; omega
  have hK := DInput.within_cells I'.X
  have P := I'.par hcc hK
  have eA : 2 * cM * (((dims.prod - 1 : Nat) : ℝ) + 1) = 2 * cM * dims.prod := by
    have : ((dims.prod - 1 : Nat) : ℝ) + 1 = dims.prod := by exact_mod_cast Nat.sub_add_cancel hN1
    rw [this]
  have hna : I'.X.NonAdj := by
    intro i hi ho j hj hjp
    exact ha i hi j hjp ho ((axisAdjacent_iff I'.X.fits (I'.X.inside i hi)).1 hj).2
  obtain ⟨J, hlow⟩ := I'.low_reach P eA.le hna hfr hU' rfl hs
  have hmap : SameMap g st.g := hm.trans J.map
  have hocc : ∀ i, (g.cleanGrid.setClean false).occ i = g.occ i := SameMap.occ_eq hm
  have hC := C59_FMM_cells I' hcc hfr ha U hU' (waveCfg d) rfl n st hs hemp
  have hfinU := sol_finite I'.X hU' (fun i hi ho => (M.listed i).2 ⟨hi, by
      have : (g.cleanGrid.setClean false).occ i = true := ho
      rw [hocc] at this; exact this⟩) (by
    obtain ⟨i, hi, ho⟩ := M.obstacle
    exact List.ne_nil_of_mem ((M.listed i).2 ⟨hi, ho⟩))
  have hnnU := (I'.X.exSol hU').nonneg I'.X.fits (fun i hi _ ho => I'.X.cpos hi (by simpa using ho))
  refine ⟨hemp, hmap, ?_, fun i => Subtype.ext (J.hz i), ?_⟩
  · intro i hi
    have h1 : st.g.state i = .opn := by
      cases hst : st.g.state i with
      | frozen => exact absurd (J.q.fzN i hst) hi
      | narrow => have := (J.q.nar i hst).1; rw [hemp] at this; cases this
      | opn => rfl
    refine ⟨?_, h1⟩
    have h2 := J.q.opn i h1 (fun hp => hi (I'.X.inside i hp))
    rcases J.good i with h3 | ⟨r, _, h3⟩
    · exact Subtype.ext h3
    · rw [tf_eq] at h2
      rw [gridX_value] at h3
      rw [h3] at h2; exact absurd h2 WithTop.coe_ne_top
  have hval : ∀ i, ∃ t : ℝ, i < dims.prod → (st.g.value i).1 = fin t := by
    intro i
    by_cases hi : i < dims.prod
    · rcases hC i hi with ⟨h1, _⟩ | ⟨_, r, _, h1, _⟩
      · exact absurd h1 (hfinU i hi)
      · exact ⟨r, fun _ => h1⟩
    · exact ⟨0, fun h => absurd h hi⟩
  choose t ht using hval
  have hall : ∀ i, i < dims.prod → (st.g.value i).1 = fin (t i) ∧ 0 ≤ t i ∧ t i ≤ 2 * cM * dims.prod ∧ (g.occ i = true → t i = 0) ∧
        (g.occ i = false → 3/4 * cm ≤ Real.sqrt dims.length * t i) ∧
        ∃ u : ℝ, U i = (u : WithTop ℝ) ∧ 0 ≤ u ∧ (1 - relErr dims.length cm (2 * cM * dims.prod)) * u ≤ t i ∧ t i ≤ (1 + relErr dims.length cm (2 * cM * dims.prod)) * u := by
    intro i hi
    have htf : tf st.g i = ((t i : ℝ) : WithTop ℝ) := by rw [tf_eq, ht i hi]; rfl
    obtain ⟨u, hu⟩ := WithTop.ne_top_iff_exists.1 (hfinU i hi)
    have hu0 : 0 ≤ u := by have := hnnU i hi; rw [← hu] at this; exact_mod_cast this
    refine ⟨ht i hi, ?_, ?_, ?_, ?_, u, hu.symm, hu0, ?_⟩
    · have := J.q.nn i
      rw [htf] at this; exact_mod_cast this
    · rw [← eA]; exact J.q.bnd i _ htf
    · intro ho
      have := (J.q.ini i ((M.listed i).2 ⟨hi, ho⟩)).1
      rw [htf] at this; exact_mod_cast this
    · intro ho
      have h1 := hlow i hi
      rw [htf, ← hu, scl_coe] at h1
      have h1 := WithTop.coe_le_coe.1 h1
      have h2 := wave_low M I hU hi ho hu.symm
      have h3 : 3/4 ≤ I'.lowF := by
        have := I'.θ_small
        have hc := I'.cm0
        unfold DInput.lowF
        have : I'.θ / cm ≤ 1/4 := by rw [div_le_iff₀ hc]; linarith
        linarith
      have hsq := Real.sqrt_nonneg (dims.length : ℝ)
      have h4 := mul_le_mul_of_nonneg_left h1 hsq
      have h5 : 3/4 * (Real.sqrt dims.length * u) ≤ I'.lowF * (Real.sqrt dims.length * u) := mul_le_mul_of_nonneg_right h3 (by positivity)
      nlinarith
    · rcases hC i hi with ⟨h1, _⟩ | ⟨e, r, h1, h2, h3, h4⟩
      · exact absurd h1 (hfinU i hi)
      · rw [← hu] at h1
        obtain rfl : u = e := WithTop.coe_injective h1
        rw [ht i hi] at h2
        injection h2 with h2
        rw [h2]; exact ⟨h3, h4⟩
  refine ⟨t, hall, ?_⟩
  obtain ⟨f, hf, hfo⟩ := M.free
  obtain ⟨mx, hmx, hmax⟩ := Finset.exists_max_image (Finset.range dims.prod) t ⟨f, by simpa using hf⟩
  rw [Finset.mem_range] at hmx
  have hmax' : ∀ i, i < dims.prod → t i ≤ t mx := fun i hi => hmax i (by simpa using hi)
  have hpos : 0 < t mx := by
    refine lt_of_lt_of_le ?_ (hmax' f hf)
    have h1 := (hall f hf).2.2.2.2.1 hfo
    have h2 := (hall f hf).2.1
    have h3 := I.cm0
    rcases eq_or_lt_of_le h2 with h4 | h4
    · rw [← h4] at h1; linarith
    · exact h4
  refine ⟨mx, hmx, hmax', hpos, ?_⟩
  have hsz : st.g.size = dims.prod := by
    show st.g.shape.ncells = _
    rw [hmap.shape, show g.shape = _ from M.shape]; exact mk'_ncells (I.X.fits.mono (by norm_num))
  obtain ⟨g1, g2, g3⟩ := C06_getMaxValue (F64.lt_laws R) st.g
  have hup := g2 mx (by rw [hsz]; exact hmx) (by
    show Arith.isInf (st.g.value mx).1 = false
    rw [(hall mx hmx).1]; rfl)
  have hup : XR.lt (st.g.getMaxValue).1 (st.g.value mx).1 = false := hup
  rw [(hall mx hmx).1] at hup
  rcases g1 with g1 | ⟨i, hi, _, g1⟩
  · rw [g1] at hup
    have : ¬ (0 < t mx) := by simpa [XR.lt, Arith.zero] using hup
    exact absurd hpos this
  · rw [hsz] at hi
    rw [g1, (hall i hi).1] at hup ⊢
    have h2 : ¬ (t i < t mx) := by simpa [XR.lt] using hup
    have := hmax' i hi
    rw [le_antisymm this (not_lt.1 h2)]

/-- what the velocity phase does, in doubles -/
theorem velmap64 (M : FM2Map dims (gridX g) h v) (I : DInput dims g h v g.occupied cm cM (2 * cM * dims.prod)) (hcc : cm ≤ cM) {U : Nat → WithTop ℝ}
    (hU : (obstacleWave dims (gridX g) h v).IsSolution U) {D : F64 R} (hD : DistOk h D) {star : Option Heur} {d : Bool} {gl : Nat} {j : Junk (F64 R)} {pts : List Nat} {goal : Nat}
    {g1 G : Grid (F64 R)} {o1 : Obj (F64 R)} {s : FMV.Obj (F64 R)}
    (hset : (configuredFM2 star D d gl j g pts goal).2.setup (configuredFM2 star D d gl j g pts goal).1 = .ok (g1, o1)) (hv : o1.VelMap FMM.IsTop g1 G s) :
    ∃ (t : Nat → ℝ) (mx : Nat), (∀ i, i < dims.prod → 0 ≤ t i ∧ t i ≤ 2 * cM * dims.prod ∧ (g.occ i = true → t i = 0) ∧
        (g.occ i = false → 3/4 * cm ≤ Real.sqrt dims.length * t i) ∧
        ∃ u : ℝ, U i = (u : WithTop ℝ) ∧ 0 ≤ u ∧ (1 - relErr dims.length cm (2 * cM * dims.prod)) * u ≤ t i ∧ t i ≤ (1 + relErr dims.length cm (2 * cM * dims.prod)) * u) ∧
      mx < dims.prod ∧ (∀ i, i < dims.prod → t i ≤ t mx) ∧ 0 < t mx ∧
      (∀ i, i < dims.prod → ∃ r, (G.vel i).1 = fin r ∧ 0 ≤ r ∧ r ≤ 1 ∧ (t i = 0 → r = 0) ∧ (1 / 10^6 ≤ t i / t mx → eps ≤ r) ∧
        (D.1 = fin (-1) → (t i = t mx → r = 1) ∧ ((2:ℝ)^(-1000:ℤ) ≤ t i / t mx → |r - t i / t mx| ≤ uu * (t i / t mx)))) ∧
      (∀ i, G.value i = Arith.inf ∧ G.state i = .opn ∧ (G.cells i).hValue = Arith.zero) ∧ G.clean = true ∧ G.shape = g.shape ∧ G.leaf = g.leaf ∧
      s.kind = .fmm d .none ∧ s.heur = .none ∧ s.heap = [] ∧ s.ready = true := by
  obtain ⟨c1, c2, c3, c4, c5, c6, c7, c8⟩ := conf_inner star D d gl j g pts goal
  obtain ⟨_, _, _, _, rfl, rfl⟩ := setup_ok hset
  obtain ⟨n, st, r1, r2, rfl, k1, k2, k3, k4, _⟩ := velmap_run (d := d) (o := { (configuredFM2 star D d gl j g pts goal).2 with ready := true }) c1 hv
  dsimp only at r1
  rw [c8, c2] at r1
  obtain ⟨w1, w2, w3, w4, t, w5, mx, w6, w7, w8, w9⟩ := wave64 (d := d) (n := n) (st := st) M I hcc hU
    (r1.mono (fun _ _ h => stepMin_iff.1 h)) r2
  have hsz : st.g.shape.ncells = dims.prod := by
    rw [w2.shape, show g.shape = _ from M.shape]; exact mk'_ncells (I.X.fits.mono (by norm_num))
  have hN0 : dims.prod ≠ 0 := by have := w6; omega
  refine ⟨t, mx, fun i hi => (w5 i hi).2, w6, w7, w8, ?_, ?_, ?_, w2.shape, w2.leaf, k1, k2, by rw [k3, w1], k4⟩
  · intro i hi
    have e : (rescale ({ (configuredFM2 star D d gl j g pts goal).2 with ready := true } : Obj (F64 R)).maxDist st.g).vel i = velocity D st.g.leaf st.g.getMaxValue (st.g.value i) := by
      show (if i < st.g.shape.ncells then _ else st.g.cells i).occupancy = _
      rw [hsz, if_pos hi]
      show velocity _ st.g.leaf st.g.getMaxValue (st.g.value i) = _
      dsimp only
      rw [c3]
    rw [e]
    exact velocity64 hD (by rw [w2.leaf]; exact M.leaf) M.hpos I.h2 w9 (w5 i hi).1 (w5 i hi).2.1 w8 (w7 i hi)
  · intro i
    by_cases hi : i < dims.prod
    · have : (rescale (configuredFM2 star D d gl j g pts goal).2.maxDist st.g).cells i =
        { st.g.cells i with occupancy := velocity (configuredFM2 star D d gl j g pts goal).2.maxDist st.g.leaf st.g.getMaxValue (st.g.cells i).value, value := Arith.inf, state := .opn } := by
        show (if i < st.g.shape.ncells then _ else st.g.cells i) = _
        rw [hsz, if_pos hi]
      unfold Grid.value Grid.state
      dsimp only
      rw [this]
      exact ⟨rfl, rfl, w4 i⟩
    · have : (rescale (configuredFM2 star D d gl j g pts goal).2.maxDist st.g).cells i = st.g.cells i := by
        show (if i < st.g.shape.ncells then _ else st.g.cells i) = _
        rw [hsz, if_neg hi]
      unfold Grid.value Grid.state
      dsimp only
      rw [this]
      exact ⟨(w3 i hi).1, (w3 i hi).2, w4 i⟩
  · show (if st.g.shape.ncells = 0 then _ else true) = true
    rw [hsz, if_neg hN0]

/-- the conditions on sizes keep every free cell above a millionth of the largest time -/
theorem ratio64 (I : DInput dims g h v pts cm cM (2 * cM * dims.prod)) {x y : ℝ} (hy : 0 < y) (hx : 0 ≤ x) (hx1 : 3/4 * cm ≤ Real.sqrt dims.length * x) (hy1 : y ≤ 2 * cM * dims.prod) :
    1 / 10^6 ≤ x / y := by
  rw [le_div_iff₀ hy]
  set A := 2 * cM * (dims.prod : ℝ) with hA
  set z := Real.sqrt (dims.length : ℝ) with hz
  set D : ℝ := (dims.length : ℝ) with hD
  have hD2 : 2 ≤ D := I.D2
  have hz2 : z * z = D := Real.mul_self_sqrt (by linarith)
  have hz0 : 0 ≤ z := Real.sqrt_nonneg _
  have hc := I.cm0
  have hAp := I.Apos
  have hsm : 640 * D^4 * uu * A^2 ≤ cm^2 := I.small
  -- D * A^2 ≤ 9/16 * 10^12 * cm^2
  have h1 : D * A^2 ≤ 9/16 * 10^12 * cm^2 := by
    have h8 : (8:ℝ) ≤ D^3 := by
      have := pow_le_pow_left₀ (by norm_num : (0:ℝ) ≤ 2) hD2 3
      norm_num at this; exact this
    have e : 640 * D^4 * uu * A^2 = 640 * uu * D^3 * (D * A^2) := by ring
    rw [e] at hsm
    have h2 : 640 * uu * 8 * (D * A^2) ≤ 640 * uu * D^3 * (D * A^2) := by
      have hu := uu_pos
      refine mul_le_mul_of_nonneg_right (mul_le_mul_of_nonneg_left h8 (by positivity)) (by positivity)
    have h3 : 640 * uu * 8 * (D * A^2) ≤ cm^2 := le_trans h2 hsm
    have h4 : (1:ℝ) / (9/16 * 10^12) ≤ 640 * uu * 8 := by unfold uu; norm_num
    have h5 : 1 / (9/16 * 10^12) * (D * A^2) ≤ cm^2 := le_trans (mul_le_mul_of_nonneg_right h4 (by positivity)) h3
    rw [div_mul_eq_mul_div, one_mul, div_le_iff₀ (by norm_num)] at h5
    linarith
  have h2 : z * A ≤ 3/4 * 10^6 * cm := by
    refine le_of_sq_le_sq ?_ (by positivity)
    have : (z * A)^2 = D * A^2 := by rw [mul_pow, sq, hz2]
    rw [this]
    have e : (3/4 * 10^6 * cm)^2 = 9/16 * 10^12 * cm^2 := by ring
    rw [e]; exact h1
  have h3 : z * y ≤ 10^6 * (z * x) := by
    have := mul_le_mul_of_nonneg_left hy1 hz0
    nlinarith
  have hzp : 0 < z := Real.sqrt_pos.2 (by linarith)
  have h4 : z * y ≤ z * (10^6 * x) := by linarith
  have h5 := le_of_mul_le_mul_left h4 hzp
  linarith

end FM2
open FM2

/-- **C91**, speeds: computed in 64-bit doubles with every operation rounded, when the velocity phase of FM2 or FM2* ends every speed is a double in [0,1] (never NaN or infinite), exactly 0 in
the obstacles and at least `COMP_MARGIN` in the free cells; without saturation the largest speed is exactly 1. -/
theorem C91_speeds (M : FM2Map dims (gridX g) h v) (I : DInput dims g h v g.occupied cm cM (2 * cM * dims.prod)) (hcc : cm ≤ cM) {D : F64 R} (hD : DistOk h D)
    (star : Option Heur) (d : Bool) (gl : Nat) (j : Junk (F64 R)) (pts : List Nat) (goal : Nat) (g1 G : Grid (F64 R)) (o1 : FM2.Obj (F64 R)) (s : FMV.Obj (F64 R))
    (hset : (configuredFM2 star D d gl j g pts goal).2.setup (configuredFM2 star D d gl j g pts goal).1 = .ok (g1, o1)) (hv : o1.VelMap FMM.IsTop g1 G s) :
    (∃ r : Nat → ℝ, (∀ i, i < dims.prod → (G.vel i).1 = fin (r i) ∧ 0 ≤ r i ∧ r i ≤ 1 ∧ (g.occ i = true → r i = 0) ∧ (g.occ i = false → eps ≤ r i)) ∧
      (D.1 = fin (-1) → ∃ i, i < dims.prod ∧ r i = 1)) ∧
    (∀ i, i < dims.prod → G.occ i = g.occ i) ∧ (∀ i, G.value i = Arith.inf ∧ G.state i = .opn) ∧ G.clean = true := by
  obtain ⟨U, hU, _⟩ := C17_unique_solution (obstacleWave dims (gridX g) h v) (obstacleWave_wellPosed M)
  obtain ⟨t, mx, a1, a2, a3, a4, a5, a6, a7, _⟩ := velmap64 M I hcc hU hD hset hv
  have H : ∀ i, ∃ r, i < dims.prod → (G.vel i).1 = fin r ∧ 0 ≤ r ∧ r ≤ 1 ∧ (t i = 0 → r = 0) ∧ (1 / 10^6 ≤ t i / t mx → eps ≤ r) ∧
        (D.1 = fin (-1) → (t i = t mx → r = 1) ∧ ((2:ℝ)^(-1000:ℤ) ≤ t i / t mx → |r - t i / t mx| ≤ uu * (t i / t mx))) := by
    intro i
    by_cases hi : i < dims.prod
    · obtain ⟨r, hr⟩ := a5 i hi; exact ⟨r, fun _ => hr⟩
    · exact ⟨0, fun h => absurd h hi⟩
  choose r hr using H
  have hfree : ∀ i, i < dims.prod → g.occ i = false → eps ≤ r i := fun i hi ho =>
    (hr i hi).2.2.2.2.1 (ratio64 I a4 (a1 i hi).1 ((a1 i hi).2.2.2.1 ho) (a1 mx a2).2.1)
  have hobs : ∀ i, i < dims.prod → g.occ i = true → r i = 0 := fun i hi ho => (hr i hi).2.2.2.1 ((a1 i hi).2.2.1 ho)
  refine ⟨⟨r, fun i hi => ⟨(hr i hi).1, (hr i hi).2.1, (hr i hi).2.2.1, hobs i hi, hfree i hi⟩, fun hm1 => ⟨mx, a2, ((hr mx a2).2.2.2.2.2 hm1).1 rfl⟩⟩, ?_,
    fun i => ⟨(a6 i).1, (a6 i).2.1⟩, a7⟩
  intro i hi
  have e : G.occ i = XR.lt (G.vel i).1 (fin eps) := rfl
  rw [e, (hr i hi).1]
  cases ho : g.occ i with
  | true => rw [hobs i hi ho]; simp [XR.lt, eps_pos]
  | false => simp [XR.lt, hfree i hi ho]

/-- **C91**, accuracy: without saturation, the speed of every cell, computed in doubles, is `U i / U m` up to the relative error `3 * relErr + 2^-50`, where `U` is the
exact wave from the obstacles and `m` a cell where it is largest. -/
theorem C91_accuracy (M : FM2Map dims (gridX g) h v) (I : DInput dims g h v g.occupied cm cM (2 * cM * dims.prod)) (hcc : cm ≤ cM) {D : F64 R} (hD : D.1 = fin (-1))
    (hρ : relErr dims.length cm (2 * cM * dims.prod) ≤ 1/10)
    (star : Option Heur) (d : Bool) (gl : Nat) (j : Junk (F64 R)) (pts : List Nat) (goal : Nat) (g1 G : Grid (F64 R)) (o1 : FM2.Obj (F64 R)) (s : FMV.Obj (F64 R))
    (hset : (configuredFM2 star D d gl j g pts goal).2.setup (configuredFM2 star D d gl j g pts goal).1 = .ok (g1, o1)) (hv : o1.VelMap FMM.IsTop g1 G s)
    (U : Nat → WithTop ℝ) (hU : (obstacleWave dims (gridX g) h v).IsSolution U) (m : Nat) (hm : m < dims.prod) (hmax : ∀ i, i < dims.prod → U i ≤ U m) (i : Nat) (hi : i < dims.prod) :
    ∃ ui um r : ℝ, U i = (ui : WithTop ℝ) ∧ U m = (um : WithTop ℝ) ∧ 0 < um ∧ (G.vel i).1 = fin r ∧
      |r - ui / um| ≤ (3 * relErr dims.length cm (2 * cM * dims.prod) + 2 / 2^51) * (ui / um) := by
  obtain ⟨t, mx, a1, a2, a3, a4, a5, a6, a7, _⟩ := velmap64 M I hcc hU (Or.inl hD) hset hv
  obtain ⟨_, b2, b3, b4, ui, hui, hui0, c1, c2⟩ := a1 i hi
  obtain ⟨_, _, _, _, um, hum, hum0, d1, d2⟩ := a1 m hm
  obtain ⟨_, _, _, _, ux, hux, hux0, e1, e2⟩ := a1 mx a2
  obtain ⟨r, hr, r0, r1, r2, _, r3⟩ := a5 i hi
  obtain ⟨_, r4⟩ := r3 hD
  set ρ := relErr dims.length cm (2 * cM * dims.prod) with hρd
  have hρ0 : 0 ≤ ρ := by
    rw [hρd]; unfold relErr
    have := I.cm0
    positivity
  have hxm : ux ≤ um := by have := hmax mx a2; rw [hux, hum] at this; exact WithTop.coe_le_coe.1 this
  have hTm : t m ≤ t mx := a3 m hm
  have hT1 : (1 - ρ) * um ≤ t mx := le_trans d1 hTm
  have hT2 : t mx ≤ (1 + ρ) * um := le_trans e2 (mul_le_mul_of_nonneg_left hxm (by linarith))
  have hump : 0 < um := by
    rcases eq_or_lt_of_le hum0 with h0 | h0
    · rw [← h0, mul_zero] at hT2; linarith
    · exact h0
  refine ⟨ui, um, r, hui, hum, hump, hr, ?_⟩
  have hq0 : 0 ≤ ui / um := div_nonneg hui0 hum0
  -- t i / t mx against ui / um
  have hup : t i / t mx ≤ (1 + 2.3 * ρ) * (ui / um) := by
    rw [div_le_iff₀ a4]
    refine le_trans c2 ?_
    have h1 : (1 + 2.3 * ρ) * (ui / um) * ((1 - ρ) * um) ≤ (1 + 2.3 * ρ) * (ui / um) * t mx := mul_le_mul_of_nonneg_left hT1 (by positivity)
    refine le_trans ?_ h1
    have e : (1 + 2.3 * ρ) * (ui / um) * ((1 - ρ) * um) = ((1 + 2.3 * ρ) * (1 - ρ)) * ui := by field_simp
    rw [e]
    refine mul_le_mul_of_nonneg_right ?_ hui0
    nlinarith
  have hlo : (1 - 2 * ρ) * (ui / um) ≤ t i / t mx := by
    rw [le_div_iff₀ a4]
    refine le_trans ?_ c1
    have h1 : (1 - 2 * ρ) * (ui / um) * t mx ≤ (1 - 2 * ρ) * (ui / um) * ((1 + ρ) * um) := mul_le_mul_of_nonneg_left hT2 (mul_nonneg (by linarith) hq0)
    refine le_trans h1 ?_
    have e : (1 - 2 * ρ) * (ui / um) * ((1 + ρ) * um) = ((1 - 2 * ρ) * (1 + ρ)) * ui := by field_simp
    rw [e]
    refine mul_le_mul_of_nonneg_right ?_ hui0
    nlinarith
  have hu : (1:ℝ) / 2^51 = uu := by unfold uu; norm_num
  have hu2 : (2:ℝ) / 2^51 = 2 * uu := by rw [← hu]; ring
  rw [hu2]
  have hup0 := uu_pos
  cases ho : g.occ i with
  | true =>
    have h1 := r2 (b3 ho)
    have h2 : (1 - ρ) * ui ≤ 0 := by rw [← b3 ho]; exact c1
    have h3 : ui = 0 := by
      rcases eq_or_lt_of_le hui0 with h0 | h0
      · exact h0.symm
      · nlinarith
    rw [h1, h3]; simp
  | false =>
    have h1 := ratio64 I a4 (a1 i hi).1 ((a1 i hi).2.2.2.1 ho) (a1 mx a2).2.1
    have h2 := r4 (le_trans (by
      have : (2:ℝ)^(-1000:ℤ) ≤ (2:ℝ)^(-20:ℤ) := zpow_le_zpow_right₀ (by norm_num) (by norm_num)
      refine le_trans this ?_
      rw [zpow_neg]; norm_num) h1)
    obtain ⟨h3, h4⟩ := abs_le.1 h2
    have hut : uu ≤ 1/100 := by unfold uu; norm_num
    have hρu : uu * (2.3 * ρ) ≤ 1/100 * (2.3 * ρ) := mul_le_mul_of_nonneg_right hut (by linarith)
    have ex1 : (1 + 2.3 * ρ) * (ui / um) = ui / um + 2.3 * (ρ * (ui / um)) := by ring
    have ex2 : (1 - 2 * ρ) * (ui / um) = ui / um - 2 * (ρ * (ui / um)) := by ring
    have ex3 : (3 * ρ + 2 * uu) * (ui / um) = 3 * (ρ * (ui / um)) + 2 * uu * (ui / um) := by ring
    have hpq : 0 ≤ ρ * (ui / um) := mul_nonneg hρ0 hq0
    rw [abs_le]
    constructor
    · have : uu * (t i / t mx) ≤ uu * ((1 + 2.3 * ρ) * (ui / um)) := mul_le_mul_of_nonneg_left hup hup0.le
      have h5 : uu * ((1 + 2.3 * ρ) * (ui / um)) ≤ (2 * uu) * (ui / um) := by
        have : uu * (1 + 2.3 * ρ) ≤ 2 * uu := by nlinarith
        have := mul_le_mul_of_nonneg_right this hq0
        linarith
      rw [ex3]
      linarith
    · have : uu * (t i / t mx) ≤ uu * ((1 + 2.3 * ρ) * (ui / um)) := mul_le_mul_of_nonneg_left hup hup0.le
      have h5 : uu * ((1 + 2.3 * ρ) * (ui / um)) ≤ (2 * uu) * (ui / um) := by
        have : uu * (1 + 2.3 * ρ) ≤ 2 * uu := by nlinarith
        have := mul_le_mul_of_nonneg_right this hq0
        linarith
      rw [ex3]
      linarith

/-- **C91**, reachability: computed in doubles, when `compute()` of FM2 or FM2* returns, the start is FROZEN exactly when start and goal are connected through free cells of the given map. -/
theorem C91_reaches (M : FM2Map dims (gridX g) h v) (I : DInput dims g h v g.occupied cm cM (2 * cM * dims.prod)) (hcc : cm ≤ cM) {D : F64 R} (hD : DistOk h D)
    (star : Option Heur) (d : Bool) (gl : Nat) (j : Junk (F64 R)) (start goal : Nat) (hgo : goal < dims.prod) (G : Grid (F64 R)) (o' : FM2.Obj (F64 R))
    (hc : (configuredFM2 star D d gl j g [start] goal).2.Computes FMM.IsTop (configuredFM2 star D d gl j g [start] goal).1 G o') :
    G.state start = .frozen ↔ Reachable dims (Shape.mk' dims).idx2coord (fun i => g.occ i = false) (fun i => i = goal) start := by
  obtain ⟨g1, o1, gv, s, hset, hvm, cfg, n, st, q1, q2, q3, q4, q5, q6, rfl⟩ := C34_second_wave_partial _ _ _ _ _ _ _ _ _ _ _ hc
  obtain ⟨U, hU, _⟩ := C17_unique_solution (obstacleWave dims (gridX g) h v) (obstacleWave_wellPosed M)
  obtain ⟨t, mx, a1, a2, a3, a4, a5, a6, a7, a8, a9, k1, k2, k3, k4⟩ := velmap64 M I hcc hU hD hset hvm
  obtain ⟨_, hocc, _, _⟩ := C91_speeds M I hcc hD star d gl j [start] goal g1 gv o1 s hset hvm
  rw [k3] at q4
  have hin : Input dims gv [goal] := ⟨I.X.fits, a8.trans M.shape, by intro i hi; rw [List.mem_singleton.1 hi]; exact hgo⟩
  have hany : Steps (StepAny cfg) n (FMM.init cfg gv [] [goal]) st := q4.mono (fun _ _ h => (FM2.stepMin_iff.1 h).any)
  have hop : ∀ i, gv.state i = .opn := fun i => (a6 i).2.1
  have hre : ∀ i, FMM.reach dims gv [goal] i ↔ Reachable dims (Shape.mk' dims).idx2coord (fun i => g.occ i = false) (fun i => i = goal) i := by
    intro i
    constructor
    · exact reachable_congr (fun k hk hf => by rw [← hocc k hk]; exact hf) (fun k hk => List.mem_singleton.1 hk)
    · exact reachable_congr (fun k hk hf => by rw [hocc k hk]; exact hf) (fun k hk => List.mem_singleton.2 hk)
  rw [← hre]
  refine ⟨C14_only_reachable cfg dims gv [goal] hin hop n st hany start, fun hr' => ?_⟩
  rcases q5 with q5 | q5
  · exact q6 q5
  · exact (C14_frozen_iff_reachable cfg dims gv [goal] hin hop n st hany q5 start).2 hr'

/-- **C91**, termination: in doubles, on a map with at least two obstacles and for a well-posed problem, `compute()` of FM2 and FM2* (with a heap without duplicates) returns. -/
theorem C91_returns (M : FM2Map dims (gridX g) h v) (I : DInput dims g h v g.occupied cm cM (2 * cM * dims.prod)) (hcc : cm ≤ cM) (h2 : 2 ≤ g.occupied.length) {D : F64 R} (hD : DistOk h D)
    (star : Option Heur) (gl : Nat) (j : Junk (F64 R)) (start goal : Nat) (hv : ValidProblem g.cleanGrid [start] goal) (hg : goal < dims.prod) :
    ∃ G o', (configuredFM2 star D false gl j g [start] goal).2.Computes FMM.IsTop (configuredFM2 star D false gl j g [start] goal).1 G o' := by
  obtain ⟨⟨g1, o1⟩, hset⟩ := (C34_gate star D false gl j g [start] goal).1.2 ⟨hv, rfl, fun h => by rw [h] at h2; simp at h2, fun _ h => by
    have := M.cells; rw [h] at hg; unfold noGoal at hg; omega⟩
  have hm : SameMap g (g.cleanGrid.setClean false) := (clean_map g).trans (setClean_map _ _)
  have hvm : ∃ gv s, o1.VelMap FMM.IsTop g1 gv s := by
    obtain ⟨c1, c2, c3, c4, c5, c6, c7, c8⟩ := conf_inner star D false gl j g [start] goal
    generalize configuredFM2 star D false gl j g [start] goal = c at *
    obtain ⟨_, _, _, _, rfl, rfl⟩ := setup_ok hset
    have I' := dinput64 M I hm
    obtain ⟨n, st, _, r1, r2⟩ := C13_doubles R (waveCfg false) rfl dims (g.cleanGrid.setClean false) g.occupied ⟨I'.X.fits, I'.X.shape, I'.X.inside⟩
    have := velmap_exists (pop := FMM.IsTop) (d := false) (o := { c.2 with ready := true }) (g := c.1.setClean false) c1 (by
        dsimp only; rw [c2]
        refine ⟨rfl, fun h => by rw [h] at h2; simp at h2, fun p hp => by rw [hp] at h2; simp at h2, fun h => absurd rfl h, fun hn => ?_⟩
        have := ((M.listed _).1 hn).1
        have h2 := M.cells
        unfold noGoal at this; omega) (n := n) (st := st) (by
        dsimp only; rw [c2, c8]
        exact r1.mono (fun _ _ h => stepMin_iff.2 h)) r2
    obtain ⟨s, hs⟩ := this
    exact ⟨_, s, hs⟩
  obtain ⟨gv, s, hvm⟩ := hvm
  obtain ⟨U, hU, _⟩ := C17_unique_solution (obstacleWave dims (gridX g) h v) (obstacleWave_wellPosed M)
  obtain ⟨t, mx, a1, a2, a3, a4, a5, a6, a7, a8, a9, k1, k2, k3, k4⟩ := velmap64 M I hcc hU hD hset hvm
  obtain ⟨c1, c2, c3, c4, c5, c6, c7, c8⟩ := conf_inner star D false gl j g [start] goal
  generalize configuredFM2 star D false gl j g [start] goal = c at *
  have ho1 : o1 = { c.2 with ready := true } := (setup_ok hset).2.2.2.2.2
  obtain ⟨e1, e2, e3, e4, e5, e6⟩ := second_spec (o := o1) (g := gv) k1 k4
  obtain ⟨G, o', hr⟩ := Life.fmm_returns FMM.IsTop (fun s hs => by
      obtain ⟨x, hx, hmin⟩ := FMM.exists_min (F64.lt_laws R) (fun x => (s.g.cells x).total) s.heap hs
      exact ⟨x, hx, hx, hmin⟩) e1 (by rw [e5, k3]) (dims := dims) (g := gv)
    ⟨I.X.fits, a8.trans M.shape, by
      rw [e3, ho1]; intro i hi
      rw [List.mem_singleton.1 hi]
      show c.2.goal < _
      rw [c6]; exact hg⟩
  exact ⟨G.setClean false, { o1 with inner := o' }, Or.inr ⟨c7, g1, o1, hset, gv, s, G, o', hvm, Or.inl ⟨e2, hr⟩, rfl, rfl⟩⟩

/-! ### a concrete case -/
namespace FM2

/-- the corridor of C33 in doubles -/
noncomputable def corridor64 (R : Rounding) : Grid (F64 R) :=
  { Grid.create [5,2] Arith.one (0,0) with
    cells := fun i => { (Cell.default : Cell (F64 R)) with index := i, occupancy := if i ∈ ([0,5] : List Nat) then Arith.zero else Arith.one }, occupied := [0,5] }

theorem corridor64_X (R : Rounding) : gridX (corridor64 R) = corridor := by
  unfold corridor64 gridX corridor room
  dsimp only
  congr 1
  funext i
  unfold cellX
  dsimp only
  split <;> rfl

theorem corridor64_map (R : Rounding) : FM2Map [5,2] (gridX (corridor64 R)) 1 (fun _ => 1) := by rw [corridor64_X]; exact corridor_map

theorem corridor64_occ (R : Rounding) (i : Nat) : (corridor64 R).occ i = corridor.occ i := by rw [← corridor64_X R]; rfl

theorem corridor64_free (R : Rounding) {i : Nat} (h : i ∉ ([0,5] : List Nat)) : (corridor64 R).occ i = false := by
  rw [corridor64_occ]
  cases hx : corridor.occ i with
  | false => rfl
  | true => exact absurd ((room_occ [0,5] i).1 hx) h

theorem corridor64_valid (R : Rounding) : ValidProblem (corridor64 R).cleanGrid [1] 4 where
  clean := rfl
  some := by simp
  start := by
    intro p hp
    obtain rfl : 1 = p := by simpa using hp
    rw [SameMap.occ_eq (clean_map _)]
    exact corridor64_free R (by decide)
  free := by
    intro _
    rw [SameMap.occ_eq (clean_map _)]
    exact corridor64_free R (by decide)
  apart := by simp

theorem corridor64_input (R : Rounding) : DInput [5,2] (corridor64 R) 1 (fun _ => 1) (corridor64 R).occupied 1 1 (2 * 1 * (([5,2] : List Nat).prod : ℝ)) := by
  have hp : (([5,2] : List Nat).prod : ℝ) = 10 := by norm_num
  have b1 : (2:ℝ)^(-200:ℤ) ≤ 1 := by
    have : (2:ℝ)^(-200:ℤ) ≤ (2:ℝ)^(0:ℤ) := zpow_le_zpow_right₀ (by norm_num) (by norm_num)
    simpa using this
  have b2 : (1:ℝ) ≤ (2:ℝ)^(200:ℤ) := by
    have : (2:ℝ)^(0:ℤ) ≤ (2:ℝ)^(200:ℤ) := zpow_le_zpow_right₀ (by norm_num) (by norm_num)
    simpa using this
  have b3 : (20:ℝ) ≤ (2:ℝ)^(300:ℤ) := by
    have : (2:ℝ)^(5:ℤ) ≤ (2:ℝ)^(300:ℤ) := zpow_le_zpow_right₀ (by norm_num) (by norm_num)
    refine le_trans ?_ this
    norm_num
  refine ⟨input (corridor64_map R) (SameMap.refl _), b1, b2, fun _ _ _ => b2, one_pos, fun _ _ _ => by norm_num, fun _ _ _ => by norm_num, ?_, ?_, ?_, ?_, ?_⟩
  · rw [hp]; norm_num
  · rw [hp]; norm_num
  · rw [hp]
    have : (2:ℝ) * 1 * 10 = 20 := by norm_num
    rw [this]; exact b3
  · rw [hp]; unfold uu; norm_num
  · unfold XR.eps; norm_num

end FM2

/-- non-vacuity: in the corridor, in any rounding mode, FM2 and FM2* return, with and without a saturation distance (2 cells), and the start is FROZEN; the error guaranteed by `C91_accuracy` is below one part
in ten million -/
example (R : Rounding) (star : Option Heur) (gl : Nat) (j : Junk (F64 R)) (D : F64 R) (hD : D.1 = fin (-1) ∨ D.1 = fin 2) : ∃ G o',
    (configuredFM2 star D false gl j (corridor64 R) [1] 4).2.Computes FMM.IsTop (configuredFM2 star D false gl j (corridor64 R) [1] 4).1 G o' ∧ G.state 1 = .frozen ∧
    3 * relErr 2 1 (2 * 1 * (([5,2] : List Nat).prod : ℝ)) + 2 / 2^51 < 1 / 10^7 := by
  have hD' : DistOk 1 D := hD.imp id (fun h => ⟨2, h, by
    have : (2:ℝ)^(-200:ℤ) ≤ (2:ℝ)^(0:ℤ) := zpow_le_zpow_right₀ (by norm_num) (by norm_num)
    have e : (2:ℝ)^(0:ℤ) = 1 := by norm_num
    rw [e] at this; linarith, by norm_num⟩)
  obtain ⟨G, o', hc⟩ := C91_returns (corridor64_map R) (corridor64_input R) (le_refl _) (by simp [corridor64]) hD' star gl j 1 4 (corridor64_valid R) (by decide)
  refine ⟨G, o', hc, (C91_reaches (corridor64_map R) (corridor64_input R) (le_refl _) hD' star false gl j 1 4 (by decide) G o' hc).2 ?_, ?_⟩
  · have f : Fits [5,2] (2^31+1) := ⟨by decide, by decide, by decide⟩
    have adj : ∀ i k, i < 10 → k ∈ (Shape.mk' [5,2]).nbrs i → AxisAdjacent ((Shape.mk' [5,2]).idx2coord i) ((Shape.mk' [5,2]).idx2coord k) :=
      fun i k hi hk => ((FMM.axisAdjacent_iff f (i := i) hi).1 hk).2
    have r4 : Reachable [5,2] (Shape.mk' [5,2]).idx2coord (fun i => (corridor64 R).occ i = false) (fun i => i = 4) 4 := .start rfl (by decide)
    have r3 := Reachable.move r4 (j := 3) (by decide) (corridor64_free R (by decide)) (adj 4 3 (by decide) (by decide))
    have r2 := Reachable.move r3 (j := 2) (by decide) (corridor64_free R (by decide)) (adj 3 2 (by decide) (by decide))
    exact Reachable.move r2 (j := 1) (by decide) (corridor64_free R (by decide)) (adj 2 1 (by decide) (by decide))
  · unfold relErr
    have hp : (([5,2] : List Nat).prod : ℝ) = 10 := by norm_num
    rw [hp]; norm_num

end FMV
