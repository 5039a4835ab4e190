import Verif.Lemmas.F64FMM
import Verif.Lemmas.Lock
/-! Solvers that only write improved times, in doubles: error invariants. -/
set_option linter.unusedSectionVars false
set_option linter.unusedVariables false
namespace FMV
open Spec Shape XR FMM
variable {R : Rounding}

namespace XInput
variable {dims : List Nat} {g : Grid XR} {h : ℝ} {v : Nat → ℝ} {pts : List Nat}

/-- lowering a neighbour to a time not below `T i - δ` keeps `i` converged -/
theorem Conv.drop (X : XInput dims g h v pts) {T T' : Nat → WithTop ℝ} {δ : ℝ} (hδ : 0 ≤ δ) {i n : Nat} (hi : i < dims.prod)
    (hin : i ≠ n) (hc : X.Conv T δ i) (h1 : ∀ k, k ≠ n → T' k = T k) (h2 : n ∈ (Shape.mk' dims).nbrs i → T i ≤ T' n + (δ : WithTop ℝ)) : X.Conv T' δ i := by
  intro Y hY
  rw [h1 i hin]
  by_cases hnY : n ∈ (Shape.mk' dims).nbrs i ∧ T' n < (Y : WithTop ℝ)
  · refine le_trans (h2 hnY.1) ?_
    have : ((Y + δ : ℝ) : WithTop ℝ) = (Y : WithTop ℝ) + (δ : WithTop ℝ) := rfl
    rw [this]
    gcongr
    exact hnY.2.le
  · refine hc Y (le_trans hY (X.residL_mins_le_of (S := T') (S' := T) ?_))
    intro a ha hlt
    have : a ≠ n := by rintro rfl; exact hnY ⟨ha, hlt⟩
    rw [h1 a this]

theorem mins_congr (X : XInput dims g h v pts) {T T' : Nat → WithTop ℝ} {i : Nat} (hi : i < dims.prod) (h1 : ∀ k, k ≠ i → T' k = T k) :
    mins (Shape.mk' dims) T' i = mins (Shape.mk' dims) T i := by
  unfold mins
  apply List.map_congr_left
  intro k hk
  unfold dimMin
  congr 1
  apply List.map_congr_left
  intro a ha
  apply h1
  rintro rfl
  exact nbrs_irrefl X.fits hi (mem_nbrs.2 ⟨k, List.mem_range.1 hk, ha⟩)

theorem conv_source (X : XInput dims g h v pts) {T : Nat → WithTop ℝ} (hT : ∀ k, 0 ≤ T k) {δ : ℝ} (hδ : 0 ≤ δ) {i : Nat} (hi : i < dims.prod)
    (ho : g.occ i = false) (h0 : T i = 0) : X.Conv T δ i := by
  intro Y hY
  obtain ⟨t, ht, htY⟩ := residL_pos_lt (lt_of_lt_of_le (X.csq hi ho) hY)
  have := XInput.mins_nn hT i _ ht
  have h1 : (0:ℝ) ≤ t := by exact_mod_cast this
  rw [h0]
  have : (0:ℝ) ≤ Y + δ := by linarith
  exact_mod_cast this

theorem conv_lonely (X : XInput dims g h v pts) {T : Nat → WithTop ℝ} {δ : ℝ} {i : Nat} (hi : i < dims.prod)
    (ho : g.occ i = false) (hn : ∀ j ∈ (Shape.mk' dims).nbrs i, T j = ⊤) : X.Conv T δ i := by
  intro Y hY
  exfalso
  obtain ⟨t, ht, htY⟩ := residL_pos_lt (lt_of_lt_of_le (X.csq hi ho) hY)
  obtain ⟨a, ha, e⟩ := XInput.mem_mins ht WithTop.coe_ne_top
  rw [hn a ha] at e
  exact WithTop.coe_ne_top e

end XInput

namespace DInput
variable {dims : List Nat} {g : Grid (F64 R)} {h : ℝ} {v : Nat → ℝ} {pts : List Nat} {cm cM A : ℝ}

/-- cells with a finite time -/
noncomputable def reached (dims : List Nat) (g' : Grid (F64 R)) : Finset Nat := by
  classical exact (Finset.range dims.prod).filter (fun i => tf g' i ≠ ⊤)

theorem mem_reached {g' : Grid (F64 R)} {i : Nat} : i ∈ reached dims g' ↔ i < dims.prod ∧ tf g' i ≠ ⊤ := by
  unfold reached; simp

theorem card_reached_le (g' : Grid (F64 R)) : (reached dims g').card ≤ dims.prod := by
  have : reached dims g' ⊆ Finset.range dims.prod := by intro i hi; simp [(mem_reached.1 hi).1]
  simpa using Finset.card_le_card this

/-- relative error of the lower bound -/
noncomputable def lowF (I : DInput dims g h v pts cm cM A) : ℝ := 1 - I.θ / cm

theorem lowF_pos (I : DInput dims g h v pts cm cM A) : 0 < I.lowF := by
  unfold lowF
  have h1 := I.θ_small
  have h2 := I.cm0
  have h3 := I.θ_nonneg
  have : I.θ / cm ≤ 1/4 := by rw [div_le_iff₀ h2]; linarith
  linarith

/-- the local solver keeps the lower bound -/
theorem eik_low (I : DInput dims g h v pts cm cM A) {U : Nat → WithTop ℝ} (hU : I.X.problem.IsSolution U) {T : Nat → WithTop ℝ}
    (hT : ∀ j, j < dims.prod → scl I.lowF (U j) ≤ T j) {i : Nat} (hi : i < dims.prod) (ho : g.occ i = false) {Ti x : WithTop ℝ}
    (hx : Apr (h / v i) I.θ I.β Ti (mins (Shape.mk' dims) T i) x) : scl I.lowF (U i) ≤ x := by
  refine I.X.lower_rel hU I.lowF_pos hT hi ho ?_
  intro u hu
  refine le_trans ?_ (hx.lower u hu)
  have h1 := I.lo i hi ho
  have h2 := I.cm0
  have h3 := I.θ_nonneg
  have h4 := I.θ_small
  have hf := I.lowF_pos
  have hc : 0 < h / v i := lt_of_lt_of_le h2 h1
  have : I.lowF * (h / v i) ≤ h / v i - I.θ := by
    unfold lowF
    have : I.θ / cm * cm ≤ I.θ / cm * (h / v i) := mul_le_mul_of_nonneg_left h1 (by positivity)
    rw [div_mul_cancel₀ _ h2.ne'] at this
    linarith
  have h5 : 0 ≤ I.lowF * (h / v i) := by positivity
  nlinarith

/-- invariants of every solver that only writes improved times -/
structure TInv (I : DInput dims g h v pts cm cM A) (w : ℝ) (g' : Grid (F64 R)) : Prop where
  map : SameMap g g'
  good : GoodG (gridX g')
  low : ∀ U, I.X.problem.IsSolution U → ∀ j, j < dims.prod → scl I.lowF (U j) ≤ tf g' j
  src : ∀ i ∈ pts, tf g' i = 0
  out : ∀ i, dims.prod ≤ i → tf g' i = ⊤
  bnd : ∀ i (r : ℝ), tf g' i = (r : WithTop ℝ) → r ≤ w * (reached dims g').card

theorem TInv.le (I : DInput dims g h v pts cm cM A) {w : ℝ} (w0 : 0 ≤ w) (hwA : w * dims.prod ≤ A) {g' : Grid (F64 R)} (J : I.TInv w g') :
    ∀ i (r : ℝ), tf g' i = (r : WithTop ℝ) → r ≤ A := by
  intro i r hr
  refine le_trans (J.bnd i r hr) (le_trans ?_ hwA)
  have : ((reached dims g').card : ℝ) ≤ dims.prod := by exact_mod_cast card_reached_le g'
  exact mul_le_mul_of_nonneg_left this w0

theorem TInv.nn (I : DInput dims g h v pts cm cM A) {w : ℝ} {g' : Grid (F64 R)} (J : I.TInv w g') (k : Nat) : 0 ≤ tf g' k := (J.good k).toT_nonneg

theorem TInv.tried (I : DInput dims g h v pts cm cM A) {w : ℝ} (w0 : 0 ≤ w) (hw : ∀ i, i < dims.prod → g.occ i = false → h / v i + I.β ≤ w)
    (hwA : w * dims.prod ≤ A) {g1 g2 : Grid (F64 R)} {i : Nat} {b : Bool} (J : I.TInv w g1) (ht : Tried eikS g1 g2 i b)
    (hi : i < dims.prod) (ho : g.occ i = false) : I.TInv w g2 := by
  have hA := J.le I w0 hwA
  obtain ⟨hgd, hap⟩ := I.eik J.map J.good hA hi ho
  have hT : ∀ k, k ≠ i → tf g2 k = tf g1 k := by intro k hk; rw [tf_eq, tf_eq, ht.other k hk]
  have hgood : GoodG (gridX g2) := by
    intro k
    rw [gridX_value]
    by_cases hk : k = i
    · subst hk
      cases b with
      | true => rw [(ht.yes rfl).2]; exact hgd
      | false => rw [ht.no rfl]; exact J.good k
    · rw [ht.other k hk]; exact J.good k
  cases b with
  | false =>
    have hTe : tf g2 = tf g1 := by
      funext k
      by_cases hk : k = i
      · subst hk; rw [tf_eq, tf_eq, ht.no rfl]
      · exact hT k hk
    have hre : reached dims g2 = reached dims g1 := by ext k; rw [mem_reached, mem_reached, hTe]
    exact ⟨J.map.trans ht.map, hgood, by rw [hTe]; exact J.low, by rw [hTe]; exact J.src, by rw [hTe]; exact J.out, by rw [hTe, hre]; exact J.bnd⟩
  | true =>
    obtain ⟨hb, hv⟩ := ht.yes rfl
    have hlt : toT (eikS g1 i).1.1 < tf g1 i := accept hgd (J.good i) hb
    have hTi : tf g2 i = toT (eikS g1 i).1.1 := by rw [tf_eq, hv]
    refine ⟨J.map.trans ht.map, hgood, ?_, ?_, ?_, ?_⟩
    · intro U hU k hk
      by_cases hki : k = i
      · subst hki; rw [hTi]; exact I.eik_low hU (J.low U hU) hk ho hap
      · rw [hT k hki]; exact J.low U hU k hk
    · intro k hk
      by_cases hki : k = i
      · subst hki
        rw [J.src k hk] at hlt
        exact absurd hlt (not_lt.2 hgd.toT_nonneg)
      · rw [hT k hki]; exact J.src k hk
    · intro k hk
      rw [hT k (by omega)]; exact J.out k hk
    · have hne : tf g2 i ≠ ⊤ := by rw [hTi]; exact ne_top_of_lt hlt
      have hsub : reached dims g1 ⊆ reached dims g2 := by
        intro k hk
        rw [mem_reached] at hk ⊢
        refine ⟨hk.1, ?_⟩
        by_cases hki : k = i
        · rw [hki]; exact hne
        · rw [hT k hki]; exact hk.2
      have hcard : ((reached dims g1).card : ℝ) ≤ (reached dims g2).card := by exact_mod_cast Finset.card_le_card hsub
      have hmono : w * (reached dims g1).card ≤ w * (reached dims g2).card := mul_le_mul_of_nonneg_left hcard w0
      intro k r hr
      by_cases hki : k = i
      · subst hki
        by_cases hold : tf g1 k = ⊤
        · -- newly reached
          have hcs : ((reached dims g1).card : ℝ) + 1 ≤ (reached dims g2).card := by
            have : reached dims g1 ⊂ reached dims g2 := by
              refine Finset.ssubset_iff_subset_ne.2 ⟨hsub, ?_⟩
              intro e
              have h1 : k ∈ reached dims g2 := mem_reached.2 ⟨hi, hne⟩
              rw [← e, mem_reached] at h1
              exact h1.2 hold
            exact_mod_cast Finset.card_lt_card this
          rw [hTi] at hr
          have hex : ∃ t : ℝ, (t : WithTop ℝ) ∈ mins (Shape.mk' dims) (tf g1) k ∧ (t : WithTop ℝ) < tf g1 k := by
            by_contra hcon
            push Not at hcon
            have := hap.top (by
              intro m hm
              cases m with
              | top => exact Or.inl rfl
              | coe t => exact Or.inr (hcon t hm))
            rw [hr] at this
            exact WithTop.coe_ne_top this
          obtain ⟨t, h1, h2⟩ := hex
          have h3 := hap.near t h1 h2
          rw [hr] at h3
          have h4 : r ≤ t + (h / v k + I.β) := by exact_mod_cast h3
          obtain ⟨a, _, ha⟩ := XInput.mem_mins h1 WithTop.coe_ne_top
          have h5 := J.bnd a t ha.symm
          have h6 := hw k hi ho
          have h7 : w * ((reached dims g1).card + 1) ≤ w * (reached dims g2).card := mul_le_mul_of_nonneg_left hcs w0
          linarith
        · obtain ⟨q, hq⟩ := WithTop.ne_top_iff_exists.1 hold
          have h1 := J.bnd k q hq.symm
          rw [← hq, ← hTi, hr] at hlt
          have h2 : r < q := by exact_mod_cast hlt
          linarith
      · rw [hT k hki] at hr
        exact le_trans (J.bnd k r hr) hmono

/-- times right after the initial points were set in a clean grid -/
theorem TInv.start (I : DInput dims g h v pts cm cM A) {w : ℝ} (w0 : 0 ≤ w) {g' : Grid (F64 R)} (hm : SameMap g g')
    (hv : ∀ k, (g'.value k).1 = if k ∈ pts then fin 0 else pinf) : I.TInv w g' := by
  have hT : ∀ k, tf g' k = if k ∈ pts then 0 else ⊤ := by
    intro k; rw [tf_eq, hv]; split <;> rfl
  refine ⟨hm, ?_, ?_, ?_, ?_, ?_⟩
  · intro k; rw [gridX_value, hv]; split
    · exact Or.inr ⟨0, le_refl _, rfl⟩
    · exact Or.inl rfl
  · intro U hU k hk
    rw [hT]; split
    · next hp => rw [((I.X.exSol hU) k hk).1 hp, scl_zero]
    · exact le_top
  · intro k hk; rw [hT, if_pos hk]
  · intro k hk
    rw [hT, if_neg]
    intro hp
    have := I.X.inside k hp
    omega
  · intro k r hr
    rw [hT] at hr
    split at hr
    · have : r = 0 := by exact_mod_cast hr.symm
      rw [this]; positivity
    · exact absurd hr (by simp)

/-- a cell the code would not improve is converged -/
theorem conv_of_reject (I : DInput dims g h v pts cm cM A) {w : ℝ} (w0 : 0 ≤ w) (hwA : w * dims.prod ≤ A) {g' : Grid (F64 R)} (J : I.TInv w g')
    {i : Nat} (hi : i < dims.prod) (ho : g.occ i = false) (hb : Arith.better (eikS g' i).1 (g'.value i) = false) : I.X.Conv (tf g') (2 * I.β) i := by
  have hA := J.le I w0 hwA
  obtain ⟨hgd, hap⟩ := I.eik J.map J.good hA hi ho
  have hrej := I.reject hgd (J.good i) hb (I.eik_le hA hi ho hap)
  have hβ := I.β_pos
  intro Y hY
  by_cases hlt : (Y : WithTop ℝ) < tf g' i
  · refine le_trans hrej ?_
    refine le_trans (add_le_add_left (hap.upper Y hlt hY) _) ?_
    have : Y + I.β + I.β ≤ Y + 2 * I.β := by linarith
    exact_mod_cast this
  · refine le_trans (not_lt.1 hlt) ?_
    have : Y ≤ Y + 2 * I.β := by linarith
    exact_mod_cast this

/-- final accuracy -/
theorem accurate (I : DInput dims g h v pts cm cM A) {δ : ℝ} (hδ : 0 ≤ δ) (hδ2 : δ ≤ I.θ + 2 * I.β) {U : Nat → WithTop ℝ} (hU : I.X.problem.IsSolution U) {T : Nat → WithTop ℝ}
    (hsrc : ∀ i ∈ pts, T i ≤ 0) (hc : ∀ i, i < dims.prod → g.occ i = false → i ∉ pts → I.X.Conv T δ i) {i : Nat} (hi : i < dims.prod) :
    T i ≤ scl (1 + 2 * dims.length * (I.θ + 2 * I.β) / cm) (U i) := by
  have h1 := I.θ_nonneg
  have h2 := I.β_pos
  refine I.X.accuracy_rel hU (by linarith) I.cm0 I.lo hsrc ?_ i hi
  intro k hk ho hp Y hY
  refine le_trans (hc k hk ho hp Y hY) ?_
  have : Y + δ ≤ Y + (I.θ + 2 * I.β) := by linarith
  exact_mod_cast this

/-! ### locks -/

/-- invariant of LSM and DDQM in doubles: a locked free cell is converged -/
structure KInv64 (I : DInput dims g h v pts cm cM A) (w : ℝ) (g' : Grid (F64 R)) : Prop where
  t : I.TInv w g'
  st : ∀ i, i < dims.prod → g'.state i = .opn ∨ g'.state i = .frozen
  lock : ∀ i, i < dims.prod → g.occ i = false → g'.state i = .frozen → I.X.Conv (tf g') (2 * I.β) i

theorem KInv64.lockStep (I : DInput dims g h v pts cm cM A) {w : ℝ} (w0 : 0 ≤ w) (hw : ∀ i, i < dims.prod → g.occ i = false → h / v i + I.β ≤ w)
    (hwA : w * dims.prod ≤ A) {g1 g2 : Grid (F64 R)} {i : Nat} {b : Bool} (J : I.KInv64 w g1) (hi : i < dims.prod)
    (ho : g1.occ i = false) (hT : Tried eikS g1 g2 i b)
    (hyes : b = true → ∀ k, k < dims.prod → g2.state k = if k = i then .frozen else
      if k ∈ (Shape.mk' dims).nbrs i ∧ Arith.better (eikS g1 i).1 (g1.value k) = true then .opn else g1.state k)
    (hno : b = false → Arith.better (eikS g1 i).1 (g1.value i) = false ∧
      ∀ k, k < dims.prod → g2.state k = if k = i then .frozen else g1.state k) : I.KInv64 w g2 := by
  have ho' : g.occ i = false := by rw [← SameMap.occ_eq J.t.map]; exact ho
  have hS := J.t.tried I w0 hw hwA hT hi ho'
  have hA := J.t.le I w0 hwA
  obtain ⟨hgd, hap⟩ := I.eik J.t.map J.t.good hA hi ho'
  have hTo : ∀ k, k ≠ i → tf g2 k = tf g1 k := by intro k hk; rw [tf_eq, tf_eq, hT.other k hk]
  have hβ := I.β_pos
  cases b with
  | true =>
    obtain ⟨hb, hv⟩ := hT.yes rfl
    have hst := hyes rfl
    have hTi : tf g2 i = toT (eikS g1 i).1.1 := by rw [tf_eq, hv]
    have hlt : toT (eikS g1 i).1.1 < tf g1 i := accept hgd (J.t.good i) hb
    refine ⟨hS, ?_, ?_⟩
    · intro k hk
      rw [hst k hk]
      split
      · right; rfl
      · split
        · left; rfl
        · exact J.st k hk
    · intro k hk hko hkf
      rw [hst k hk] at hkf
      by_cases hki : k = i
      · subst hki
        intro Y hY
        rw [I.X.mins_congr hk hTo] at hY
        rw [hTi]
        by_cases hY2 : (Y : WithTop ℝ) < tf g1 k
        · refine le_trans (hap.upper Y hY2 hY) ?_
          have : Y + I.β ≤ Y + 2 * I.β := by linarith
          exact_mod_cast this
        · refine le_trans hlt.le (le_trans (not_lt.1 hY2) ?_)
          have : Y ≤ Y + 2 * I.β := by linarith
          exact_mod_cast this
      · rw [if_neg hki] at hkf
        split at hkf
        · cases hkf
        · next hc =>
          refine XInput.Conv.drop I.X (by linarith) hk hki (J.lock k hk hko hkf) hTo ?_
          intro hkn
          have hkn' := nbrs_symm I.X.fits hk hkn
          have hnb : Arith.better (eikS g1 i).1 (g1.value k) = false := by
            cases hbb : Arith.better (eikS g1 i).1 (g1.value k) with
            | true => exact absurd ⟨hkn', hbb⟩ hc
            | false => rfl
          have hrej := I.reject hgd (J.t.good k) hnb (I.eik_le hA hi ho' hap)
          rw [hTi]
          refine le_trans hrej ?_
          gcongr
          have : I.β ≤ 2 * I.β := by linarith
          exact_mod_cast this
  | false =>
    obtain ⟨hb, hst⟩ := hno rfl
    have hTo' : tf g2 = tf g1 := by
      funext k
      by_cases hk : k = i
      · subst hk; rw [tf_eq, tf_eq, hT.no rfl]
      · exact hTo k hk
    refine ⟨hS, ?_, ?_⟩
    · intro k hk
      rw [hst k hk]
      split
      · right; rfl
      · exact J.st k hk
    · intro k hk hko hkf
      rw [hTo']
      by_cases hki : k = i
      · subst hki
        exact I.conv_of_reject w0 hwA J.t hi ho' hb
      · rw [hst k hk, if_neg hki] at hkf
        exact J.lock k hk hko hkf

end DInput
end FMV
