import Verif.Props.F64Accuracy
import Verif.Props.GMM
import Verif.Props.FIM
import Verif.Props.UFMM
/-! Lower bounds on arrival times in doubles, for writes in any order. -/
set_option linter.unusedSectionVars false
set_option linter.unusedVariables false
namespace FMV
open Spec Shape XR FMM
variable {R : Rounding}
namespace DInput
variable {dims : List Nat} {g : Grid (F64 R)} {h : ℝ} {v : Nat → ℝ} {pts : List Nat} {cm cM A : ℝ}

/-- same map, sane times not below the exact solution up to rounding, all finite times at most `w * c` -/
structure LInv (I : DInput dims g h v pts cm cM A) (w : ℝ) (c : Nat) (g' : Grid (F64 R)) : Prop where
  map : SameMap g g'
  good : GoodG (gridX g')
  low : ∀ U, I.X.problem.IsSolution U → ∀ j, j < dims.prod → scl I.lowF (U j) ≤ tf g' j
  out : ∀ i, dims.prod ≤ i → tf g' i = ⊤
  bnd : ∀ i (r : ℝ), tf g' i = (r : WithTop ℝ) → r ≤ w * c

theorem LInv.mono (I : DInput dims g h v pts cm cM A) {w : ℝ} (w0 : 0 ≤ w) {c c' : Nat} (hc : c ≤ c') {g' : Grid (F64 R)} (J : I.LInv w c g') :
    I.LInv w c' g' := by
  refine ⟨J.map, J.good, J.low, J.out, fun i r hr => le_trans (J.bnd i r hr) (mul_le_mul_of_nonneg_left (by exact_mod_cast hc) w0)⟩

theorem LInv.congr (I : DInput dims g h v pts cm cM A) {w : ℝ} {c : Nat} {g1 g2 : Grid (F64 R)} (J : I.LInv w c g1) (hm : SameMap g1 g2)
    (hv : ∀ k, g2.value k = g1.value k) : I.LInv w c g2 := by
  have e : tf g2 = tf g1 := by funext k; rw [tf_eq, tf_eq, hv]
  refine ⟨J.map.trans hm, fun k => by rw [gridX_value, hv]; exact J.good k, ?_, ?_, ?_⟩ <;> rw [e]
  · exact J.low
  · exact J.out
  · exact J.bnd

theorem LInv.le (I : DInput dims g h v pts cm cM A) {w : ℝ} {c : Nat} (hwA : w * c ≤ A) {g' : Grid (F64 R)} (J : I.LInv w c g') :
    ∀ i (r : ℝ), tf g' i = (r : WithTop ℝ) → r ≤ A := fun i r hr => le_trans (J.bnd i r hr) hwA

/-- what a proposed time is built from -/
theorem LInv.eik (I : DInput dims g h v pts cm cM A) {w : ℝ} (hw : ∀ i, i < dims.prod → g.occ i = false → h / v i + I.β ≤ w)
    {c : Nat} (hwA : w * c ≤ A) {g1 : Grid (F64 R)} (J : I.LInv w c g1) {i : Nat} (hi : i < dims.prod) (ho : g.occ i = false) :
    GoodT (eikS g1 i).1.1 ∧ (∀ U, I.X.problem.IsSolution U → scl I.lowF (U i) ≤ toT (eikS g1 i).1.1) ∧
    (∀ r : ℝ, toT (eikS g1 i).1.1 = (r : WithTop ℝ) → ∃ a, ∃ t : ℝ, tf g1 a = (t : WithTop ℝ) ∧ (t : WithTop ℝ) < tf g1 i ∧ r ≤ t + w) ∧
    (∀ a ∈ (Shape.mk' dims).nbrs i, ∀ t : ℝ, tf g1 a = (t : WithTop ℝ) → (t : WithTop ℝ) < tf g1 i → toT (eikS g1 i).1.1 ≤ ((t + w : ℝ) : WithTop ℝ)) := by
  obtain ⟨hgd, hap⟩ := I.eik J.map J.good (J.le I hwA) hi ho
  have h6 := hw i hi ho
  refine ⟨hgd, fun U hU => I.eik_low hU (J.low U hU) hi ho hap, ?_, ?_⟩
  · intro r hr
    have hex : ∃ t : ℝ, (t : WithTop ℝ) ∈ mins (Shape.mk' dims) (tf g1) i ∧ (t : WithTop ℝ) < tf g1 i := by
      by_contra hcon
      push Not at hcon
      have := hap.top (by
        intro m hm
        cases m with
        | top => exact Or.inl rfl
        | coe t => exact Or.inr (hcon t hm))
      rw [hr] at this
      exact WithTop.coe_ne_top this
    obtain ⟨t, h1, h2⟩ := hex
    have h3 := hap.near t h1 h2
    rw [hr] at h3
    have h4 : r ≤ t + (h / v i + I.β) := by exact_mod_cast h3
    obtain ⟨a, _, ha⟩ := XInput.mem_mins h1 WithTop.coe_ne_top
    exact ⟨a, t, ha.symm, h2, by linarith⟩
  · intro a ha t ht hlt
    obtain ⟨k, hk, hak⟩ := mem_nbrs.1 ha
    have hd := dimMin_le (T := tf g1) hak
    rw [ht] at hd
    have hnt : dimMin (Shape.mk' dims) (tf g1) i k ≠ ⊤ := ne_top_of_le_ne_top WithTop.coe_ne_top hd
    obtain ⟨q, hq⟩ := WithTop.ne_top_iff_exists.1 hnt
    rw [← hq] at hd
    have hqt : q ≤ t := by exact_mod_cast hd
    have hmem : (q : WithTop ℝ) ∈ mins (Shape.mk' dims) (tf g1) i := by
      rw [hq]; unfold mins; exact List.mem_map_of_mem (List.mem_range.2 hk)
    refine le_trans (hap.near q hmem (lt_of_le_of_lt hd hlt)) ?_
    have : q + (h / v i + I.β) ≤ t + w := by linarith
    exact_mod_cast this

/-- writing a proposed time -/
theorem LInv.write (I : DInput dims g h v pts cm cM A) {w : ℝ} (w0 : 0 ≤ w) (hw : ∀ i, i < dims.prod → g.occ i = false → h / v i + I.β ≤ w)
    {c c' : Nat} (hc : c ≤ c') (hwA : w * c ≤ A) {g1 g2 : Grid (F64 R)} (J : I.LInv w c g1) {i : Nat} (hi : i < dims.prod) (ho : g.occ i = false)
    (hm : SameMap g1 g2) (hv : ∀ k, g2.value k = if k = i then (eikS g1 i).1 else g1.value k)
    (hb : ∀ r : ℝ, toT (eikS g1 i).1.1 = (r : WithTop ℝ) → r ≤ w * c') : I.LInv w c' g2 := by
  obtain ⟨hgd, hlow, _, _⟩ := J.eik I hw hwA hi ho
  have hcc : w * c ≤ w * c' := mul_le_mul_of_nonneg_left (by exact_mod_cast hc) w0
  have hT : ∀ k, tf g2 k = if k = i then toT (eikS g1 i).1.1 else tf g1 k := by
    intro k; rw [tf_eq, hv]; split <;> rfl
  refine ⟨J.map.trans hm, ?_, ?_, ?_, ?_⟩
  · intro k
    rw [gridX_value, hv]; split
    · exact hgd
    · exact J.good k
  · intro U hU k hk
    rw [hT]; split
    · next e => rw [e]; exact hlow U hU
    · exact J.low U hU k hk
  · intro k hk
    rw [hT, if_neg (by omega)]; exact J.out k hk
  · intro k r hr
    rw [hT] at hr
    split at hr
    · exact hb r hr
    · exact le_trans (J.bnd k r hr) hcc

/-- an initial point gets time 0 -/
theorem LInv.zero (I : DInput dims g h v pts cm cM A) {w : ℝ} (w0 : 0 ≤ w) {c : Nat} {g1 g2 : Grid (F64 R)} (J : I.LInv w c g1) {p : Nat} (hp : p ∈ pts)
    (hm : SameMap g1 g2) (hv : ∀ k, g2.value k = if k = p then Arith.zero else g1.value k) : I.LInv w c g2 := by
  have hz : toT ((Arith.zero : F64 R)).1 = 0 := rfl
  have hT : ∀ k, tf g2 k = if k = p then 0 else tf g1 k := by
    intro k; rw [tf_eq, hv]; split <;> rfl
  refine ⟨J.map.trans hm, ?_, ?_, ?_, ?_⟩
  · intro k
    rw [gridX_value, hv]; split
    · exact Or.inr ⟨0, le_refl _, rfl⟩
    · exact J.good k
  · intro U hU k hk
    rw [hT]; split
    · next e => rw [e, ((I.X.exSol hU) p (I.X.inside p hp)).1 hp, scl_zero]
    · exact J.low U hU k hk
  · intro k hk
    rw [hT, if_neg]
    · exact J.out k hk
    · rintro rfl; have := I.X.inside k hp; omega
  · intro k r hr
    rw [hT] at hr
    split at hr
    · have : r = 0 := by exact_mod_cast hr.symm
      rw [this]; positivity
    · exact J.bnd k r hr

theorem LInv.fresh (I : DInput dims g h v pts cm cM A) (w : ℝ) (hfr : Fresh g) : I.LInv w 0 g := by
  have hT : ∀ k, tf g k = ⊤ := fun k => by rw [tf_eq, hfr.value]; rfl
  refine ⟨SameMap.refl _, fun k => by rw [gridX_value, hfr.value]; exact Or.inl rfl, fun U hU k hk => by rw [hT]; exact le_top, fun k _ => hT k, ?_⟩
  intro i r hr; rw [hT] at hr; exact absurd hr (by simp)

/-- times right after the initial points were set in a clean grid -/
theorem LInv.start (I : DInput dims g h v pts cm cM A) {w : ℝ} (w0 : 0 ≤ w) {g' : Grid (F64 R)} (hm : SameMap g g')
    (hv : ∀ k, (g'.value k).1 = if k ∈ pts then fin 0 else pinf) : I.LInv w 0 g' := by
  have J := TInv.start I (w := 0) (le_refl _) hm hv
  refine ⟨J.map, J.good, J.low, J.out, ?_⟩
  intro i r hr
  have := J.bnd i r hr
  simpa using this

/-! ### FMM, any order -/

/-- cells that are not open and have a finite time -/
noncomputable def touched (dims : List Nat) (g' : Grid (F64 R)) : Finset Nat := by
  classical exact (Finset.range dims.prod).filter (fun i => g'.state i ≠ .opn ∧ tf g' i ≠ ⊤)

theorem mem_touched {g' : Grid (F64 R)} {i : Nat} : i ∈ touched dims g' ↔ i < dims.prod ∧ g'.state i ≠ .opn ∧ tf g' i ≠ ⊤ := by
  unfold touched; simp

theorem card_touched_le (g' : Grid (F64 R)) : (touched dims g').card ≤ dims.prod := by
  have : touched dims g' ⊆ Finset.range dims.prod := by intro i hi; simp [(mem_touched.1 hi).1]
  simpa using Finset.card_le_card this

structure MInv (I : DInput dims g h v pts cm cM A) (w : ℝ) (s : FMM.St (F64 R)) : Prop where
  l : I.LInv w (touched dims s.g).card s.g
  heap : ∀ x ∈ s.heap, x < dims.prod

theorem MInv.relax (I : DInput dims g h v pts cm cM A) {w : ℝ} (w0 : 0 ≤ w) (hw : ∀ i, i < dims.prod → g.occ i = false → h / v i + I.β ≤ w)
    (hwA : w * dims.prod ≤ A) {cfg : Cfg (F64 R)} {s : FMM.St (F64 R)} (J : I.MInv w s) {j : Nat} (hj : j < dims.prod) :
    I.MInv w (FMM.relax cfg eikS s j) := by
  have hcA : w * (touched dims s.g).card ≤ A := le_trans (mul_le_mul_of_nonneg_left (by exact_mod_cast card_touched_le s.g) w0) hwA
  refine ⟨?_, ?_⟩
  swap
  · intro y hy
    rcases relax_heap_mem hy with h1 | ⟨rfl, _⟩
    · exact J.heap y h1
    · exact hj
  have hocc : s.g.occ j = g.occ j := SameMap.occ_eq J.l.map j
  have hm := relax_sameMap cfg eikS s j
  -- a write that may only raise an open cell
  have key : ∀ (g2 : Grid (F64 R)), g2 = (FMM.relax cfg eikS s j).g → s.g.occ j = false →
      (∀ k, g2.value k = if k = j then (eikS s.g j).1 else s.g.value k) →
      (s.g.state j ≠ .opn → toT (eikS s.g j).1.1 < tf s.g j) → g2.state j ≠ .opn → I.LInv w (touched dims g2).card g2 := by
    intro g2 e ho hv hlt hst
    have ho' : g.occ j = false := by rw [← hocc]; exact ho
    obtain ⟨_, _, hbd, _⟩ := J.l.eik I hw hcA hj ho'
    have hT : ∀ k, tf g2 k = if k = j then toT (eikS s.g j).1.1 else tf s.g k := by
      intro k; rw [tf_eq, hv]; split <;> rfl
    have hS : ∀ k, k ≠ j → g2.state k = s.g.state k := by
      intro k hk; rw [e, relax_state, if_neg (by rintro ⟨h1, _⟩; exact hk h1)]
    have hsub : touched dims s.g ⊆ touched dims g2 := by
      intro k hk
      rw [mem_touched] at hk ⊢
      refine ⟨hk.1, ?_⟩
      by_cases hkj : k = j
      · subst hkj
        refine ⟨hst, ?_⟩
        rw [hT, if_pos rfl]
        exact ne_top_of_lt (hlt hk.2.1)
      · rw [hS k hkj, hT, if_neg hkj]; exact hk.2
    have hcard := Finset.card_le_card hsub
    refine J.l.write I w0 hw hcard hcA hj ho' (by rw [e]; exact hm) hv ?_
    intro r hr
    have hcc : w * (touched dims s.g).card ≤ w * (touched dims g2).card := mul_le_mul_of_nonneg_left (by exact_mod_cast hcard) w0
    by_cases hin : j ∈ touched dims s.g
    · rw [mem_touched] at hin
      obtain ⟨q, hq⟩ := WithTop.ne_top_iff_exists.1 hin.2.2
      have h1 := hlt hin.2.1
      rw [hr, ← hq] at h1
      have h2 : r < q := by exact_mod_cast h1
      have h3 := J.l.bnd j q hq.symm
      linarith
    · obtain ⟨a, t, h1, h2, h3⟩ := hbd r hr
      have h4 := J.l.bnd a t h1
      have hs : (touched dims s.g).card + 1 ≤ (touched dims g2).card := by
        apply Finset.card_lt_card
        refine Finset.ssubset_iff_subset_ne.2 ⟨hsub, ?_⟩
        intro e2
        apply hin
        rw [e2, mem_touched]
        refine ⟨hj, hst, ?_⟩
        rw [hT, if_pos rfl, hr]; exact WithTop.coe_ne_top
      have h5 : w * ((touched dims s.g).card + 1) ≤ w * (touched dims g2).card := mul_le_mul_of_nonneg_left (by exact_mod_cast hs) w0
      linarith
  rcases relax_cases cfg eikS s j with ⟨hsk, e⟩ | ⟨ho, hn, hb, e⟩ | ⟨ho, hn, hb, e⟩ | ⟨ho, hn, e⟩
  · rw [e]; exact J.l
  · have ho' : g.occ j = false := by rw [← hocc]; exact ho
    refine key _ rfl ho (fun k => ?_) (fun _ => accept (J.l.eik I hw hcA hj ho').1 (J.l.good j) hb) ?_
    · rw [e]; simp [Grid.value_setValue]
    · rw [relax_state, hn]; simp [hn]
  · have hv : ∀ k, (FMM.relax cfg eikS s j).g.value k = s.g.value k := by intro k; rw [e]; simp
    have ht : touched dims (FMM.relax cfg eikS s j).g = touched dims s.g := by
      ext k
      rw [mem_touched, mem_touched, relax_state, hn, tf_eq, hv]
      simp [tf_eq]
    rw [ht]
    exact J.l.congr I hm hv
  · refine key _ rfl ho (fun k => ?_) (fun h1 => absurd hn h1) ?_
    · rw [e]; simp [Grid.value_setValue]
    · rw [relax_state, if_pos ⟨rfl, hn, ho⟩]; simp

theorem MInv.popped (I : DInput dims g h v pts cm cM A) {w : ℝ} (w0 : 0 ≤ w) {s : FMM.St (F64 R)} (J : I.MInv w s) (x : Nat) :
    I.MInv w (FMM.popped s x) := by
  have hv : ∀ k, (FMM.popped s x).g.value k = s.g.value k := fun k => by simp [FMM.popped]
  refine ⟨(J.l.congr I (popped_sameMap s x) hv).mono I w0 ?_, fun y hy => J.heap y (List.mem_of_mem_erase hy)⟩
  apply Finset.card_le_card
  intro k hk
  rw [mem_touched] at hk ⊢
  refine ⟨hk.1, ?_, by rw [tf_eq, hv]; exact hk.2.2⟩
  simp only [FMM.popped, Grid.state_setState]
  split
  · simp
  · exact hk.2.1

theorem MInv.reach (I : DInput dims g h v pts cm cM A) {w : ℝ} (w0 : 0 ≤ w) (hw : ∀ i, i < dims.prod → g.occ i = false → h / v i + I.β ≤ w)
    (hwA : w * dims.prod ≤ A) (hfr : Fresh g) {cfg : Cfg (F64 R)} {n : Nat} {s : FMM.St (F64 R)}
    (hs : Steps (StepLib cfg) n (FMM.init cfg g [] pts) s) : I.MInv w s := by
  refine Steps.inv (r := StepLib cfg) (I := fun s => I.MInv w s) ?_ hs ?_
  · rintro s t J ⟨_, x, hx, rfl⟩
    have hsh : s.g.shape = Shape.mk' dims := J.l.map.shape.trans I.X.shape
    refine expand_inv (I := fun s => I.MInv w s) cfg eikS s x (fun t b h => ⟨h.l, h.heap⟩) (J.popped I w0 x) ?_
    intro t j hj K
    exact K.relax I w0 hw hwA (FMM.nbr_lt I.X.fits (J.heap x hx) (by rw [← hsh]; exact hj))
  · refine ⟨?_, ?_⟩
    · refine (LInv.start I w0 (init_sameMap _ _ _ _) (fun k => ?_)).mono I w0 (Nat.zero_le _)
      rw [init_value, hfr.value]; split <;> rfl
    · intro y hy; rw [init_heap] at hy; exact I.X.inside y (by simpa using hy)

/-! ### writes that only lower a time (GMM after its initialisation) -/

theorem LInv.lower (I : DInput dims g h v pts cm cM A) {w : ℝ} (w0 : 0 ≤ w) (hw : ∀ i, i < dims.prod → g.occ i = false → h / v i + I.β ≤ w)
    {extra : Nat} (hwA : w * (extra + dims.prod) ≤ A) {g1 g2 : Grid (F64 R)} (J : I.LInv w (extra + (reached dims g1).card) g1) {i : Nat} (hi : i < dims.prod) (ho : g1.occ i = false)
    (hm : SameMap g1 g2) (hv : ∀ k, g2.value k = if k = i then (eikS g1 i).1 else g1.value k)
    (hlt : toT (eikS g1 i).1.1 < tf g1 i) : I.LInv w (extra + (reached dims g2).card) g2 := by
  have ho' : g.occ i = false := by rw [← SameMap.occ_eq J.map]; exact ho
  have hcA : w * ((extra + (reached dims g1).card : Nat) : ℝ) ≤ A := by
    refine le_trans (mul_le_mul_of_nonneg_left ?_ w0) hwA
    have := card_reached_le (dims := dims) g1
    exact_mod_cast (by omega : extra + (reached dims g1).card ≤ extra + dims.prod)
  obtain ⟨_, _, hbd, _⟩ := J.eik I hw hcA hi ho'
  have hT : ∀ k, tf g2 k = if k = i then toT (eikS g1 i).1.1 else tf g1 k := by
    intro k; rw [tf_eq, hv]; split <;> rfl
  have hsub : reached dims g1 ⊆ reached dims g2 := by
    intro k hk
    rw [mem_reached] at hk ⊢
    refine ⟨hk.1, ?_⟩
    rw [hT]; split
    · exact ne_top_of_lt hlt
    · exact hk.2
  have hcard := Finset.card_le_card hsub
  refine J.write I w0 hw (by omega) hcA hi ho' hm hv ?_
  intro r hr
  by_cases hin : tf g1 i = ⊤
  · obtain ⟨a, t, h1, h2, h3⟩ := hbd r hr
    have h4 := J.bnd a t h1
    have hs : (reached dims g1).card + 1 ≤ (reached dims g2).card := by
      apply Finset.card_lt_card
      refine Finset.ssubset_iff_subset_ne.2 ⟨hsub, ?_⟩
      intro e2
      have : i ∈ reached dims g2 := by rw [mem_reached, hT, if_pos rfl, hr]; exact ⟨hi, WithTop.coe_ne_top⟩
      rw [← e2, mem_reached] at this
      exact this.2 hin
    have h5 : w * (((extra + (reached dims g1).card : Nat) : ℝ) + 1) ≤ w * ((extra + (reached dims g2).card : Nat) : ℝ) := by
      apply mul_le_mul_of_nonneg_left _ w0
      exact_mod_cast (by omega : extra + (reached dims g1).card + 1 ≤ extra + (reached dims g2).card)
    linarith
  · obtain ⟨q, hq⟩ := WithTop.ne_top_iff_exists.1 hin
    rw [hr, ← hq] at hlt
    have h2 : r < q := by exact_mod_cast hlt
    have h3 := J.bnd i q hq.symm
    have h5 : w * ((extra + (reached dims g1).card : Nat) : ℝ) ≤ w * ((extra + (reached dims g2).card : Nat) : ℝ) := by
      apply mul_le_mul_of_nonneg_left _ w0
      exact_mod_cast (by omega : extra + (reached dims g1).card ≤ extra + (reached dims g2).card)
    linarith

theorem reached_congr {g1 g2 : Grid (F64 R)} (hv : ∀ k, g2.value k = g1.value k) : reached dims g2 = reached dims g1 := by
  ext k; rw [mem_reached, mem_reached, tf_eq, tf_eq, hv]

/-! ### GMM -/

/-- invariant of GMM after its initialisation: as `LInv` with the number of reached cells -/
def GI (I : DInput dims g h v pts cm cM A) (w : ℝ) (g' : Grid (F64 R)) : Prop := I.LInv w (0 + (reached dims g').card) g'

theorem GI.congr (I : DInput dims g h v pts cm cM A) {w : ℝ} {g1 g2 : Grid (F64 R)} (J : I.GI w g1) (hm : SameMap g1 g2) (hv : ∀ k, g2.value k = g1.value k) :
    I.GI w g2 := by
  unfold GI at *
  rw [reached_congr hv]; exact LInv.congr I J hm hv

theorem GI.lower (I : DInput dims g h v pts cm cM A) {w : ℝ} (w0 : 0 ≤ w) (hw : ∀ i, i < dims.prod → g.occ i = false → h / v i + I.β ≤ w)
    (hwA : w * dims.prod ≤ A) {g1 : Grid (F64 R)} (J : I.GI w g1) {j : Nat} (hj : j < dims.prod) (ho : g1.occ j = false) : I.GI w (GMM.lower eikS g1 j) := by
  have ho' : g.occ j = false := by rw [← SameMap.occ_eq J.map]; exact ho
  have hcA : w * ((0 + (reached dims g1).card : Nat) : ℝ) ≤ A := by
    refine le_trans (mul_le_mul_of_nonneg_left ?_ w0) hwA
    have := card_reached_le (dims := dims) g1
    exact_mod_cast (by omega : 0 + (reached dims g1).card ≤ dims.prod)
  have hm := GMM.lower_sameMap eikS g1 j
  by_cases hb : Arith.lt (eikS g1 j).1 (g1.value j) = true
  · refine LInv.lower I w0 hw (extra := 0) (by simpa using hwA) J hj ho hm ?_ ?_
    · intro k
      unfold GMM.lower
      dsimp only
      rw [if_pos hb, Grid.value_setValue]; rfl
    · have hgd := (LInv.eik I hw hcA J hj ho').1
      have h1 : Arith.lt (eikS g1 j).1.1 (g1.value j).1 = true := hb
      have hy := J.good j
      rw [gridX_value] at hy
      rw [← hgd.ofT_toT, ← hy.ofT_toT, lt_ofT] at h1
      exact h1
  · refine GI.congr I J hm ?_
    intro k
    unfold GMM.lower
    dsimp only
    rw [if_neg hb]; rfl

theorem GI.relax1s (I : DInput dims g h v pts cm cM A) {w : ℝ} (w0 : 0 ≤ w) (hw : ∀ i, i < dims.prod → g.occ i = false → h / v i + I.β ≤ w)
    (hwA : w * dims.prod ≤ A) : ∀ (ns : List Nat) (g1 : Grid (F64 R)), (∀ j ∈ ns, j < dims.prod) → I.GI w g1 → I.GI w (ns.foldl (GMM.relax1 eikS) g1) := by
  intro ns
  induction ns with
  | nil => intro g1 _ J; exact J
  | cons j js ih =>
    intro g1 hj J
    rw [List.foldl_cons]
    refine ih _ (fun k hk => hj k (by simp [hk])) ?_
    unfold GMM.relax1
    split
    · exact J
    · next hs => exact GI.lower I w0 hw hwA J (hj j (by simp)) (GMM.skip_iff.1 hs).2.1

theorem GI.pass1 (I : DInput dims g h v pts cm cM A) {w : ℝ} (w0 : 0 ≤ w) (hw : ∀ i, i < dims.prod → g.occ i = false → h / v i + I.β ≤ w)
    (hwA : w * dims.prod ≤ A) (tm : F64 R) (gamma : List Nat) (hg : ∀ x ∈ gamma, x < dims.prod) {g1 : Grid (F64 R)} (J : I.GI w g1) :
    I.GI w (GMM.pass1 eikS tm gamma g1) := by
  unfold GMM.pass1
  refine foldl_inv (I := fun g1 => I.GI w g1) _ _ _ J ?_
  intro g2 x hx K
  split
  · apply GI.relax1s I w0 hw hwA _ _ _ K
    intro j hj
    rw [K.map.shape.trans I.X.shape] at hj
    exact nbr_lt I.X.fits (hg x (by simpa using hx)) hj
  · exact K

theorem GI.relax2s (I : DInput dims g h v pts cm cM A) {w : ℝ} (w0 : 0 ≤ w) (hw : ∀ i, i < dims.prod → g.occ i = false → h / v i + I.β ≤ w)
    (hwA : w * dims.prod ≤ A) : ∀ (ns : List Nat) (s : GMM.St (F64 R)), (∀ j ∈ ns, j < dims.prod) → I.GI w s.g → I.GI w (ns.foldl (GMM.relax2 eikS) s).g := by
  intro ns
  induction ns with
  | nil => intro g1 _ J; exact J
  | cons j js ih =>
    intro s hj J
    rw [List.foldl_cons]
    refine ih _ (fun k hk => hj k (by simp [hk])) ?_
    unfold GMM.relax2
    split
    · exact J
    · next hs =>
      have K := GI.lower I w0 hw hwA J (hj j (by simp)) (GMM.skip_iff.1 hs).2.1
      dsimp only
      split
      · exact GI.congr I K (sameMap_setState _ _ _) (fun k => by simp)
      · exact K

/-- initialisation: all finite times are at most `w` -/
theorem gmm_init (I : DInput dims g h v pts cm cM A) {w : ℝ} (w0 : 0 ≤ w) (hw : ∀ i, i < dims.prod → g.occ i = false → h / v i + I.β ≤ w)
    (hwA : w * 1 ≤ A) (hfr : Fresh g) : I.LInv w 1 (GMM.init eikS g [] pts).g := by
  show I.LInv w 1 (pts.foldl (GMM.initPoint eikS) (g, [], Arith.inf)).1
  have hwA' : w * ((1:Nat):ℝ) ≤ A := by simpa using hwA
  refine foldl_inv (I := fun s : Grid (F64 R) × List Nat × F64 R => I.LInv w 1 s.1) _ _ _ ((LInv.fresh I w hfr).mono I w0 (by omega)) ?_
  intro s p hp J
  have hpN := I.X.inside p hp
  unfold GMM.initPoint
  have hm : SameMap s.1 ((s.1.setValue p Arith.zero).setState p .frozen) := (sameMap_setValue s.1 p Arith.zero).trans (sameMap_setState _ _ _)
  have hv : ∀ k, ((s.1.setValue p Arith.zero).setState p .frozen).value k = if k = p then Arith.zero else s.1.value k := by
    intro k; rw [Grid.value_setState, Grid.value_setValue]
  have J1 := J.zero I w0 hp hm hv
  have key : I.LInv w 1 ((s.1.shape.nbrs p).foldl (GMM.initNbr eikS) ((s.1.setValue p Arith.zero).setState p .frozen, s.2)).1 ∧
      tf ((s.1.shape.nbrs p).foldl (GMM.initNbr eikS) ((s.1.setValue p Arith.zero).setState p .frozen, s.2)).1 p = 0 ∧
      ((s.1.shape.nbrs p).foldl (GMM.initNbr eikS) ((s.1.setValue p Arith.zero).setState p .frozen, s.2)).1.state p = .frozen := by
    refine foldl_inv (I := fun t : Grid (F64 R) × List Nat × F64 R => I.LInv w 1 t.1 ∧ tf t.1 p = 0 ∧ t.1.state p = .frozen) _ _ _ ⟨J1, ?_, ?_⟩ ?_
    · rw [tf_eq, hv, if_pos rfl]; rfl
    · rw [Grid.state_setState, if_pos rfl]
    · rintro t j hj ⟨K, Kz, Kf⟩
      rw [J.map.shape.trans I.X.shape] at hj
      have hjN := nbr_lt I.X.fits hpN hj
      obtain ⟨_, _, a3, a4, _⟩ := GMM.initNbr_spec eikS t hjN
      unfold GMM.initNbr
      split
      · exact ⟨K, Kz, Kf⟩
      · next hns =>
        have hjf : t.1.state j ≠ .frozen := fun e => hns (Or.inl e)
        have hjo : t.1.occ j = false := by
          cases e : t.1.occ j with
          | false => rfl
          | true => exact absurd (Or.inr e) hns
        have hjp : p ≠ j := by rintro rfl; exact hjf Kf
        have ho' : g.occ j = false := by rw [← SameMap.occ_eq K.map]; exact hjo
        obtain ⟨_, _, hbd, hnear⟩ := K.eik I hw hwA' hjN ho'
        have hsym : p ∈ (Shape.mk' dims).nbrs j := nbrs_symm I.X.fits hpN hj
        refine ⟨?_, ?_, ?_⟩
        · refine K.write I w0 hw (le_refl _) hwA' hjN ho' (((sameMap_setScratch _ _).trans (sameMap_setValue _ _ _)).trans (sameMap_setState _ _ _)) ?_ ?_
          · intro k; simp only [Grid.value_setState, Grid.value_setValue]; rfl
          · intro r hr
            by_cases hpos : (0 : WithTop ℝ) < tf t.1 j
            · have := hnear p hsym 0 (by rw [Kz]; rfl) hpos
              rw [hr] at this
              have h2 : r ≤ 0 + w := by exact_mod_cast this
              simpa using h2
            · obtain ⟨a, q, h1, h2, _⟩ := hbd r hr
              have h3 : (0 : WithTop ℝ) ≤ tf t.1 a := (K.good a).toT_nonneg
              rw [h1] at h3
              exact absurd (lt_of_le_of_lt h3 h2) hpos
        · rw [tf_eq]
          simp only [Grid.value_setState, Grid.value_setValue]
          rw [if_neg hjp]; exact Kz
        · rw [Grid.state_setState, if_neg hjp]; simpa using Kf
  exact key.1

theorem gmm_reach (I : DInput dims g h v pts cm cM A) {w : ℝ} (w0 : 0 ≤ w) (hw : ∀ i, i < dims.prod → g.occ i = false → h / v i + I.β ≤ w)
    (hwA : w * dims.prod ≤ A) (hp0 : 1 ≤ dims.prod) (hfr : Fresh g) {dt : F64 R} {goal n : Nat} {s : GMM.St (F64 R)}
    (hs : Steps (GMM.Step dt goal eikS) n (GMM.init eikS g [] pts) s) : I.GI w s.g := by
  have hin : Input dims g pts := ⟨I.X.fits, I.X.shape, I.X.inside⟩
  suffices h : GMM.GInv dims eikS g pts s ∧ I.GI w s.g from h.2
  refine Steps.inv (I := fun s : GMM.St (F64 R) => GMM.GInv dims eikS g pts s ∧ I.GI w s.g) ?_ hs ⟨GMM.GInv.start eikS hin hfr.state, ?_⟩
  · rintro a b ⟨G, J⟩ hst
    refine ⟨(G.step hin hst).1, ?_⟩
    have hlt : ∀ x ∈ a.gamma, x < dims.prod := fun x hx => reach_lt (G.sound x hx).1
    have hsh : a.g.shape = Shape.mk' dims := J.map.shape.trans I.X.shape
    obtain ⟨_, rfl⟩ := hst
    unfold GMM.next
    split
    · next x rest hr =>
      have hxg : x ∈ a.gamma := by rw [GMM.mem_gamma, hr]; simp
      unfold GMM.visit
      split
      · dsimp only
        have K := GI.relax2s I w0 hw hwA (a.g.shape.nbrs x) a (by intro j hj; rw [hsh] at hj; exact nbr_lt I.X.fits (hlt x hxg) hj) J
        exact GI.congr I K (sameMap_setState _ _ _) (fun k => by simp)
      · exact J
    · exact GI.pass1 I w0 hw hwA _ _ hlt J
  · have K := I.gmm_init w0 hw (le_trans (mul_le_mul_of_nonneg_left (by exact_mod_cast hp0) w0) hwA) hfr
    refine ⟨K.map, K.good, K.low, K.out, ?_⟩
    intro i r hr
    have hiN : i < dims.prod := by
      by_contra hc
      rw [K.out i (by omega)] at hr
      exact absurd hr (by simp)
    have hmem : i ∈ reached dims (GMM.init eikS g [] pts).g := by rw [mem_reached, hr]; exact ⟨hiN, WithTop.coe_ne_top⟩
    have hc : 1 ≤ 0 + (reached dims (GMM.init eikS g [] pts).g).card := by
      have := Finset.card_pos.2 ⟨i, hmem⟩; omega
    refine le_trans (K.bnd i r hr) (mul_le_mul_of_nonneg_left ?_ w0)
    exact_mod_cast hc

/-! ### FIM -/

theorem fim_test (I : DInput dims g h v pts cm cM A) {w : ℝ} (w0 : 0 ≤ w) (hw : ∀ i, i < dims.prod → g.occ i = false → h / v i + I.β ≤ w)
    {extra : Nat} (hwA : w * (extra + dims.prod) ≤ A) : ∀ (ns : List Nat) (s : FIM.St (F64 R)), (∀ j ∈ ns, j < dims.prod) →
    I.LInv w (extra + (reached dims s.g).card) s.g →
    I.LInv w (extra + (reached dims (ns.foldl (FIM.testNbr eikS) s).g).card) (ns.foldl (FIM.testNbr eikS) s).g := by
  intro ns
  induction ns with
  | nil => intro s _ J; exact J
  | cons j js ih =>
    intro s hj J
    rw [List.foldl_cons]
    refine ih _ (fun k hk => hj k (by simp [hk])) ?_
    unfold FIM.testNbr
    split
    · exact J
    · next hns =>
      have hjo : s.g.occ j = false := by
        cases e : s.g.occ j with
        | false => rfl
        | true => exact absurd (Or.inr e) hns
      have ho' : g.occ j = false := by rw [← SameMap.occ_eq J.map]; exact hjo
      have hcA : w * ((extra + (reached dims s.g).card : Nat) : ℝ) ≤ A := by
        refine le_trans (mul_le_mul_of_nonneg_left ?_ w0) hwA
        have := card_reached_le (dims := dims) s.g
        exact_mod_cast (by omega : extra + (reached dims s.g).card ≤ extra + dims.prod)
      dsimp only
      split
      · next hb =>
        refine LInv.lower I w0 hw hwA J (hj j (by simp)) hjo (((sameMap_setScratch _ _).trans (sameMap_setValue _ _ _)).trans (sameMap_setState _ _ _)) ?_
          (accept (LInv.eik I hw hcA J (hj j (by simp)) ho').1 (J.good j) hb)
        intro k; simp only [Grid.value_setState, Grid.value_setValue]; rfl
      · have hv : ∀ k, (s.g.setScratch (eikS s.g j).2).value k = s.g.value k := fun k => rfl
        show I.LInv w (extra + (reached dims (s.g.setScratch (eikS s.g j).2)).card) _
        rw [reached_congr hv]
        exact LInv.congr I J (sameMap_setScratch _ _) hv

theorem fim_step (I : DInput dims g h v pts cm cM A) {w : ℝ} (w0 : 0 ≤ w) (hw : ∀ i, i < dims.prod → g.occ i = false → h / v i + I.β ≤ w)
    {extra : Nat} (hwA : w * ((extra + 2 : Nat) + dims.prod) ≤ A) {E : F64 R} {goal : Nat} {s t : FIM.St (F64 R)} (L : FIM.LI dims s)
    (J : I.LInv w (extra + (reached dims s.g).card) s.g) (hst : FIM.Step E goal eikS s t) :
    I.LInv w (extra + 2 + (reached dims t.g).card) t.g := by
  have hcA : w * ((extra + (reached dims s.g).card : Nat) : ℝ) ≤ A := by
    refine le_trans (mul_le_mul_of_nonneg_left ?_ w0) hwA
    have := card_reached_le (dims := dims) s.g
    exact_mod_cast (by omega : extra + (reached dims s.g).card ≤ (extra + 2) + dims.prod)
  have hsh : s.g.shape = Shape.mk' dims := J.map.shape.trans I.X.shape
  obtain ⟨_, rfl⟩ := hst
  unfold FIM.next
  split
  · next x rest hs =>
    have hx := L.act x (Or.inr (by rw [hs]; simp))
    have ho' : g.occ x = false := by rw [← SameMap.occ_eq J.map]; exact hx.2
    obtain ⟨_, _, hbd, _⟩ := J.eik I hw hcA hx.1 ho'
    have hm : SameMap s.g ((s.g.setScratch (eikS s.g x).2).setValue x (eikS s.g x).1) := (sameMap_setScratch _ _).trans (sameMap_setValue _ _ _)
    have hv : ∀ k, ((s.g.setScratch (eikS s.g x).2).setValue x (eikS s.g x).1).value k = if k = x then (eikS s.g x).1 else s.g.value k := by
      intro k; rw [Grid.value_setValue]; rfl
    have hcard : (reached dims s.g).card ≤ (reached dims ((s.g.setScratch (eikS s.g x).2).setValue x (eikS s.g x).1)).card + 1 := by
      have hsub : (reached dims s.g).erase x ⊆ reached dims ((s.g.setScratch (eikS s.g x).2).setValue x (eikS s.g x).1) := by
        intro k hk
        rw [Finset.mem_erase, mem_reached] at hk
        rw [mem_reached, tf_eq, hv, if_neg hk.1]; exact hk.2
      have h1 := Finset.card_le_card hsub
      have h2 := Finset.pred_card_le_card_erase (s := reached dims s.g) (a := x)
      omega
    have J1 : I.LInv w (extra + 2 + (reached dims ((s.g.setScratch (eikS s.g x).2).setValue x (eikS s.g x).1)).card)
        ((s.g.setScratch (eikS s.g x).2).setValue x (eikS s.g x).1) := by
      refine J.write I w0 hw (by omega) hcA hx.1 ho' hm hv ?_
      intro r hr
      obtain ⟨a, q, h1, h2, h3⟩ := hbd r hr
      have h4 := J.bnd a q h1
      have h5 : w * (((extra + (reached dims s.g).card : Nat) : ℝ) + 1) ≤
          w * ((extra + 2 + (reached dims ((s.g.setScratch (eikS s.g x).2).setValue x (eikS s.g x).1)).card : Nat) : ℝ) := by
        apply mul_le_mul_of_nonneg_left _ w0
        exact_mod_cast (by omega : extra + (reached dims s.g).card + 1 ≤ extra + 2 + (reached dims ((s.g.setScratch (eikS s.g x).2).setValue x (eikS s.g x).1)).card)
      linarith
    unfold FIM.visit
    dsimp only
    split
    · have K := I.fim_test w0 hw hwA (((s.g.setScratch (eikS s.g x).2).setValue x (eikS s.g x).1).shape.nbrs x)
        { s with g := (s.g.setScratch (eikS s.g x).2).setValue x (eikS s.g x).1 } (by
          intro j hj
          rw [hm.shape.trans hsh] at hj
          exact nbr_lt I.X.fits hx.1 hj) J1
      set s2 := (((s.g.setScratch (eikS s.g x).2).setValue x (eikS s.g x).1).shape.nbrs x).foldl (FIM.testNbr eikS)
          { s with g := (s.g.setScratch (eikS s.g x).2).setValue x (eikS s.g x).1 } with hs2
      have hv2 : ∀ k, (s2.g.setState x .frozen).value k = s2.g.value k := fun k => Grid.value_setState _ _ _ _
      rw [reached_congr hv2]
      exact LInv.congr I K (sameMap_setState _ _ _) hv2
    · exact J1
  · exact J.mono I w0 (by dsimp only; omega)

theorem fim_reach (I : DInput dims g h v pts cm cM A) {w : ℝ} (w0 : 0 ≤ w) (hw : ∀ i, i < dims.prod → g.occ i = false → h / v i + I.β ≤ w)
    (hfr : Fresh g) {E : F64 R} {goal : Nat} : ∀ {n : Nat} {s : FIM.St (F64 R)}, w * ((2 * n : Nat) + dims.prod) ≤ A →
    Steps (FIM.Step E goal eikS) n (FIM.init g [] pts) s → FIM.LI dims s ∧ I.LInv w (2 * n + (reached dims s.g).card) s.g := by
  have hin : Input dims g pts := ⟨I.X.fits, I.X.shape, I.X.inside⟩
  intro n
  induction n with
  | zero =>
    intro s _ hs
    cases hs
    refine ⟨FIM.LI.start hin, (LInv.start I w0 (FIM.init_sameMap _ _ _) (fun k => ?_)).mono I w0 (Nat.zero_le _)⟩
    rw [FIM.init_value, hfr.value]; split <;> rfl
  | succ n ih =>
    intro s hA hs
    cases hs with
    | tail h1 h2 =>
      have hA' : w * ((2 * n + 2 : Nat) + dims.prod) ≤ A := hA
      obtain ⟨L, J⟩ := ih (le_trans (mul_le_mul_of_nonneg_left (by push_cast; linarith) w0) hA') h1
      exact ⟨(FIM.step_li I.X.fits (PrimInv.sameMap eikS dims.prod g) L J.map h2).1, I.fim_step w0 hw hA' L J h2⟩
end DInput
end FMV
