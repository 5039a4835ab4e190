import Verif.Lemmas.FMMLink
import Verif.Lemmas.Terminate
/-! Facts shared by the solvers that only write improved times (FSM, LSM, DDQM). -/
set_option linter.unusedSectionVars false
set_option linter.unusedVariables false
namespace FMV
open Spec Shape XR FMM
variable {F : Type} [Arith F]

/-- the effect on map and times of trying to improve cell `i`; `b` tells whether the time was improved -/
structure Tried (eik : Eik F) (g g' : Grid F) (i : Nat) (b : Bool) : Prop where
  map : SameMap g g'
  other : ∀ k, k ≠ i → g'.value k = g.value k
  yes : b = true → Arith.better (eik g i).1 (g.value i) = true ∧ g'.value i = (eik g i).1
  no : b = false → g'.value i = g.value i

/-- every time is unchanged or improved by more than the margin -/
def Lower (g g' : Grid F) : Prop := ∀ k, g'.value k = g.value k ∨ Arith.better (g'.value k) (g.value k) = true

theorem Lower.refl (g : Grid F) : Lower g g := fun _ => Or.inl rfl

theorem Lower.trans (L : MarginLaws F) {a b c : Grid F} (h1 : Lower a b) (h2 : Lower b c) : Lower a c := by
  intro k
  rcases h1 k with e1 | e1 <;> rcases h2 k with e2 | e2
  · left; rw [e2, e1]
  · right; rw [← e1]; exact e2
  · right; rw [e2]; exact e1
  · right; exact (C46_strict_order L).2.2 _ _ _ e2 e1

theorem Tried.lower {eik : Eik F} {g g' : Grid F} {i : Nat} {b : Bool} (h : Tried eik g g' i b) : Lower g g' := by
  intro k
  by_cases hk : k = i
  · subst hk
    cases b with
    | false => exact Or.inl (h.no rfl)
    | true => right; rw [(h.yes rfl).2]; exact (h.yes rfl).1
  · exact Or.inl (h.other k hk)

theorem Tried.rk {good : F → Prop} (R : Ranked F good) {eik : Eik F} {g g' : Grid F} {i : Nat} {b : Bool} (h : Tried eik g g' i b)
    {N : Nat} (hi : i < N) (h1 : good (g.value i)) (h2 : good (eik g i).1) :
    (b = true ∧ rkVec R N g' < rkVec R N g) ∨ (b = false ∧ rkVec R N g' = rkVec R N g) := by
  cases b with
  | true =>
    left
    refine ⟨rfl, rkVec_lt R hi (fun k _ hk => h.other k hk) ?_⟩
    rw [(h.yes rfl).2]
    exact R.lt _ _ h2 h1 (h.yes rfl).1
  | false =>
    right
    refine ⟨rfl, ?_⟩
    funext k
    unfold rkVec
    by_cases hk : k.1 = i
    · rw [hk, h.no rfl]
    · rw [h.other k hk]

/-- `solveEikonal` only reads the map and the times -/
theorem minDim_congr {g g' : Grid F} (h1 : g'.shape = g.shape) (h2 : ∀ k, g'.value k = g.value k) (i d : Nat) :
    g'.minDim i d = g.minDim i d := by
  unfold Grid.minDim
  rw [h1]
  split
  · rfl
  · rw [h2]
  · rw [h2, h2]

theorem solveEikonal_congr {g g' : Grid F} (hm : SameMap g g') (h2 : ∀ k, g'.value k = g.value k) (i : Nat) :
    solveEikonal g' i = solveEikonal g i := by
  unfold solveEikonal usable
  rw [hm.leaf, SameMap.vel_eq hm, h2]
  have : g'.minDim i = g.minDim i := by funext d; exact minDim_congr hm.shape h2 i d
  rw [hm.shape, this]

/-- the stateful local solver agrees with the pure one when every dimension has at least two cells -/
theorem eikS_eq_solve {dims : List Nat} (hf : Fits dims (2^31+1)) (h2 : ∀ x ∈ dims, 2 ≤ x) {g : Grid F}
    (hs : g.shape = Shape.mk' dims) {i : Nat} (hi : i < dims.prod) : (eikS g i).1 = solveEikonal g i := by
  show (solveEikonalS g i).1 = _
  apply (solveEikonalS_eq g i _).1
  intro d hd
  rw [hs] at hd ⊢
  apply nbrsDim_length_pos hf hi hd
  have hd' : d < dims.length := hd
  have : dims.getD d 0 ∈ dims := by
    rw [List.getD_eq_getElem?_getD, List.getElem?_eq_getElem hd']; simp
  exact h2 _ this

namespace XInput
variable {dims : List Nat} {g : Grid XR} {h : ℝ} {v : Nat → ℝ} {pts : List Nat}

/-- invariants of every solver that only writes improved times -/
structure SInv (X : XInput dims g h v pts) (g' : Grid XR) : Prop where
  map : SameMap g g'
  good : GoodG g'
  low : ∀ U, X.problem.IsSolution U → ∀ j, j < dims.prod → U j ≤ tv g' j
  src : ∀ i ∈ pts, tv g' i = 0

theorem better_iff (X : XInput dims g h v pts) {g' : Grid XR} (hm : SameMap g g') (hg : GoodG g') {i : Nat} (hi : i < dims.prod)
    (ho : g.occ i = false) :
    Arith.better (eikS g' i).1 (g'.value i) = true ↔
      upd (h / v i) (tv g' i) (mins (Shape.mk' dims) (tv g') i) + (eps : WithTop ℝ) < tv g' i := by
  have htv : g'.value i = ofT (tv g' i) := by unfold tv; rw [(hg i).ofT_toT]
  rw [X.eik_eq hm hg hi ho]
  conv_lhs => rw [htv]
  rw [better_ofT]

theorem SInv.tried (X : XInput dims g h v pts) {g1 g2 : Grid XR} {i : Nat} {b : Bool} (I : X.SInv g1) (ht : Tried eikS g1 g2 i b)
    (hi : i < dims.prod) (ho : g.occ i = false) : X.SInv g2 := by
  have hgd := X.eik_good I.map I.good hi ho
  have hgood : GoodG g2 := by
    intro k
    by_cases hk : k = i
    · subst hk
      cases b with
      | true => rw [(ht.yes rfl).2]; exact hgd
      | false => rw [ht.no rfl]; exact I.good k
    · rw [ht.other k hk]; exact I.good k
  refine ⟨I.map.trans ht.map, hgood, ?_, ?_⟩
  · intro U hU k hkN
    by_cases hk : k = i
    · subst hk
      unfold tv
      cases b with
      | true =>
        rw [(ht.yes rfl).2, X.eik_eq I.map I.good hi ho]
        simp only [toT_ofT]
        exact X.lower hU (I.low U hU) hi ho _
      | false => rw [ht.no rfl]; exact I.low U hU k hkN
    · unfold tv; rw [ht.other k hk]; exact I.low U hU k hkN
  · intro k hk
    by_cases hki : k = i
    · subst hki
      cases b with
      | true =>
        exfalso
        have := (ht.yes rfl).1
        rw [X.better_iff I.map I.good hi ho, I.src k hk] at this
        have h0 : 0 ≤ upd (h / v k) 0 (mins (Shape.mk' dims) (tv g1) k) :=
          (upd_pos (X.cpos hi ho) (mins_nn (fun k => (I.good k).toT_nonneg) k)).le
        have h1 : (0 : WithTop ℝ) ≤ (eps : WithTop ℝ) := by exact_mod_cast eps_pos.le
        exact absurd this (not_lt.2 (add_nonneg h0 h1))
      | false => unfold tv; rw [ht.no rfl]; exact I.src k hk
    · unfold tv; rw [ht.other k hki]; exact I.src k hk

/-- times right after the initial points were set in a clean grid -/
theorem SInv.start (X : XInput dims g h v pts) {g' : Grid XR} (hm : SameMap g g')
    (hv : ∀ k, g'.value k = if k ∈ pts then fin 0 else pinf) : X.SInv g' := by
  have hT : ∀ k, tv g' k = if k ∈ pts then 0 else ⊤ := by
    intro k; unfold tv; rw [hv]; split <;> rfl
  refine ⟨hm, ?_, ?_, ?_⟩
  · intro k; rw [hv]; split
    · exact Or.inr ⟨0, le_refl _, rfl⟩
    · exact Or.inl rfl
  · intro U hU k hk
    rw [hT]; split
    · next hp => rw [((X.exSol hU) k hk).1 hp]
    · exact le_top
  · intro k hk; rw [hT, if_pos hk]

/-- the library would not improve cell `i` -/
def NB (X : XInput dims g h v pts) (T : Nat → WithTop ℝ) (i : Nat) : Prop :=
  ¬ (upd (h / v i) (T i) (mins (Shape.mk' dims) T i) + (eps : WithTop ℝ) < T i)

/-- lowering a neighbour `n` of `i` to a time not better than that of `i` does not make `i` improvable -/
theorem NB.drop (X : XInput dims g h v pts) {T T' : Nat → WithTop ℝ} {i n : Nat} (hi : i < dims.prod) (ho : g.occ i = false)
    (hin : i ≠ n) (hnb : X.NB T i) (h1 : ∀ k, k ≠ n → T' k = T k) (h2 : T' n ≤ T n)
    (h3 : ¬ (T' n + (eps : WithTop ℝ) < T i)) (h0 : T' n ≠ ⊤) : X.NB T' i := by
  have hc := X.cpos hi ho
  intro hb
  rw [h1 i hin] at hb
  cases hu : upd (h / v i) (T i) (mins (Shape.mk' dims) T' i) with
  | top => rw [hu] at hb; simp at hb
  | coe u =>
    rw [hu] at hb
    cases hT : T' n with
    | top => exact h0 hT
    | coe θ =>
      rw [hT] at h3
      rcases lt_or_ge u θ with hlt | hge
      · apply hnb
        have : upd (h / v i) (T i) (mins (Shape.mk' dims) T i) = (u : WithTop ℝ) := by
          by_cases hTi : (θ : WithTop ℝ) ≤ T i
          · unfold mins at hu ⊢
            refine upd_congr hc _ _ _ hTi hTi ?_ hu hlt
            intro k hk hor
            have hle : dimMin (Shape.mk' dims) T' i k ≤ dimMin (Shape.mk' dims) T i k := by
              apply le_dimMin
              intro a ha
              refine le_trans (dimMin_le ha) ?_
              by_cases han : a = n
              · rw [han]; exact h2
              · rw [h1 a han]
            have hlt' : dimMin (Shape.mk' dims) T' i k < (θ : WithTop ℝ) := by
              rcases hor with h | h
              · exact h
              · exact lt_of_le_of_lt hle h
            apply le_antisymm hle
            obtain ⟨a, ha, e⟩ := dimMin_attained (ne_top_of_lt hlt')
            rw [e] at hlt' ⊢
            have han : a ≠ n := by rintro rfl; rw [hT] at hlt'; exact lt_irrefl _ hlt'
            rw [h1 a han]
            exact dimMin_le ha
          · -- T i < θ: all usable values are below T i
            have hTi' := not_le.1 hTi
            cases hTic : T i with
            | top => rw [hTic] at hTi'; simp at hTi'
            | coe τ =>
              rw [hTic] at hTi' hu hb
              have hτθ : τ < θ := by exact_mod_cast hTi'
              have huτ : u < τ := by
                have : u + eps < τ := by exact_mod_cast hb
                linarith [eps_pos]
              unfold mins at hu ⊢
              refine upd_congr (θ := τ) hc _ _ _ (le_refl _) (le_refl _) ?_ hu huτ
              intro k hk hor
              have hle : dimMin (Shape.mk' dims) T' i k ≤ dimMin (Shape.mk' dims) T i k := by
                apply le_dimMin
                intro a ha
                refine le_trans (dimMin_le ha) ?_
                by_cases han : a = n
                · rw [han]; exact h2
                · rw [h1 a han]
              have hlt' : dimMin (Shape.mk' dims) T' i k < (τ : WithTop ℝ) := by
                rcases hor with h | h
                · exact h
                · exact lt_of_le_of_lt hle h
              apply le_antisymm hle
              obtain ⟨a, ha, e⟩ := dimMin_attained (ne_top_of_lt hlt')
              rw [e] at hlt' ⊢
              have han : a ≠ n := by
                rintro rfl; rw [hT] at hlt'
                have : θ < τ := by exact_mod_cast hlt'
                linarith
              rw [h1 a han]
              exact dimMin_le ha
        rw [this]; exact hb
      · apply h3
        refine lt_of_le_of_lt ?_ hb
        have : θ + eps ≤ u + eps := by linarith
        exact_mod_cast this

/-- lowering a cell that is not a neighbour changes nothing -/
theorem NB.far (X : XInput dims g h v pts) {T T' : Nat → WithTop ℝ} {i n : Nat} (hin : i ≠ n) (hn : n ∉ (Shape.mk' dims).nbrs i)
    (hnb : X.NB T i) (h1 : ∀ k, k ≠ n → T' k = T k) : X.NB T' i := by
  have : mins (Shape.mk' dims) T' i = mins (Shape.mk' dims) T i := by
    unfold mins
    apply List.map_congr_left
    intro k hk
    unfold dimMin
    congr 1
    apply List.map_congr_left
    intro a ha
    apply h1
    rintro rfl
    exact hn (mem_nbrs.2 ⟨k, List.mem_range.1 hk, ha⟩)
  unfold NB at *
  rw [this, h1 i hin]; exact hnb

/-- a cell just given the proposed time is not improvable -/
theorem NB.self (X : XInput dims g h v pts) {T T' : Nat → WithTop ℝ} {i : Nat} (hi : i < dims.prod) (ho : g.occ i = false)
    (h1 : ∀ k, k ≠ i → T' k = T k) (h2 : T' i = upd (h / v i) (T i) (mins (Shape.mk' dims) T i))
    (h3 : T' i ≤ T i) : X.NB T' i := by
  have hc := X.cpos hi ho
  have hm : mins (Shape.mk' dims) T' i = mins (Shape.mk' dims) T i := by
    unfold mins
    apply List.map_congr_left
    intro k hk
    unfold dimMin
    congr 1
    apply List.map_congr_left
    intro a ha
    apply h1
    rintro rfl
    exact nbrs_irrefl X.fits hi (mem_nbrs.2 ⟨k, List.mem_range.1 hk, ha⟩)
  intro hb
  rw [hm] at hb
  cases hu : T' i with
  | top =>
    rw [hu] at hb h2 h3
    have := top_le_iff.1 h3
    rw [this] at h2
    rw [← h2] at hb
    simp at hb
  | coe u =>
    rw [hu] at hb h2 h3
    cases hu' : upd (h / v i) (u : WithTop ℝ) (mins (Shape.mk' dims) T i) with
    | top => rw [hu'] at hb; simp at hb
    | coe u' =>
      rw [hu'] at hb
      have hlt : u' + eps < u := by exact_mod_cast hb
      have hlt' : u' < u := by linarith [eps_pos]
      have : upd (h / v i) (T i) (mins (Shape.mk' dims) T i) = (u' : WithTop ℝ) := by
        unfold mins at hu' ⊢
        exact upd_congr hc _ _ _ (le_refl _) h3 (fun _ _ _ => rfl) hu' hlt'
      rw [this] at h2
      have : u = u' := by exact_mod_cast h2
      linarith

/-- **fixed points are accurate** -/
theorem fix_accuracy (X : XInput dims g h v pts) {T : Nat → WithTop ℝ} (hsrc : ∀ i ∈ pts, T i ≤ 0)
    (hfix : ∀ i, i < dims.prod → g.occ i = false → i ∉ pts → X.NB T i) (U : Nat → WithTop ℝ) (hU : X.problem.IsSolution U)
    (i : Nat) (hi : i < dims.prod) : T i ≤ U i + ((dims.prod * (2 * eps) : ℝ) : WithTop ℝ) := by
  refine X.accuracy hU (by linarith [eps_pos]) hsrc ?_ i hi
  intro j hj ho hp
  have := X.conv_of_not_better hj ho eps_pos.le (hfix j hj ho hp)
  rw [← two_mul] at this
  exact this

end XInput
end FMV
