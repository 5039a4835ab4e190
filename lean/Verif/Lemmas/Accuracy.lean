import Verif.Lemmas.Exact
import Verif.Lemmas.MapBasic
import Verif.Props.Geometry
/-! Comparison of arrival-time maps with the exact solution, independent of the solver. -/
set_option linter.unusedSectionVars false
set_option linter.unusedVariables false
namespace FMV
open Spec Shape XR

/-- Input of the exact-arithmetic theorems. -/
structure XInput (dims : List Nat) (g : Grid XR) (h : ℝ) (v : Nat → ℝ) (pts : List Nat) : Prop where
  fits : Fits dims (2^31+1)
  two : ∀ x ∈ dims, 2 ≤ x
  shape : g.shape = Shape.mk' dims
  inside : ∀ i ∈ pts, i < dims.prod
  hpos : 0 < h
  leaf : g.leaf = fin h
  speed : ∀ i, i < dims.prod → g.occ i = false → g.vel i = fin (v i)

namespace XInput
variable {dims : List Nat} {g : Grid XR} {h : ℝ} {v : Nat → ℝ} {pts : List Nat}

theorem vpos (X : XInput dims g h v pts) {i : Nat} (hi : i < dims.prod) (ho : g.occ i = false) : 0 < v i := by
  have := X.speed i hi ho
  unfold Grid.occ Cell.isOccupied at ho
  unfold Grid.vel at this
  rw [this] at ho
  simp [Arith.lt, XR.lt, Arith.margin] at ho
  linarith [eps_pos]

theorem cpos (X : XInput dims g h v pts) {i : Nat} (hi : i < dims.prod) (ho : g.occ i = false) : 0 < h / v i :=
  div_pos X.hpos (X.vpos hi ho)

theorem csq (X : XInput dims g h v pts) {i : Nat} (hi : i < dims.prod) (ho : g.occ i = false) : 0 < (h / v i)^2 := by
  have := X.cpos hi ho; positivity

/-- the exact problem described by the grid -/
def problem (X : XInput dims g h v pts) : Problem :=
  { dims := dims, h := h, v := v, obstacle := fun i => g.occ i = true, source := fun i => i ∈ pts }

theorem wellPosed (X : XInput dims g h v pts) : X.problem.WellPosed where
  two := X.fits.two
  pos := X.fits.pos
  lt := by have := X.fits.lt; show dims.prod ≤ _; omega
  hpos := X.hpos
  vpos := fun i hi ho => X.vpos hi (by simpa [problem] using ho)

theorem exSol (X : XInput dims g h v pts) {U : Nat → WithTop ℝ} (hU : X.problem.IsSolution U) :
    ExSol dims (fun i => h / v i) (fun i => i ∈ pts) (fun i => g.occ i = true) U := (isSolution_iff X.wellPosed U).1 hU

theorem nbr_ne (X : XInput dims g h v pts) {i : Nat} (hi : i < dims.prod) {d : Nat} (hd : d < dims.length) :
    (Shape.mk' dims).nbrsDim i d ≠ [] := by
  apply nbrsDim_length_pos X.fits hi hd
  have : dims.getD d 0 ∈ dims := by
    rw [List.getD_eq_getElem?_getD, List.getElem?_eq_getElem hd]; simp
  exact X.two _ this

/-- the local solver on a grid with the same map -/
theorem eik_eq (X : XInput dims g h v pts) {g' : Grid XR} (hm : SameMap g g') (hg : GoodG g') {i : Nat} (hi : i < dims.prod)
    (ho : g.occ i = false) :
    (eikS g' i).1 = ofT (upd (h / v i) (tv g' i) (mins (Shape.mk' dims) (tv g') i)) := by
  have hs : g'.shape = Shape.mk' dims := hm.shape.trans X.shape
  have e : (eikS g' i).1 = solveEikonal g' i := by
    show (solveEikonalS g' i).1 = _
    apply (solveEikonalS_eq g' i _).1
    intro d hd
    rw [hs] at hd ⊢
    exact X.nbr_ne hi hd
  rw [e, solveEikonal_eq hg X.hpos (X.vpos hi ho) (hm.leaf.trans X.leaf) (by rw [SameMap.vel_eq hm]; exact X.speed i hi ho), hs]

theorem eik_good (X : XInput dims g h v pts) {g' : Grid XR} (hm : SameMap g g') (hg : GoodG g') {i : Nat} (hi : i < dims.prod)
    (ho : g.occ i = false) : GoodT (eikS g' i).1 := by
  rw [X.eik_eq hm hg hi ho]
  apply goodT_ofT
  apply upd_nonneg (X.cpos hi ho)
  have := mins_nonneg hg i
  rw [hm.shape.trans X.shape] at this
  exact this

/-- the time proposed for a free cell, as an extended real -/
noncomputable def F (X : XInput dims g h v pts) (T : Nat → WithTop ℝ) (i : Nat) : WithTop ℝ :=
  upd (h / v i) (T i) (mins (Shape.mk' dims) T i)

/-- Lower bound: from times at or above the exact solution a local update stays at or above it. -/
theorem lower (X : XInput dims g h v pts) {U : Nat → WithTop ℝ} (hU : X.problem.IsSolution U) {T : Nat → WithTop ℝ}
    (hT : ∀ j, j < dims.prod → U j ≤ T j) {i : Nat} (hi : i < dims.prod) (ho : g.occ i = false) (Ti : WithTop ℝ) :
    U i ≤ upd (h / v i) Ti (mins (Shape.mk' dims) T i) := by
  have hE := X.exSol hU
  have hc := X.cpos hi ho
  have hcc := X.csq hi ho
  have hnn := hE.nonneg X.fits (fun i hi _ ho => X.cpos hi (by simpa using ho))
  obtain ⟨e1, _, e3⟩ := hE i hi
  by_cases hs : i ∈ pts
  · rw [e1 hs]
    apply upd_nonneg hc
    intro m hm
    unfold mins at hm
    rw [List.mem_map] at hm
    obtain ⟨k, hk, rfl⟩ := hm
    apply le_dimMin
    intro j hj
    have hjN := nbrsDim_lt X.fits hi (List.mem_range.1 hk) hj
    exact le_trans (hnn j hjN) (hT j hjN)
  · cases hu : upd (h / v i) Ti (mins (Shape.mk' dims) T i) with
    | top => exact le_top
    | coe u =>
      have h1 := upd_lower hc hu
      have h2 : residL u (mins (Shape.mk' dims) T i) ≤ residL u (mins (Shape.mk' dims) U i) := by
        unfold mins
        apply residL_le_map
        intro k hk
        apply posSq_anti
        apply le_dimMin
        intro j hj
        exact le_trans (dimMin_le hj) (hT j (nbrsDim_lt X.fits hi (List.mem_range.1 hk) hj))
      rcases e3 hs (by simpa using ho) with ⟨r, f1, f2⟩ | ⟨f1, f2⟩
      · rw [f1]
        by_contra hlt
        have hlt' : u < r := by
          have := not_le.1 hlt
          exact_mod_cast this
        have := residL_strict hlt' (ms := mins (Shape.mk' dims) U i) (by rw [f2]; exact hcc)
        rw [f2] at this
        linarith
      · exfalso
        have hz : residL u (mins (Shape.mk' dims) U i) = 0 := by
          generalize mins (Shape.mk' dims) U i = ms at f2
          clear h2
          induction ms with
          | nil => simp
          | cons m ms ih =>
            rw [residL_cons, f2 m (by simp), posSq_top, ih (fun m hm => f2 m (by simp [hm])), zero_add]
        rw [hz] at h2
        linarith

/-- "cell `i` is converged up to `δ`" -/
def Conv (X : XInput dims g h v pts) (T : Nat → WithTop ℝ) (δ : ℝ) (i : Nat) : Prop :=
  ∀ Y : ℝ, (h / v i)^2 ≤ residL Y (mins (Shape.mk' dims) T i) → T i ≤ ((Y + δ : ℝ) : WithTop ℝ)

/-- A cell that the code would not improve is converged up to twice the margin. -/
theorem conv_of_not_better (X : XInput dims g h v pts) {T : Nat → WithTop ℝ} {i : Nat} (hi : i < dims.prod) (ho : g.occ i = false)
    {e : ℝ} (he : 0 ≤ e) (hnb : ¬ (upd (h / v i) (T i) (mins (Shape.mk' dims) T i) + (e : WithTop ℝ) < T i)) :
    X.Conv T (eps + e) i := by
  intro Y hY
  by_cases hlt : (Y : WithTop ℝ) < T i
  · obtain ⟨u, hu, huY⟩ := upd_upper (X.cpos hi ho) hlt hY
    rw [hu] at hnb
    refine le_trans (not_lt.1 hnb) ?_
    have : u + e ≤ Y + (eps + e) := by linarith
    exact_mod_cast this
  · refine le_trans (not_lt.1 hlt) ?_
    have : Y ≤ Y + (eps + e) := by linarith [eps_pos]
    exact_mod_cast this

open Classical in
/-- number of cells strictly before `i` in the exact solution -/
noncomputable def rank (N : Nat) (U : Nat → WithTop ℝ) (i : Nat) : Nat :=
  ((Finset.range N).filter (fun j => U j < U i)).card

theorem rank_lt {N : Nat} {U : Nat → WithTop ℝ} {i j : Nat} (hj : j < N) (h : U j < U i) : rank N U j < rank N U i := by
  classical
  unfold rank
  apply Finset.card_lt_card
  rw [Finset.ssubset_iff_of_subset]
  · exact ⟨j, by simp [hj, h], by simp⟩
  · intro k hk
    rw [Finset.mem_filter] at *
    exact ⟨hk.1, lt_trans hk.2 h⟩

theorem rank_le (N : Nat) (U : Nat → WithTop ℝ) (i : Nat) : rank N U i ≤ N := by
  classical
  unfold rank
  exact le_trans (Finset.card_filter_le _ _) (by simp)

/-- **Accuracy**: if initial points have time 0 and every free cell is converged up to `δ`, the times exceed the exact ones by at
most `δ` per cell that precedes. -/
theorem accuracy_rank (X : XInput dims g h v pts) {U : Nat → WithTop ℝ} (hU : X.problem.IsSolution U) {T : Nat → WithTop ℝ}
    {δ : ℝ} (hδ : 0 ≤ δ) (hsrc : ∀ i ∈ pts, T i ≤ 0)
    (hconv : ∀ i, i < dims.prod → g.occ i = false → i ∉ pts → X.Conv T δ i) :
    ∀ n i, i < dims.prod → rank dims.prod U i = n → T i ≤ U i + ((δ * n : ℝ) : WithTop ℝ) := by
  have hE := X.exSol hU
  intro n
  induction n using Nat.strong_induction_on with
  | _ n ih =>
    intro i hi hn
    obtain ⟨e1, e2, e3⟩ := hE i hi
    by_cases hs : i ∈ pts
    · rw [e1 hs, zero_add]
      refine le_trans (hsrc i hs) ?_
      have : (0:ℝ) ≤ δ * n := by positivity
      exact_mod_cast this
    cases ho : g.occ i with
    | true => rw [e2 hs ho]; simp
    | false =>
      rcases e3 hs (by simp [ho]) with ⟨r, f1, f2⟩ | ⟨f1, _⟩
      · have hcc := X.csq hi ho
        -- some neighbour precedes
        have hn1 : 1 ≤ n := by
          by_contra h0
          have hn0 : n = 0 := by omega
          have hz : residL r (mins (Shape.mk' dims) U i) = 0 := by
            have hall : ∀ m ∈ mins (Shape.mk' dims) U i, (r : WithTop ℝ) ≤ m := by
              intro m hm
              unfold mins at hm
              rw [List.mem_map] at hm
              obtain ⟨k, hk, rfl⟩ := hm
              apply le_dimMin
              intro j hj
              by_contra hlt
              have := rank_lt (U := U) (i := i) (nbrsDim_lt X.fits hi (List.mem_range.1 hk) hj) (by rw [f1]; exact not_le.1 hlt)
              omega
            generalize mins (Shape.mk' dims) U i = ms at hall
            clear f2
            induction ms with
            | nil => simp
            | cons m ms ihm =>
              rw [residL_cons, posSq_eq_zero (hall m (by simp)), ihm (fun m hm => hall m (by simp [hm])), zero_add]
          rw [hz] at f2
          linarith
        let D : ℝ := δ * ((n:ℝ) - 1)
        have hn1' : (1:ℝ) ≤ n := by exact_mod_cast hn1
        have hD : 0 ≤ D := mul_nonneg hδ (by linarith)
        have hres : (h / v i)^2 ≤ residL (r + D) (mins (Shape.mk' dims) T i) := by
          rw [← f2]
          unfold mins
          apply residL_le_map
          intro k hk
          rcases lt_or_ge (dimMin (Shape.mk' dims) U i k) (r : WithTop ℝ) with hlt | hge
          · obtain ⟨j, hj, hje⟩ := dimMin_attained (s := Shape.mk' dims) (T := U) (i := i) (k := k) (ne_top_of_lt hlt)
            have hjN := nbrsDim_lt X.fits hi (List.mem_range.1 hk) hj
            rw [hje] at hlt
            have hr := rank_lt (U := U) (i := i) (N := dims.prod) hjN (by rw [f1]; exact hlt)
            have hTj := ih (rank dims.prod U j) (by omega) j hjN rfl
            cases hUj : U j with
            | top => rw [hUj] at hlt; exact absurd hlt not_top_lt
            | coe m =>
              rw [hUj] at hTj
              have h3 : dimMin (Shape.mk' dims) T i k ≤ ((m + D : ℝ) : WithTop ℝ) := by
                refine le_trans (dimMin_le hj) (le_trans hTj ?_)
                have h5 : (rank dims.prod U j : ℝ) + 1 ≤ n := by
                  have : rank dims.prod U j + 1 ≤ n := by omega
                  exact_mod_cast this
                have h4 : m + δ * (rank dims.prod U j : ℝ) ≤ m + D := by
                  have := mul_le_mul_of_nonneg_left (show (rank dims.prod U j : ℝ) ≤ (n:ℝ) - 1 by linarith) hδ
                  linarith
                exact_mod_cast h4
              rw [hje, hUj, ← posSq_shift r D m]
              exact posSq_anti _ h3
          · rw [posSq_eq_zero hge]; exact posSq_nonneg _ _
        have := hconv i hi ho hs (r + D) hres
        rw [f1]
        refine le_trans this ?_
        have : r + D + δ = r + δ * n := by simp only [D]; ring
        rw [this]
        exact_mod_cast le_refl _
      · rw [f1]; simp

theorem accuracy (X : XInput dims g h v pts) {U : Nat → WithTop ℝ} (hU : X.problem.IsSolution U) {T : Nat → WithTop ℝ}
    {δ : ℝ} (hδ : 0 ≤ δ) (hsrc : ∀ i ∈ pts, T i ≤ 0)
    (hconv : ∀ i, i < dims.prod → g.occ i = false → i ∉ pts → X.Conv T δ i) :
    ∀ i, i < dims.prod → T i ≤ U i + ((dims.prod * δ : ℝ) : WithTop ℝ) := by
  intro i hi
  refine le_trans (X.accuracy_rank hU hδ hsrc hconv _ i hi rfl) ?_
  gcongr
  have h1 : (rank dims.prod U i : ℝ) ≤ dims.prod := by exact_mod_cast rank_le _ _ _
  have : δ * (rank dims.prod U i : ℝ) ≤ dims.prod * δ := by
    rw [mul_comm]; exact mul_le_mul_of_nonneg_right h1 hδ
  exact_mod_cast this

end XInput
end FMV
