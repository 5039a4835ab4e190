import Verif.Lemmas.DirMin
import Mathlib.Order.FixedPoints
import Mathlib.Data.ENNReal.Basic
import Mathlib.Topology.Order.IntermediateValue
import Mathlib.Topology.Algebra.Order.Field
import Mathlib.Topology.Instances.Real.Lemmas
import Mathlib.Topology.Algebra.Monoid
import Mathlib.Topology.Order.Lattice
/-! Existence and uniqueness of the exact discrete solution. -/
set_option linter.unusedSectionVars false
set_option linter.unusedVariables false
namespace FMV
open Spec Shape
open scoped ENNReal NNReal

/-- list form of `Problem.IsSolution` -/
def ExSol (dims : List Nat) (c : Nat → ℝ) (src obs : Nat → Prop) (U : Nat → WithTop ℝ) : Prop :=
  ∀ i, i < dims.prod →
    (src i → U i = 0) ∧ (¬ src i → obs i → U i = ⊤) ∧
    (¬ src i → ¬ obs i →
      (∃ r : ℝ, U i = (r : WithTop ℝ) ∧ residL r (mins (Shape.mk' dims) U i) = (c i)^2) ∨
      (U i = ⊤ ∧ ∀ m ∈ mins (Shape.mk' dims) U i, m = ⊤))

theorem sum_map_range (n : Nat) (f : Nat → ℝ) : ((List.range n).map f).sum = ∑ k ∈ Finset.range n, f k := by
  induction n with
  | zero => simp
  | succ n ih => rw [List.range_succ, List.map_append, List.sum_append, ih, Finset.sum_range_succ]; simp

theorem residL_mins (dims : List Nat) (U : Nat → WithTop ℝ) (i : Nat) (r : ℝ) :
    residL r (mins (Shape.mk' dims) U i) = ∑ k ∈ Finset.range dims.length, posSq r (dimMin (Shape.mk' dims) U i k) := by
  unfold residL mins
  rw [List.map_map, ← sum_map_range]; rfl

theorem _root_.FMV.Spec.Problem.WellPosed.fits {P : Problem} (W : P.WellPosed) : Fits P.dims (2^31+1) :=
  ⟨W.two, W.pos, by have := W.lt; omega⟩

theorem isSolution_iff {P : Problem} (W : P.WellPosed) (U : Nat → WithTop ℝ) :
    P.IsSolution U ↔ ExSol P.dims (fun i => P.h / P.v i) P.source P.obstacle U := by
  have hf := W.fits
  have key : ∀ i, i < P.dims.prod → ∀ m : Nat → WithTop ℝ, (∀ k, k < P.dims.length → P.IsDirMin U i k (m k)) →
      ∀ k, k < P.dims.length → m k = dimMin (Shape.mk' P.dims) U i k := by
    intro i hi m hm k hk
    exact (isGLB_iff_dimMin hf U hi hk).1 (hm k hk)
  have key2 : ∀ i, i < P.dims.prod → ∀ k, k < P.dims.length → P.IsDirMin U i k (dimMin (Shape.mk' P.dims) U i k) := by
    intro i hi k hk
    exact (isGLB_iff_dimMin hf U hi hk).2 rfl
  constructor
  · intro H i hi
    obtain ⟨h1, h2, h3⟩ := H i hi
    refine ⟨h1, h2, fun a b => ?_⟩
    rcases h3 a b _ (key2 i hi) with ⟨r, e1, e2⟩ | ⟨e1, e2⟩
    · left; exact ⟨r, e1, by rw [residL_mins]; exact e2⟩
    · right
      refine ⟨e1, ?_⟩
      intro m hm
      unfold mins at hm
      rw [List.mem_map] at hm
      obtain ⟨k, hk, rfl⟩ := hm
      exact e2 k (List.mem_range.1 hk)
  · intro H i hi
    obtain ⟨h1, h2, h3⟩ := H i hi
    refine ⟨h1, h2, fun a b m hm => ?_⟩
    have hk := key i hi m hm
    rcases h3 a b with ⟨r, e1, e2⟩ | ⟨e1, e2⟩
    · left
      refine ⟨r, e1, ?_⟩
      rw [residL_mins] at e2
      rw [← e2]
      apply Finset.sum_congr rfl
      intro k hk'
      rw [hk k (Finset.mem_range.1 hk')]
    · right
      refine ⟨e1, fun k hk' => ?_⟩
      rw [hk k hk']
      apply e2
      unfold mins
      exact List.mem_map_of_mem (List.mem_range.2 hk')

/-- A cell with a finite exact time has only exact times strictly below as contributions; comparison step. -/
theorem ExSol.le {dims : List Nat} (hf : Fits dims (2^31+1)) {c : Nat → ℝ} {src obs : Nat → Prop} {U V : Nat → WithTop ℝ}
    (hc : ∀ i, i < dims.prod → ¬ src i → ¬ obs i → 0 < c i)
    (hU : ExSol dims c src obs U) (hV : ExSol dims c src obs V) :
    ∀ i, i < dims.prod → U i ≤ V i := by
  by_contra hcon
  push Not at hcon
  obtain ⟨i0, hi0, hlt0⟩ := hcon
  classical
  -- choose a violating cell with minimal V
  have : ∃ i ∈ (Finset.range dims.prod).filter (fun i => V i < U i), ∀ j ∈ (Finset.range dims.prod).filter (fun i => V i < U i), V i ≤ V j :=
    Finset.exists_min_image _ V ⟨i0, by simp [hi0, hlt0]⟩
  obtain ⟨i, hi, hmin⟩ := this
  rw [Finset.mem_filter, Finset.mem_range] at hi
  obtain ⟨hiN, hlt⟩ := hi
  have hmin' : ∀ j, j < dims.prod → V j < V i → U j ≤ V j := by
    intro j hj hjv
    by_contra hh
    exact absurd (hmin j (by simp [hj, not_le.1 hh])) (not_le.2 hjv)
  obtain ⟨u1, u2, u3⟩ := hU i hiN
  obtain ⟨v1, v2, v3⟩ := hV i hiN
  by_cases hs : src i
  · rw [u1 hs, v1 hs] at hlt; exact lt_irrefl _ hlt
  by_cases ho : obs i
  · rw [v2 hs ho] at hlt; exact absurd hlt not_top_lt
  have hci := hc i hiN hs ho
  have hcc : (0:ℝ) < (c i)^2 := by positivity
  rcases v3 hs ho with ⟨r, e1, e2⟩ | ⟨e1, _⟩
  · -- residual of U at r is at least c^2
    have hres : (c i)^2 ≤ residL r (mins (Shape.mk' dims) U i) := by
      rw [← e2]
      unfold mins
      apply residL_le_map
      intro k hk
      rcases lt_or_ge (dimMin (Shape.mk' dims) V i k) (r : WithTop ℝ) with hlt' | hge
      · apply posSq_anti
        obtain ⟨j, hj, hje⟩ := dimMin_attained (s := Shape.mk' dims) (T := V) (i := i) (k := k) (ne_top_of_lt hlt')
        have hjN : j < dims.prod := nbrsDim_lt hf hiN (List.mem_range.1 hk) hj
        rw [hje, ← e1] at hlt'
        rw [hje]
        exact le_trans (dimMin_le hj) (hmin' j hjN hlt')
      · rw [posSq_eq_zero hge]; exact posSq_nonneg _ _
    rw [e1] at hlt
    rcases u3 hs ho with ⟨r', f1, f2⟩ | ⟨f1, f2⟩
    · rw [f1] at hlt
      have hrr : r < r' := by exact_mod_cast hlt
      have := residL_strict hrr (ms := mins (Shape.mk' dims) U i) (by rw [f2]; exact hcc)
      rw [f2] at this
      linarith
    · have hz : residL r (mins (Shape.mk' dims) U i) = 0 := by
        have : ∀ ms : List (WithTop ℝ), (∀ m ∈ ms, m = ⊤) → residL r ms = 0 := by
          intro ms
          induction ms with
          | nil => simp
          | cons m ms ih =>
            intro h
            rw [residL_cons, h m (by simp), posSq_top, ih (fun m hm => h m (by simp [hm])), zero_add]
        exact this _ f2
      rw [hz] at hres; linarith
  · rw [e1] at hlt; exact absurd hlt not_top_lt

theorem residL_continuous (ms : List (WithTop ℝ)) : Continuous (fun X => residL X ms) := by
  induction ms with
  | nil => simpa using continuous_const
  | cons m ms ih =>
    simp only [residL_cons]
    apply Continuous.add _ ih
    cases m with
    | top => simpa using continuous_const
    | coe m => simp only [posSq_coe]; fun_prop

theorem residL_zero_of_nonneg {ms : List (WithTop ℝ)} (h : ∀ m ∈ ms, 0 ≤ m) : residL 0 ms = 0 := by
  induction ms with
  | nil => simp
  | cons m ms ih =>
    rw [residL_cons, ih (fun m hm => h m (by simp [hm])), posSq_eq_zero (by simpa using h m (by simp)), add_zero]

theorem posSq_le_residL {X : ℝ} {m : WithTop ℝ} {ms : List (WithTop ℝ)} (h : m ∈ ms) : posSq X m ≤ residL X ms := by
  induction ms with
  | nil => simp at h
  | cons a ms ih =>
    rw [residL_cons]
    rcases List.mem_cons.1 h with rfl | h
    · linarith [residL_nonneg X ms]
    · linarith [ih h, posSq_nonneg X a]

theorem exists_root {c : ℝ} (hc : 0 < c) {ms : List (WithTop ℝ)} (h0 : ∀ m ∈ ms, 0 ≤ m) {t : ℝ} (ht : (t : WithTop ℝ) ∈ ms) :
    ∃ r : ℝ, 0 ≤ r ∧ residL r ms = c^2 := by
  have ht0 : (0:ℝ) ≤ t := by exact_mod_cast h0 _ ht
  have h1 : c^2 ≤ residL (t + c) ms := by
    refine le_trans ?_ (posSq_le_residL ht)
    simp only [posSq_coe]
    rw [max_eq_left (by linarith)]; apply le_of_eq; ring
  have := intermediate_value_Icc (f := fun X => residL X ms) (a := 0) (b := t + c) (by linarith) (residL_continuous ms).continuousOn
  have hm : c^2 ∈ Set.Icc (residL 0 ms) (residL (t+c) ms) := ⟨by rw [residL_zero_of_nonneg h0]; positivity, h1⟩
  obtain ⟨r, hr, he⟩ := this hm
  exact ⟨r, hr.1, he⟩

/-- `[0,∞]` to times -/
noncomputable def toW (x : ℝ≥0∞) : WithTop ℝ := if x = ⊤ then ⊤ else (x.toReal : WithTop ℝ)

@[simp] theorem toW_top : toW ⊤ = ⊤ := by simp [toW]
@[simp] theorem toW_coe (r : ℝ≥0) : toW (r : ℝ≥0∞) = ((r : ℝ) : WithTop ℝ) := by simp [toW]
@[simp] theorem toW_zero : toW 0 = 0 := by
  have := toW_coe 0; simpa using this

theorem toW_mono {x y : ℝ≥0∞} (h : x ≤ y) : toW x ≤ toW y := by
  cases y with
  | top => simp
  | coe y =>
    cases x with
    | top => simp at h
    | coe x => rw [toW_coe, toW_coe]; exact_mod_cast h

theorem toW_nonneg (x : ℝ≥0∞) : 0 ≤ toW x := by rw [← toW_zero]; exact toW_mono (zero_le)

theorem residL_mins_anti (s : Shape) {T T' : Nat → WithTop ℝ} (h : ∀ j, T j ≤ T' j) (i : Nat) (X : ℝ) :
    residL X (mins s T' i) ≤ residL X (mins s T i) := by
  unfold mins
  apply residL_le_map
  intro k _
  apply posSq_anti
  apply le_dimMin
  intro j hj
  exact le_trans (dimMin_le hj) (h j)

open Classical in
/-- one step of the monotone operator whose fixed points are solutions -/
noncomputable def Phi (s : Shape) (c : Nat → ℝ) (src obs : Nat → Prop) : (Nat → ℝ≥0∞) →o (Nat → ℝ≥0∞) where
  toFun T i := if src i then 0 else if obs i then ⊤ else
    sInf {x | ∃ r : ℝ≥0, x = (r : ℝ≥0∞) ∧ (c i)^2 ≤ residL r (mins s (fun j => toW (T j)) i)}
  monotone' := by
    intro T T' h i
    show ite _ _ _ ≤ ite _ _ _
    split
    · exact le_refl _
    · split
      · exact le_refl _
      · apply sInf_le_sInf
        rintro x ⟨r, rfl, hr⟩
        exact ⟨r, rfl, le_trans hr (residL_mins_anti s (fun j => toW_mono (h j)) i r)⟩

open Classical in
theorem Phi_apply (s : Shape) (c : Nat → ℝ) (src obs : Nat → Prop) (T : Nat → ℝ≥0∞) (i : Nat) :
    Phi s c src obs T i = if src i then 0 else if obs i then ⊤ else
    sInf {x | ∃ r : ℝ≥0, x = (r : ℝ≥0∞) ∧ (c i)^2 ≤ residL r (mins s (fun j => toW (T j)) i)} := rfl

theorem exists_exSol {dims : List Nat} {c : Nat → ℝ} {src obs : Nat → Prop}
    (hc : ∀ i, i < dims.prod → ¬ src i → ¬ obs i → 0 < c i) :
    ∃ U, ExSol dims c src obs U := by
  let s := Shape.mk' dims
  let T := OrderHom.lfp (Phi s c src obs)
  have hT : ∀ i, T i = Phi s c src obs T i := fun i => (congrFun (OrderHom.map_lfp (Phi s c src obs)) i).symm
  refine ⟨fun i => toW (T i), ?_⟩
  intro i hi
  refine ⟨?_, ?_, ?_⟩
  · intro h; show toW (T i) = 0; rw [hT, Phi_apply, if_pos h, toW_zero]
  · intro h h'; show toW (T i) = ⊤; rw [hT, Phi_apply, if_neg h, if_pos h', toW_top]
  · intro h h'
    have hci := hc i hi h h'
    have hcc : (0:ℝ) < (c i)^2 := by positivity
    have e : T i = sInf {x | ∃ r : ℝ≥0, x = (r : ℝ≥0∞) ∧ (c i)^2 ≤ residL r (mins s (fun j => toW (T j)) i)} := by
      rw [hT, Phi_apply, if_neg h, if_neg h']
    have hnn : ∀ m ∈ mins s (fun j => toW (T j)) i, 0 ≤ m := by
      intro m hm
      unfold mins at hm
      rw [List.mem_map] at hm
      obtain ⟨k, _, rfl⟩ := hm
      exact le_dimMin (fun j _ => toW_nonneg _)
    by_cases hfin : ∃ t : ℝ, (t : WithTop ℝ) ∈ mins s (fun j => toW (T j)) i
    · left
      obtain ⟨t, ht⟩ := hfin
      obtain ⟨r, hr0, hr⟩ := exists_root hci hnn ht
      refine ⟨r, ?_, hr⟩
      let q : ℝ≥0 := ⟨r, hr0⟩
      have hq : (q : ℝ) = r := rfl
      have : T i = (q : ℝ≥0∞) := by
        rw [e]
        apply le_antisymm
        · apply sInf_le
          exact ⟨q, rfl, by rw [hq, hr]⟩
        · apply le_sInf
          rintro x ⟨r', rfl, hr'⟩
          rw [ENNReal.coe_le_coe]
          by_contra hlt
          have hlt' : (r' : ℝ) < r := not_le.1 hlt
          have := residL_strict hlt' (ms := mins s (fun j => toW (T j)) i) (by rw [hr]; exact hcc)
          rw [hr] at this; linarith
      show toW (T i) = _
      rw [this, toW_coe, hq]
    · right
      have hall : ∀ m ∈ mins s (fun j => toW (T j)) i, m = ⊤ := by
        intro m hm
        cases m with
        | top => rfl
        | coe r => exact absurd ⟨r, hm⟩ hfin
      refine ⟨?_, hall⟩
      have hz : ∀ r : ℝ, residL r (mins s (fun j => toW (T j)) i) = 0 := by
        intro r
        generalize mins s (fun j => toW (T j)) i = ms at hall
        clear hnn hfin e
        induction ms with
        | nil => simp
        | cons m ms ih =>
          rw [residL_cons, hall m (by simp), posSq_top, ih (fun m hm => hall m (by simp [hm])), zero_add]
      show toW (T i) = ⊤
      have : T i = ⊤ := by
        rw [e, sInf_eq_top]
        rintro x ⟨r, rfl, hr⟩
        rw [hz] at hr; linarith
      rw [this]; simp

/-- exact times are non-negative -/
theorem ExSol.nonneg {dims : List Nat} (hf : Fits dims (2^31+1)) {c : Nat → ℝ} {src obs : Nat → Prop} {U : Nat → WithTop ℝ}
    (hc : ∀ i, i < dims.prod → ¬ src i → ¬ obs i → 0 < c i)
    (hU : ExSol dims c src obs U) : ∀ i, i < dims.prod → 0 ≤ U i := by
  by_contra hcon
  push Not at hcon
  obtain ⟨i0, hi0, hlt0⟩ := hcon
  obtain ⟨i, hi, hmin⟩ := Finset.exists_min_image (Finset.range dims.prod) U ⟨i0, by simp [hi0]⟩
  rw [Finset.mem_range] at hi
  have hi0' : U i < 0 := lt_of_le_of_lt (hmin i0 (by simp [hi0])) hlt0
  obtain ⟨u1, u2, u3⟩ := hU i hi
  by_cases hs : src i
  · rw [u1 hs] at hi0'; exact lt_irrefl _ hi0'
  by_cases ho : obs i
  · rw [u2 hs ho] at hi0'; exact absurd hi0' not_top_lt
  rcases u3 hs ho with ⟨r, e1, e2⟩ | ⟨e1, _⟩
  · have : residL r (mins (Shape.mk' dims) U i) = 0 := by
      have : ∀ m ∈ mins (Shape.mk' dims) U i, (r : WithTop ℝ) ≤ m := by
        intro m hm
        unfold mins at hm
        rw [List.mem_map] at hm
        obtain ⟨k, hk, rfl⟩ := hm
        apply le_dimMin
        intro j hj
        rw [← e1]
        exact hmin j (by simpa using nbrsDim_lt hf hi (List.mem_range.1 hk) hj)
      generalize mins (Shape.mk' dims) U i = ms at this
      clear e2
      induction ms with
      | nil => simp
      | cons m ms ih =>
        rw [residL_cons, posSq_eq_zero (this m (by simp)), ih (fun m hm => this m (by simp [hm])), zero_add]
    rw [this] at e2
    have := hc i hi hs ho
    have : (0:ℝ) < (c i)^2 := by positivity
    linarith
  · rw [e1] at hi0'; exact absurd hi0' not_top_lt

end FMV
