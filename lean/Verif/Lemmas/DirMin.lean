import Verif.Props.Geometry
import Verif.Lemmas.Residual
/-! Link between the specification's directional minima and `dimMin`. -/
set_option linter.unusedSectionVars false
set_option linter.unusedVariables false
namespace FMV
open Spec Shape

theorem dimMin_isGLB (s : Shape) (T : Nat → WithTop ℝ) (i k : Nat) :
    IsGLB {t | ∃ j ∈ s.nbrsDim i k, t = T j} (dimMin s T i k) := by
  constructor
  · rintro t ⟨j, hj, rfl⟩; exact dimMin_le hj
  · intro x hx
    exact le_dimMin (fun j hj => hx ⟨j, hj, rfl⟩)

theorem isGLB_iff_dimMin {dims : List Nat} (h : Fits dims (2^31+1)) (T : Nat → WithTop ℝ) {i k : Nat}
    (hi : i < dims.prod) (hk : k < dims.length) {m : WithTop ℝ} :
    IsGLB {t | ∃ j, j < dims.prod ∧ AdjacentIn k ((Shape.mk' dims).idx2coord i) ((Shape.mk' dims).idx2coord j) ∧ t = T j} m
      ↔ m = dimMin (Shape.mk' dims) T i k := by
  have e : {t | ∃ j, j < dims.prod ∧ AdjacentIn k ((Shape.mk' dims).idx2coord i) ((Shape.mk' dims).idx2coord j) ∧ t = T j}
      = {t | ∃ j ∈ (Shape.mk' dims).nbrsDim i k, t = T j} := by
    ext t
    constructor
    · rintro ⟨j, h1, h2, h3⟩; exact ⟨j, (adjacentIn_iff dims h hi hk).2 ⟨h1, h2⟩, h3⟩
    · rintro ⟨j, h1, h2⟩
      have := (adjacentIn_iff dims h hi hk).1 h1
      exact ⟨j, this.1, this.2, h2⟩
  rw [e]
  constructor
  · intro hm; exact hm.unique (dimMin_isGLB _ _ _ _)
  · rintro rfl; exact dimMin_isGLB _ _ _ _

theorem exists_map_eq_of_perm {α β : Type} (f : α → β) : ∀ {c b : List β}, List.Perm c b → ∀ {l : List α}, l.map f = c →
    ∃ l', List.Perm l l' ∧ l'.map f = b := by
  intro c b h
  induction h with
  | nil => intro l hl; exact ⟨l, List.Perm.refl _, hl⟩
  | cons x _ ih =>
    intro l hl
    cases l with
    | nil => simp at hl
    | cons a l =>
      simp only [List.map_cons, List.cons.injEq] at hl
      obtain ⟨l', h1, h2⟩ := ih hl.2
      exact ⟨a :: l', h1.cons a, by simp [hl.1, h2]⟩
  | swap x y t =>
    intro l hl
    match l, hl with
    | [], hl => simp at hl
    | [a], hl => simp at hl
    | a :: b :: l, hl =>
      simp only [List.map_cons, List.cons.injEq] at hl
      exact ⟨b :: a :: l, List.Perm.swap _ _ _, by simp [hl.1, hl.2.1, hl.2.2]⟩
  | trans _ _ ih1 ih2 =>
    intro l hl
    obtain ⟨l1, h1, h2⟩ := ih1 hl
    obtain ⟨l2, h3, h4⟩ := ih2 h2
    exact ⟨l2, h1.trans h3, h4⟩

theorem usableT_map_eq (Ti : WithTop ℝ) (m : Nat → WithTop ℝ) (l : List Nat) :
    usableT Ti (l.map m) = (l.filter (fun k => open Classical in decide (m k ≠ ⊤ ∧ m k < Ti))).map (fun k => (m k).untopD 0) := by
  classical
  induction l with
  | nil => rfl
  | cons k l ih =>
    rw [List.map_cons]
    cases hm : m k with
    | top => rw [usableT_cons_top, ih, List.filter_cons]; simp [hm]
    | coe r =>
      rw [usableT_cons_coe, ih, List.filter_cons]
      by_cases h : (r : WithTop ℝ) < Ti
      · simp [hm, h]
      · simp [hm, h]

end FMV
