import Verif.Spec.Memory
import Verif.Props.FMMStruct
import Verif.Model.Eikonal
/-
The elementary operations are confined to the grid.
-/
set_option linter.unusedSectionVars false
set_option linter.unusedVariables false
namespace FMV
open Spec Arith Shape
variable {F : Type} [Arith F] {J : Nat → Cell F} {g : Grid F} {i : Nat}

@[simp] theorem outside_shape : (outside J g).shape = g.shape := rfl
@[simp] theorem outside_leaf : (outside J g).leaf = g.leaf := rfl
@[simp] theorem outside_scratch : (outside J g).scratch = g.scratch := rfl

theorem outside_cells (h : i < g.shape.ncells) : (outside J g).cells i = g.cells i := by unfold outside; simp [h]
theorem outside_value (h : i < g.shape.ncells) : (outside J g).value i = g.value i := by unfold Grid.value; rw [outside_cells h]
theorem outside_state (h : i < g.shape.ncells) : (outside J g).state i = g.state i := by unfold Grid.state; rw [outside_cells h]
theorem outside_occ (h : i < g.shape.ncells) : (outside J g).occ i = g.occ i := by unfold Grid.occ; rw [outside_cells h]
theorem outside_vel (h : i < g.shape.ncells) : (outside J g).vel i = g.vel i := by unfold Grid.vel; rw [outside_cells h]

theorem outside_modify (f : Cell F → Cell F) (h : i < g.shape.ncells) : (outside J g).modify i f = outside J (g.modify i f) := by
  unfold outside Grid.modify
  congr 1
  funext k
  by_cases hk : k = i
  · subst hk; simp [h]
  · simp [hk]

theorem outside_setValue (v : F) (h : i < g.shape.ncells) : (outside J g).setValue i v = outside J (g.setValue i v) := outside_modify _ h
theorem outside_setState (v) (h : i < g.shape.ncells) : (outside J g).setState i v = outside J (g.setState i v) := outside_modify _ h
theorem outside_setH (v : F) (h : i < g.shape.ncells) : (outside J g).setH i v = outside J (g.setH i v) := outside_modify _ h
theorem outside_setBucket (v) (h : i < g.shape.ncells) : (outside J g).setBucket i v = outside J (g.setBucket i v) := outside_modify _ h
theorem outside_setScratch (r) : (outside J g).setScratch r = outside J (g.setScratch r) := rfl

/-- a fold of confined operations is confined -/
theorem foldl_out {S α : Type} (o : S → S) (f : S → α → S) (I : S → Prop) (l : List α)
    (h : ∀ s a, a ∈ l → I s → f (o s) a = o (f s a) ∧ I (f s a)) (s : S) (hs : I s) : l.foldl f (o s) = o (l.foldl f s) ∧ I (l.foldl f s) := by
  induction l generalizing s with
  | nil => exact ⟨rfl, hs⟩
  | cons a l ih =>
    rw [List.foldl_cons, List.foldl_cons]
    obtain ⟨h1, h2⟩ := h s a (by simp) hs
    rw [h1]
    exact ih (fun s a ha => h s a (by simp [ha])) _ h2

/-- a run of confined steps is confined -/
theorem steps_out {S : Type} (o : S → S) (I : S → Prop) {r : S → S → Prop} (h : ∀ s t, I s → r s t → r (o s) (o t) ∧ I t) {n : Nat} {s0 s : S} (h0 : I s0)
    (hs : FMM.Steps r n s0 s) : FMM.Steps r n (o s0) (o s) ∧ I s := by
  induction hs with
  | refl => exact ⟨.refl _, h0⟩
  | tail hs h2 ih =>
    obtain ⟨h3, h4⟩ := h _ _ (ih h0).2 h2
    exact ⟨.tail (ih h0).1 h3, h4⟩

theorem getMin_outside {dims : List Nat} (hf : Fits dims (2^31+1)) (hthin : NoThin dims) (hs : g.shape = Shape.mk' dims) (hi : i < dims.prod) {k : Nat}
    (hk : k < dims.length) :
    ((outside J g).getMinValueInDimS i k).1 = (g.getMinValueInDimS i k).1 ∧ ((outside J g).getMinValueInDimS i k).2 = outside J (g.getMinValueInDimS i k).2 := by
  have hn : g.shape.ncells = dims.prod := by rw [hs]; exact mk'_ncells (hf.mono (by norm_num))
  have h2 : 2 ≤ dims.getD k 0 := by
    rw [List.getD_eq_getElem?_getD, List.getElem?_eq_getElem hk]; exact hthin _ (List.getElem_mem hk)
  have hne := nbrsDim_length_pos hf hi hk h2
  have hlt : ∀ j ∈ g.shape.nbrsDim i k, j < g.shape.ncells := by
    intro j hj; rw [hs] at hj; rw [hn]; exact nbrsDim_lt hf hi hk hj
  rw [← hs] at hne
  unfold Grid.getMinValueInDimS
  simp only [outside_shape, outside_scratch]
  match hns : g.shape.nbrsDim i k with
  | [] => exact absurd hns hne
  | [a] =>
    rw [hns] at hlt
    exact ⟨by simp [outside_value (hlt a (by simp))], by simp; rfl⟩
  | a :: b :: l =>
    rw [hns] at hlt
    exact ⟨by simp [outside_value (hlt a (by simp)), outside_value (hlt b (by simp))], by simp; rfl⟩

theorem collectS_outside {dims : List Nat} (hf : Fits dims (2^31+1)) (hthin : NoThin dims) (hi : i < dims.prod) (ds : List Nat) (hds : ∀ d ∈ ds, d < dims.length) :
    ∀ (g : Grid F) (acc : List F), g.shape = Shape.mk' dims →
    (collectS i ds (outside J g) acc).1 = (collectS i ds g acc).1 ∧ (collectS i ds (outside J g) acc).2 = outside J (collectS i ds g acc).2 := by
  induction ds with
  | nil => intro g acc hs; exact ⟨rfl, rfl⟩
  | cons d ds ih =>
    intro g acc hs
    obtain ⟨h1, h2⟩ := getMin_outside (J := J) hf hthin hs hi (hds d (by simp))
    obtain ⟨scr, h3⟩ := Grid.getMinValueInDimS_snd g i d
    have hs' : (g.getMinValueInDimS i d).2.shape = Shape.mk' dims := by rw [h3]; exact hs
    have hn : (g.getMinValueInDimS i d).2.shape.ncells = dims.prod := by rw [hs']; exact mk'_ncells (hf.mono (by norm_num))
    unfold collectS
    simp only [h1, h2]
    rw [outside_value (by rw [hn]; exact hi)]
    exact ih (fun x hx => hds x (by simp [hx])) _ _ hs'

/-- `eik` only looks at cells of a grid of size `dims` -/
def Confined (dims : List Nat) (eik : Eik F) : Prop :=
  ∀ (J : Nat → Cell F) (g : Grid F) (i : Nat), g.shape = Shape.mk' dims → i < dims.prod → eik (outside J g) i = eik g i

/-- `solveEikonal` is confined to the grid, if no dimension has size 1. -/
theorem eikS_confined {dims : List Nat} (hf : Fits dims (2^31+1)) (hthin : NoThin dims) : Confined dims (eikS : Eik F) := by
  intro J g i hs hi
  have hds : ∀ d ∈ List.range g.shape.ndims, d < dims.length := by
    intro d hd; rw [hs] at hd; exact List.mem_range.1 hd
  obtain ⟨h1, h2⟩ := collectS_outside (J := J) hf hthin hi (List.range g.shape.ndims) hds g [] hs
  have hsh : (collectS i (List.range g.shape.ndims) g []).2.shape = g.shape := by
    have := collectS_eq i (List.range g.shape.ndims) g [] (by
      intro d hd
      have hk := hds d hd
      rw [hs]
      exact nbrsDim_length_pos hf hi hk (by rw [List.getD_eq_getElem?_getD, List.getElem?_eq_getElem hk]; exact hthin _ (List.getElem_mem hk)))
    obtain ⟨-, scr, h3⟩ := this
    rw [h3]
  have hn : i < (collectS i (List.range g.shape.ndims) g []).2.shape.ncells := by
    rw [hsh, hs, mk'_ncells (hf.mono (by norm_num))]; exact hi
  unfold eikS solveEikonalS
  simp only [outside_shape, h1, h2, outside_scratch, outside_leaf, outside_vel hn]

end FMV
