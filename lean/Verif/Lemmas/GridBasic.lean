import Verif.Model.Eikonal
import Verif.Lemmas.Shape
/-! Basic facts about cell updates and the scratch buffer. -/
set_option linter.unusedSectionVars false
set_option linter.unusedVariables false
set_option linter.unusedSimpArgs false
namespace FMV
open Arith
variable {F : Type} [Arith F]
namespace Grid

@[simp] theorem modify_shape (g : Grid F) (i : Nat) (f) : (g.modify i f).shape = g.shape := rfl
@[simp] theorem modify_leaf (g : Grid F) (i : Nat) (f) : (g.modify i f).leaf = g.leaf := rfl
@[simp] theorem modify_clean (g : Grid F) (i : Nat) (f) : (g.modify i f).clean = g.clean := rfl
@[simp] theorem modify_occupied (g : Grid F) (i : Nat) (f) : (g.modify i f).occupied = g.occupied := rfl
@[simp] theorem modify_scratch (g : Grid F) (i : Nat) (f) : (g.modify i f).scratch = g.scratch := rfl
theorem modify_cells (g : Grid F) (i : Nat) (f) (k : Nat) :
    (g.modify i f).cells k = if k = i then f (g.cells k) else g.cells k := rfl

@[simp] theorem setValue_shape (g : Grid F) (i : Nat) (v : F) : (g.setValue i v).shape = g.shape := rfl
@[simp] theorem setState_shape (g : Grid F) (i : Nat) (v) : (g.setState i v).shape = g.shape := rfl
@[simp] theorem setH_shape (g : Grid F) (i : Nat) (v : F) : (g.setH i v).shape = g.shape := rfl
@[simp] theorem setBucket_shape (g : Grid F) (i : Nat) (v) : (g.setBucket i v).shape = g.shape := rfl
@[simp] theorem setValue_leaf (g : Grid F) (i : Nat) (v : F) : (g.setValue i v).leaf = g.leaf := rfl
@[simp] theorem setState_leaf (g : Grid F) (i : Nat) (v) : (g.setState i v).leaf = g.leaf := rfl
@[simp] theorem setH_leaf (g : Grid F) (i : Nat) (v : F) : (g.setH i v).leaf = g.leaf := rfl
@[simp] theorem setBucket_leaf (g : Grid F) (i : Nat) (v) : (g.setBucket i v).leaf = g.leaf := rfl

theorem value_setValue (g : Grid F) (i k : Nat) (v : F) :
    (g.setValue i v).value k = if k = i then v else g.value k := by
  unfold value setValue; rw [modify_cells]; split <;> rfl
@[simp] theorem value_setState (g : Grid F) (i k : Nat) (v) : (g.setState i v).value k = g.value k := by
  unfold value setState; rw [modify_cells]; split <;> rfl
@[simp] theorem value_setH (g : Grid F) (i k : Nat) (v : F) : (g.setH i v).value k = g.value k := by
  unfold value setH; rw [modify_cells]; split <;> rfl
@[simp] theorem value_setBucket (g : Grid F) (i k : Nat) (v) : (g.setBucket i v).value k = g.value k := by
  unfold value setBucket; rw [modify_cells]; split <;> rfl
theorem state_setState (g : Grid F) (i k : Nat) (v) :
    (g.setState i v).state k = if k = i then v else g.state k := by
  unfold state setState; rw [modify_cells]; split <;> rfl
@[simp] theorem state_setValue (g : Grid F) (i k : Nat) (v : F) : (g.setValue i v).state k = g.state k := by
  unfold state setValue; rw [modify_cells]; split <;> rfl
@[simp] theorem state_setH (g : Grid F) (i k : Nat) (v : F) : (g.setH i v).state k = g.state k := by
  unfold state setH; rw [modify_cells]; split <;> rfl
@[simp] theorem state_setBucket (g : Grid F) (i k : Nat) (v) : (g.setBucket i v).state k = g.state k := by
  unfold state setBucket; rw [modify_cells]; split <;> rfl
@[simp] theorem occ_setValue (g : Grid F) (i k : Nat) (v : F) : (g.setValue i v).occ k = g.occ k := by
  unfold occ setValue; rw [modify_cells]; split <;> rfl
@[simp] theorem occ_setState (g : Grid F) (i k : Nat) (v) : (g.setState i v).occ k = g.occ k := by
  unfold occ setState; rw [modify_cells]; split <;> rfl
@[simp] theorem occ_setH (g : Grid F) (i k : Nat) (v : F) : (g.setH i v).occ k = g.occ k := by
  unfold occ setH; rw [modify_cells]; split <;> rfl
@[simp] theorem occ_setBucket (g : Grid F) (i k : Nat) (v) : (g.setBucket i v).occ k = g.occ k := by
  unfold occ setBucket; rw [modify_cells]; split <;> rfl
@[simp] theorem vel_setValue (g : Grid F) (i k : Nat) (v : F) : (g.setValue i v).vel k = g.vel k := by
  unfold vel setValue; rw [modify_cells]; split <;> rfl
@[simp] theorem vel_setState (g : Grid F) (i k : Nat) (v) : (g.setState i v).vel k = g.vel k := by
  unfold vel setState; rw [modify_cells]; split <;> rfl
@[simp] theorem vel_setH (g : Grid F) (i k : Nat) (v : F) : (g.setH i v).vel k = g.vel k := by
  unfold vel setH; rw [modify_cells]; split <;> rfl
@[simp] theorem vel_setBucket (g : Grid F) (i k : Nat) (v) : (g.setBucket i v).vel k = g.vel k := by
  unfold vel setBucket; rw [modify_cells]; split <;> rfl

@[simp] theorem setScratch_shape (g : Grid F) (r) : (g.setScratch r).shape = g.shape := rfl
@[simp] theorem setScratch_leaf (g : Grid F) (r) : (g.setScratch r).leaf = g.leaf := rfl
@[simp] theorem setScratch_cells (g : Grid F) (r) : (g.setScratch r).cells = g.cells := rfl
@[simp] theorem value_setScratch (g : Grid F) (r) (k : Nat) : (g.setScratch r).value k = g.value k := rfl
@[simp] theorem state_setScratch (g : Grid F) (r) (k : Nat) : (g.setScratch r).state k = g.state k := rfl
@[simp] theorem occ_setScratch (g : Grid F) (r) (k : Nat) : (g.setScratch r).occ k = g.occ k := rfl
@[simp] theorem vel_setScratch (g : Grid F) (r) (k : Nat) : (g.setScratch r).vel k = g.vel k := rfl

/-- The faithful `getMinValueInDim` agrees with the pure one as soon as the cell has a neighbour
in that dimension, whatever the scratch buffer contains. -/
theorem getMinValueInDimS_eq (g : Grid F) {idx dim : Nat} (h : g.shape.nbrsDim idx dim ≠ []) :
    (g.getMinValueInDimS idx dim).1 = g.minDim idx dim := by
  unfold getMinValueInDimS minDim
  match hns : g.shape.nbrsDim idx dim with
  | [] => exact absurd hns h
  | [a] => simp
  | a :: b :: l => simp

/-- ... and it only touches the scratch buffer. -/
theorem getMinValueInDimS_snd (g : Grid F) (idx dim : Nat) :
    ∃ scr, (g.getMinValueInDimS idx dim).2 = { g with scratch := scr } := by
  unfold getMinValueInDimS
  simp only
  split
  · exact ⟨_, rfl⟩
  · exact ⟨_, rfl⟩

@[simp] theorem minDim_scratch (g : Grid F) (scr) (idx dim : Nat) :
    ({ g with scratch := scr } : Grid F).minDim idx dim = g.minDim idx dim := rfl

end Grid

theorem collectS_eq (idx : Nat) : ∀ (ds : List Nat) (g : Grid F) (acc : List F),
    (∀ d ∈ ds, g.shape.nbrsDim idx d ≠ []) →
    (collectS idx ds g acc).1 =
      acc ++ (ds.map (g.minDim idx)).filter (fun t => !(isInf t) && lt t (g.value idx)) ∧
    ∃ scr, (collectS idx ds g acc).2 = { g with scratch := scr } := by
  intro ds
  induction ds with
  | nil => intro g acc _; exact ⟨by simp [collectS], g.scratch, rfl⟩
  | cons d ds ih =>
    intro g acc h
    obtain ⟨scr, hscr⟩ := g.getMinValueInDimS_snd idx d
    have h1 := g.getMinValueInDimS_eq (h d (by simp))
    unfold collectS
    rw [show g.getMinValueInDimS idx d = (g.minDim idx d, { g with scratch := scr }) from
      Prod.ext h1 hscr]
    simp only
    obtain ⟨ih1, scr2, ih2⟩ := ih { g with scratch := scr }
      (if !(isInf (g.minDim idx d)) && lt (g.minDim idx d) (g.value idx) then acc ++ [g.minDim idx d] else acc)
      (fun d hd => h d (by simp [hd]))
    refine ⟨?_, scr2, ?_⟩
    · refine ih1.trans ?_
      rw [List.map_cons, List.filter_cons]
      split
      · rw [List.append_assoc]; rfl
      · rfl
    · exact ih2

/-- The faithful `solveEikonal` equals the pure one (and only touches the scratch buffer) if the cell has a
neighbour in every dimension. -/
theorem solveEikonalS_eq (g : Grid F) (idx : Nat)
    (h : ∀ d, d < g.shape.ndims → g.shape.nbrsDim idx d ≠ []) :
    (solveEikonalS g idx).1 = solveEikonal g idx ∧
    ∃ scr, (solveEikonalS g idx).2 = { g with scratch := scr } := by
  obtain ⟨h1, scr, h2⟩ := collectS_eq idx (List.range g.shape.ndims) g [] (by simpa using h)
  unfold solveEikonalS
  constructor
  · simp only
    rw [h1, h2]
    simp [solveEikonal, usable, Grid.vel]
  · exact ⟨scr, h2⟩

end FMV
