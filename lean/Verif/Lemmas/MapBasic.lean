import Verif.Spec.Map
import Verif.Lemmas.GridBasic
/-! cell updates preserve the map -/
set_option linter.unusedSectionVars false
set_option linter.unusedVariables false
namespace FMV
open Spec
variable {F : Type} [Arith F]

theorem SameMap.occ_eq {g g' : Grid F} (h : SameMap g g') (i : Nat) : g'.occ i = g.occ i := by
  unfold Grid.occ Cell.isOccupied; rw [h.occupancy]
theorem SameMap.vel_eq {g g' : Grid F} (h : SameMap g g') (i : Nat) : g'.vel i = g.vel i := h.occupancy i

theorem sameMap_modify (g : Grid F) (i : Nat) (f : Cell F → Cell F)
    (h1 : ∀ c, (f c).occupancy = c.occupancy) (h2 : ∀ c, (f c).index = c.index) : SameMap g (g.modify i f) := by
  refine ⟨rfl, rfl, rfl, fun k => ?_, fun k => ?_⟩ <;> rw [Grid.modify_cells] <;> split
  · exact h1 _
  · rfl
  · exact h2 _
  · rfl

theorem sameMap_setValue (g : Grid F) (i : Nat) (v : F) : SameMap g (g.setValue i v) :=
  sameMap_modify _ _ _ (fun _ => rfl) (fun _ => rfl)
theorem sameMap_setState (g : Grid F) (i : Nat) (v : FMState) : SameMap g (g.setState i v) :=
  sameMap_modify _ _ _ (fun _ => rfl) (fun _ => rfl)
theorem sameMap_setH (g : Grid F) (i : Nat) (v : F) : SameMap g (g.setH i v) :=
  sameMap_modify _ _ _ (fun _ => rfl) (fun _ => rfl)
theorem sameMap_setBucket (g : Grid F) (i : Nat) (v : Nat) : SameMap g (g.setBucket i v) :=
  sameMap_modify _ _ _ (fun _ => rfl) (fun _ => rfl)

theorem sameMap_setScratch (g : Grid F) (r) : SameMap g (g.setScratch r) := ⟨rfl, rfl, rfl, fun _ => rfl, fun _ => rfl⟩

theorem foldl_inv {α β : Type} {I : β → Prop} (f : β → α → β) (l : List α) (b : β) (h0 : I b)
    (h : ∀ b a, a ∈ l → I b → I (f b a)) : I (l.foldl f b) := by
  induction l generalizing b with
  | nil => exact h0
  | cons a l ih =>
    exact ih _ (h b a (by simp) h0) (fun b a' ha' => h b a' (by simp [ha']))

theorem cells_setValue_ne (g : Grid F) {i k : Nat} (v : F) (h : k ≠ i) : (g.setValue i v).cells k = g.cells k := by
  simp [Grid.setValue, Grid.modify_cells, h]
theorem cells_setState_ne (g : Grid F) {i k : Nat} (v) (h : k ≠ i) : (g.setState i v).cells k = g.cells k := by
  simp [Grid.setState, Grid.modify_cells, h]
theorem cells_setH_ne (g : Grid F) {i k : Nat} (v : F) (h : k ≠ i) : (g.setH i v).cells k = g.cells k := by
  simp [Grid.setH, Grid.modify_cells, h]

end FMV
