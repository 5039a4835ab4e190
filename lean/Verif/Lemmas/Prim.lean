import Verif.Lemmas.Lock
import Verif.Props.FMMStruct
/-! Invariants that survive every write a wave-propagation loop makes (FIM, GMM, UFMM). -/
set_option linter.unusedSectionVars false
set_option linter.unusedVariables false
namespace FMV
open Spec Shape XR FMM
variable {F : Type} [Arith F]

/-- A property of grids that survives the writes a wave-propagation loop performs on free cells below `N`. -/
structure PrimInv (eik : Eik F) (N : Nat) (J : Grid F → Prop) : Prop where
  scr : ∀ g k, J g → k < N → g.occ k = false → J (g.setScratch (eik g k).2)
  write : ∀ g k, J g → k < N → g.occ k = false → J ((g.setScratch (eik g k).2).setValue k (eik g k).1)
  state : ∀ g k st, J g → J (g.setState k st)

theorem PrimInv.sameMap (eik : Eik F) (N : Nat) (g : Grid F) : PrimInv eik N (fun g' => SameMap g g') :=
  ⟨fun _ _ h _ _ => h.trans (sameMap_setScratch _ _), fun _ _ h _ _ => (h.trans (sameMap_setScratch _ _)).trans (sameMap_setValue _ _ _),
    fun _ _ _ h => h.trans (sameMap_setState _ _ _)⟩

/-- an occupied cell is never written -/
theorem PrimInv.occupied (eik : Eik F) (N : Nat) (i : Nat) (x : F) :
    PrimInv eik N (fun g' : Grid F => g'.value i = x ∧ g'.occ i = true) := by
  refine ⟨?_, ?_, ?_⟩
  · intro g' k h hk hok
    exact ⟨h.1, by rw [SameMap.occ_eq (sameMap_setScratch _ _)]; exact h.2⟩
  · intro g' k h hk hok
    have hne : i ≠ k := by rintro rfl; rw [h.2] at hok; cases hok
    exact ⟨by rw [Grid.value_setValue, if_neg hne]; exact h.1,
      by rw [SameMap.occ_eq ((sameMap_setScratch _ _).trans (sameMap_setValue _ _ _))]; exact h.2⟩
  · intro g' k st h
    exact ⟨by simpa using h.1, by rw [SameMap.occ_eq (sameMap_setState _ _ _)]; exact h.2⟩

section exact
variable {dims : List Nat} {g : Grid XR} {h : ℝ} {v : Nat → ℝ} {pts : List Nat}

/-- same map, times that are non-negative or infinite, and not below the exact solution -/
structure LowG (X : XInput dims g h v pts) (g' : Grid XR) : Prop where
  map : SameMap g g'
  good : GoodG g'
  low : ∀ U, X.problem.IsSolution U → ∀ j, j < dims.prod → U j ≤ tv g' j

theorem XInput.input (X : XInput dims g h v pts) : Input dims g pts := ⟨X.fits, X.shape, X.inside⟩

theorem XInput.SInv.lowG (X : XInput dims g h v pts) {g' : Grid XR} (I : X.SInv g') : LowG X g' := ⟨I.map, I.good, I.low⟩

theorem LowG.congr {X : XInput dims g h v pts} {g1 g2 : Grid XR} (I : LowG X g1) (hm : SameMap g1 g2)
    (hv : ∀ k, g2.value k = g1.value k) : LowG X g2 :=
  ⟨I.map.trans hm, fun k => by rw [hv]; exact I.good k, fun U hU j hj => by unfold tv; rw [hv]; exact I.low U hU j hj⟩

theorem LowG.write {X : XInput dims g h v pts} {g1 : Grid XR} (I : LowG X g1) {k : Nat} (hk : k < dims.prod)
    (ho : g1.occ k = false) : LowG X ((g1.setScratch (eikS g1 k).2).setValue k (eikS g1 k).1) := by
  have ho' : g.occ k = false := by rw [← SameMap.occ_eq I.map]; exact ho
  have hgd := X.eik_good I.map I.good hk ho'
  refine ⟨(I.map.trans (sameMap_setScratch _ _)).trans (sameMap_setValue _ _ _), ?_, ?_⟩
  · intro i
    rw [Grid.value_setValue]; split
    · exact hgd
    · exact I.good i
  · intro U hU j hj
    unfold tv
    rw [Grid.value_setValue]; split
    · next e =>
      subst e
      rw [X.eik_eq I.map I.good hk ho', toT_ofT]
      exact X.lower hU (I.low U hU) hk ho' _
    · exact I.low U hU j hj

theorem LowG.prim (X : XInput dims g h v pts) : PrimInv eikS dims.prod (LowG X) where
  scr g' k hJ hk ho := hJ.congr (sameMap_setScratch _ _) (fun _ => rfl)
  write g' k hJ hk ho := hJ.write hk ho
  state g' k st hJ := hJ.congr (sameMap_setState _ _ _) (fun _ => by simp)

end exact
end FMV
