import Verif.Lemmas.MapBasic
import Verif.Model.Solver
/-
No run of a solver changes the map or the clean flag of the grid, nor the parameters of the untidy queue.
-/
namespace FMV
open Arith FMM Spec
variable {F : Type} [Arith F]

/-- same map and same clean flag -/
structure Kept (g g' : Grid F) : Prop where
  map : SameMap g g'
  clean : g'.clean = g.clean

namespace Kept
theorem refl (g : Grid F) : Kept g g := ⟨SameMap.refl g, rfl⟩
theorem trans {a b c : Grid F} (h : Kept a b) (k : Kept b c) : Kept a c := ⟨h.map.trans k.map, k.clean.trans h.clean⟩
theorem setValue {a b : Grid F} (h : Kept a b) (i : Nat) (v : F) : Kept a (b.setValue i v) := h.trans ⟨sameMap_setValue _ _ _, rfl⟩
theorem setState {a b : Grid F} (h : Kept a b) (i : Nat) (v) : Kept a (b.setState i v) := h.trans ⟨sameMap_setState _ _ _, rfl⟩
theorem setH {a b : Grid F} (h : Kept a b) (i : Nat) (v : F) : Kept a (b.setH i v) := h.trans ⟨sameMap_setH _ _ _, rfl⟩
theorem setBucket {a b : Grid F} (h : Kept a b) (i : Nat) (v : Nat) : Kept a (b.setBucket i v) := h.trans ⟨sameMap_setBucket _ _ _, rfl⟩
theorem setScratch {a b : Grid F} (h : Kept a b) (v) : Kept a (b.setScratch v) := h.trans ⟨sameMap_setScratch _ _, rfl⟩
theorem allState {a b : Grid F} (h : Kept a b) (st) : Kept a (FSM.allState st b) := by
  refine h.trans ⟨⟨rfl, rfl, rfl, fun i => ?_, fun i => ?_⟩, rfl⟩
  · show ((if i < b.shape.ncells then _ else _ : Cell F)).occupancy = _
    split <;> rfl
  · show ((if i < b.shape.ncells then _ else _ : Cell F)).index = _
    split <;> rfl

theorem applyHeur {a b : Grid F} (h : Kept a b) (cfg : Cfg F) (i : Nat) : Kept a (FMM.applyHeur cfg b i) := by
  unfold FMM.applyHeur; split
  · exact h
  · exact h.setH _ _
  · exact h.setH _ _

theorem fold {α β : Type} {a : Grid F} (f : β → α → β) (gr : β → Grid F) (hf : ∀ b x, Kept a (gr b) → Kept a (gr (f b x))) (l : List α) (b : β)
    (h : Kept a (gr b)) : Kept a (gr (l.foldl f b)) := foldl_inv (I := fun b => Kept a (gr b)) f l b h (fun b x _ hb => hf b x hb)

/-! FMM -/
theorem fmm_init (cfg : Cfg F) (g : Grid F) (h0 pts : List Nat) : Kept g (FMM.init cfg g h0 pts).g :=
  fold _ (fun s : FMM.St F => s.g) (fun _ _ h => (h.setValue _ _).applyHeur _ _) _ _ (refl g)
theorem fmm_relax {a : Grid F} (cfg : Cfg F) (eik : Eik F) (s : FMM.St F) (j : Nat) (h : Kept a s.g) : Kept a (FMM.relax cfg eik s j).g := by
  unfold FMM.relax; dsimp only
  split
  · exact h
  split
  · split
    · exact ((h.setScratch _).applyHeur _ _).setValue _ _
    · exact (h.setScratch _).applyHeur _ _
  · exact (((h.setScratch _).applyHeur _ _).setState _ _).setValue _ _
theorem fmm_expand {a : Grid F} (cfg : Cfg F) (eik : Eik F) (s : FMM.St F) (x : Nat) (h : Kept a s.g) : Kept a (FMM.expand cfg eik s x).g :=
  fold _ (fun s : FMM.St F => s.g) (fun s j h => fmm_relax cfg eik s j h) _ _ (h.setState _ _)

/-! FSM, LSM -/
theorem fsm_solve {a : Grid F} (goal : Nat) (eik : Eik F) (s : FSM.St F) (i : Nat) (h : Kept a s.g) : Kept a (FSM.solveFSM goal eik s i).g := by
  unfold FSM.solveFSM; dsimp only
  split
  · exact (h.setScratch _).setValue _ _
  split <;> exact h.setScratch _
theorem lsm_solve {a : Grid F} (goal : Nat) (eik : Eik F) (s : FSM.St F) (i : Nat) (h : Kept a s.g) : Kept a (FSM.solveLSM goal eik s i).g := by
  unfold FSM.solveLSM
  split
  · dsimp only
    refine setState ?_ _ _
    split
    · refine fold _ (fun g : Grid F => g) (fun g n h => ?_) _ _ ((h.setScratch _).setValue _ _)
      split
      · exact h.setState _ _
      · exact h
    split <;> exact h.setScratch _
  · exact h
theorem sweep {a : Grid F} {solve : FSM.St F → Nat → FSM.St F} (hs : ∀ s i, Kept a s.g → Kept a (solve s i).g) (s : FSM.St F) (h : Kept a s.g) :
    Kept a (FSM.sweep solve s).g := by
  refine fold _ (fun s : FSM.St F => s.g) (fun s i h => ?_) _ _ h
  unfold FSM.visit
  split
  · exact h
  · exact hs _ _ h
theorem initFSM (g : Grid F) (pts : List Nat) (sw : Nat) (incs : List Int) : Kept g (FSM.initFSM g pts sw incs).g :=
  fold _ (fun g : Grid F => g) (fun _ _ h => h.setValue _ _) _ _ (refl g)
theorem initLSM (g : Grid F) (pts : List Nat) (sw : Nat) (incs : List Int) : Kept g (FSM.initLSM g pts sw incs).g :=
  fold _ (fun g : Grid F => g) (fun _ _ h => fold _ (fun g : Grid F => g) (fun _ _ h => h.setState _ _) _ _ (h.setValue _ _)) _ _ ((refl g).allState _)

/-! DDQM -/
theorem setLow_g (s : DDQM.St F) (q) : (s.setLow q).g = s.g := by unfold DDQM.St.setLow; split <;> rfl
theorem setHigh_g (s : DDQM.St F) (q) : (s.setHigh q).g = s.g := by unfold DDQM.St.setHigh; split <;> rfl
theorem ddqm_init (g : Grid F) (pts : List Nat) (th ths : F) : Kept g (DDQM.init g pts th ths).g := by
  refine fold _ (fun p : Grid F × List Nat => p.1) (fun p i h => ?_) _ _ ((refl g).allState _)
  refine fold _ (fun p : Grid F × List Nat => p.1) (fun p n h => ?_) _ _ (h.setValue _ _)
  unfold DDQM.initNbr
  split
  · exact h
  · exact h.setState _ _
theorem ddqm_openNbr {a : Grid F} (t : F) (s : DDQM.St F) (n : Nat) (h : Kept a s.g) : Kept a (DDQM.openNbr t s n).g := by
  unfold DDQM.openNbr; dsimp only
  split
  · split
    · split
      · rw [setLow_g]; exact h.setState _ _
      · rw [setHigh_g]; exact h.setState _ _
    · exact h
  · exact h
theorem ddqm_next {a : Grid F} (goal : Nat) (eik : Eik F) (s : DDQM.St F) (h : Kept a s.g) : Kept a (DDQM.next goal eik s).g := by
  unfold DDQM.next
  split
  · split
    · unfold DDQM.popBody; dsimp only
      split
      · rw [setLow_g]; exact h
      · dsimp only
        refine setState ?_ _ _
        split
        · refine fold _ (fun s : DDQM.St F => s.g) (fun s n h => ddqm_openNbr _ s n h) _ _ (setValue (setScratch ?_ _) _ _)
          rw [setLow_g]; exact h
        · refine setScratch ?_ _
          rw [setLow_g]; exact h
    · exact h
  · exact h

/-! FIM -/
theorem fim_init (g : Grid F) (act pts : List Nat) : Kept g (FIM.init g act pts).g := by
  refine fold _ (fun p : Grid F × List Nat => p.1) (fun p i h => ?_) _ _ (refl g)
  refine fold _ (fun p : Grid F × List Nat => p.1) (fun p n h => ?_) _ _ ((h.setValue _ _).setState _ _)
  unfold FIM.initNbr
  split
  · exact h.setState _ _
  · exact h
theorem fim_next {a : Grid F} (E : F) (goal : Nat) (eik : Eik F) (s : FIM.St F) (h : Kept a s.g) : Kept a (FIM.next E goal eik s).g := by
  unfold FIM.next
  split
  · unfold FIM.visit; dsimp only
    split
    · refine setState (fold _ (fun s : FIM.St F => s.g) (fun s n h => ?_) _ _ ((h.setScratch _).setValue _ _)) _ _
      unfold FIM.testNbr; dsimp only
      split
      · exact h
      split
      · exact ((h.setScratch _).setValue _ _).setState _ _
      · exact h.setScratch _
    · exact (h.setScratch _).setValue _ _
  · exact h

/-! GMM -/
theorem gmm_init (eik : Eik F) (g : Grid F) (gam pts : List Nat) : Kept g (GMM.init eik g gam pts).g := by
  refine fold _ (fun p : Grid F × List Nat × F => p.1) (fun p i h => ?_) _ _ (refl g)
  refine fold _ (fun p : Grid F × List Nat × F => p.1) (fun p n h => ?_) _ _ ((h.setValue _ _).setState _ _)
  unfold GMM.initNbr; dsimp only
  split
  · exact h
  · exact ((h.setScratch _).setValue _ _).setState _ _
theorem gmm_lower {a : Grid F} (eik : Eik F) (g : Grid F) (j : Nat) (h : Kept a g) : Kept a (GMM.lower eik g j) := by
  unfold GMM.lower; dsimp only
  split
  · exact (h.setScratch _).setValue _ _
  · exact h.setScratch _
theorem gmm_next {a : Grid F} (dt : F) (goal : Nat) (eik : Eik F) (s : GMM.St F) (h : Kept a s.g) : Kept a (GMM.next dt goal eik s).g := by
  unfold GMM.next
  split
  · unfold GMM.visit; dsimp only
    split
    · refine setState (fold _ (fun s : GMM.St F => s.g) (fun s n h => ?_) _ _ h) _ _
      unfold GMM.relax2; dsimp only
      split
      · exact h
      split
      · exact (gmm_lower _ _ _ h).setState _ _
      · exact gmm_lower _ _ _ h
    · exact h
  · unfold GMM.begin GMM.pass1; dsimp only
    refine fold _ (fun g : Grid F => g) (fun g x h => ?_) _ _ h
    split
    · refine fold _ (fun g : Grid F => g) (fun g j h => ?_) _ _ h
      unfold GMM.relax1
      split
      · exact h
      · exact gmm_lower _ _ _ h
    · exact h

/-! UFMM -/
theorem ufmm_init (g : Grid F) (q : UQ F) (pts : List Nat) : Kept g (UFMM.init g q pts).g :=
  fold _ (fun s : UFMM.St F => s.g) (fun _ _ h => (h.setValue _ _).setBucket _ _) _ _ (refl g)
theorem ufmm_expand {a : Grid F} (goal : Nat) (eik : Eik F) (s : UFMM.St F) (x : Nat) (h : Kept a s.g) : Kept a (UFMM.expand goal eik s x).g := by
  refine fold _ (fun s : UFMM.St F => s.g) (fun s j h => ?_) _ _ (h.setState _ _)
  unfold UFMM.relax; dsimp only
  split
  · exact h
  split
  · split
    · exact ((h.setScratch _).setValue _ _).setBucket _ _
    · exact h.setScratch _
  · exact (((h.setScratch _).setState _ _).setValue _ _).setBucket _ _

/-- every terminating `computeInternal` keeps the map and the clean flag -/
theorem runs {pop : FMM.St F → Nat → Prop} {o o' : Obj F} {g g' : Grid F} (h : o.runs pop g g' o') : Kept g g' := by
  unfold Obj.runs at h
  split at h <;> obtain ⟨n, s, hs, _, rfl, _⟩ := h
  · exact Steps.inv (I := fun s : FMM.St F => Kept g s.g) (by rintro s t h ⟨_, x, _, _, rfl⟩; exact fmm_expand _ _ _ _ h) hs (fmm_init _ _ _ _)
  · exact Steps.inv (I := fun s : FSM.St F => Kept g s.g) (by rintro s t h ⟨_, rfl⟩; exact sweep (fsm_solve _ _) _ h) hs (initFSM _ _ _ _)
  · exact Steps.inv (I := fun s : FSM.St F => Kept g s.g) (by rintro s t h ⟨_, rfl⟩; exact sweep (lsm_solve _ _) _ h) hs (initLSM _ _ _ _)
  · exact Steps.inv (I := fun s : DDQM.St F => Kept g s.g) (by rintro s t h ⟨_, rfl⟩; exact ddqm_next _ _ _ h) hs (ddqm_init g o.pts o.threshold o.thStep)
  · exact Steps.inv (I := fun s : FIM.St F => Kept g s.g) (by rintro s t h ⟨_, rfl⟩; exact fim_next _ _ _ _ h) hs (fim_init _ _ _)
  · exact Steps.inv (I := fun s : GMM.St F => Kept g s.g) (by rintro s t h ⟨_, rfl⟩; exact gmm_next _ _ _ _ h) hs (gmm_init _ _ _ _)
  · exact Steps.inv (I := fun s : UFMM.St F => Kept g s.g) (by rintro s t h ⟨_, x, _, rfl⟩; exact ufmm_expand _ _ _ _ h) hs (ufmm_init _ _ _)

end Kept
end FMV
