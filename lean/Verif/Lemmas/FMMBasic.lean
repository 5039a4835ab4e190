import Verif.Model.FMM
import Verif.Lemmas.MapBasic
/-! structural facts about FMM steps (any arithmetic) -/
set_option linter.unusedSectionVars false
set_option linter.unusedVariables false
namespace FMV
open Spec Arith
variable {F : Type} [Arith F]
namespace FMM

theorem applyHeur_sameMap (cfg : Cfg F) (g : Grid F) (i : Nat) : SameMap g (applyHeur cfg g i) := by
  unfold applyHeur; split
  · exact SameMap.refl _
  · exact sameMap_setH _ _ _
  · exact sameMap_setH _ _ _

@[simp] theorem applyHeur_shape (cfg : Cfg F) (g : Grid F) (i : Nat) : (applyHeur cfg g i).shape = g.shape :=
  (applyHeur_sameMap cfg g i).shape
@[simp] theorem applyHeur_value (cfg : Cfg F) (g : Grid F) (i k : Nat) : (applyHeur cfg g i).value k = g.value k := by
  unfold applyHeur; split <;> simp
@[simp] theorem applyHeur_state (cfg : Cfg F) (g : Grid F) (i k : Nat) : (applyHeur cfg g i).state k = g.state k := by
  unfold applyHeur; split <;> simp
theorem applyHeur_cells_ne (cfg : Cfg F) (g : Grid F) {i k : Nat} (h : k ≠ i) :
    (applyHeur cfg g i).cells k = g.cells k := by
  unfold applyHeur; split
  · rfl
  · exact cells_setH_ne _ _ h
  · exact cells_setH_ne _ _ h

/-! #### initialisation -/

theorem initPoint_sameMap (cfg : Cfg F) (s : St F) (i : Nat) : SameMap s.g (initPoint cfg s i).g :=
  (sameMap_setValue _ _ _).trans (applyHeur_sameMap _ _ _)

theorem init_sameMap (cfg : Cfg F) (g : Grid F) (heap0 pts : List Nat) : SameMap g (init cfg g heap0 pts).g := by
  unfold init
  exact foldl_inv (I := fun s : St F => SameMap g s.g) _ _ _ (SameMap.refl _)
    (fun s i _ h => h.trans (initPoint_sameMap cfg s i))

theorem init_heap_foldl (cfg : Cfg F) (pts : List Nat) : ∀ (s : St F),
    (pts.foldl (initPoint cfg) s).heap = pts.reverse ++ s.heap ∧ (pts.foldl (initPoint cfg) s).stop = s.stop := by
  induction pts with
  | nil => intro s; simp
  | cons i pts ih => intro s; simp only [List.foldl_cons]; rw [(ih _).1, (ih _).2]; simp [initPoint]

theorem init_heap (cfg : Cfg F) (g : Grid F) (heap0 pts : List Nat) :
    (init cfg g heap0 pts).heap = pts.reverse ++ heap0 := (init_heap_foldl cfg pts _).1
theorem init_stop (cfg : Cfg F) (g : Grid F) (heap0 pts : List Nat) :
    (init cfg g heap0 pts).stop = false := (init_heap_foldl cfg pts _).2

theorem init_state (cfg : Cfg F) (g : Grid F) (heap0 pts : List Nat) (k : Nat) :
    (init cfg g heap0 pts).g.state k = g.state k := by
  unfold init
  exact foldl_inv (I := fun s : St F => s.g.state k = g.state k) _ _ _ rfl
    (fun s i _ h => by simpa [initPoint] using h)

theorem init_value_foldl (cfg : Cfg F) (pts : List Nat) (k : Nat) : ∀ (s : St F),
    (pts.foldl (initPoint cfg) s).g.value k = if k ∈ pts then zero else s.g.value k := by
  induction pts with
  | nil => intro s; simp
  | cons i pts ih =>
    intro s
    rw [List.foldl_cons, ih]
    by_cases h1 : k ∈ pts
    · simp [h1]
    · by_cases h2 : k = i
      · simp [h1, h2, initPoint, Grid.value_setValue]
      · simp [h1, h2, initPoint, Grid.value_setValue]

theorem init_value (cfg : Cfg F) (g : Grid F) (heap0 pts : List Nat) (k : Nat) :
    (init cfg g heap0 pts).g.value k = if k ∈ pts then zero else g.value k := init_value_foldl _ _ _ _

/-! #### relax -/

theorem relax_sameMap (cfg : Cfg F) (eik : Eik F) (s : St F) (j : Nat) : SameMap s.g (relax cfg eik s j).g := by
  unfold relax
  split
  · exact SameMap.refl _
  · dsimp only
    split
    · split
      · exact ((sameMap_setScratch _ _).trans (applyHeur_sameMap _ _ _)).trans (sameMap_setValue _ _ _)
      · exact (sameMap_setScratch _ _).trans (applyHeur_sameMap _ _ _)
    · exact (((sameMap_setScratch _ _).trans (applyHeur_sameMap _ _ _)).trans (sameMap_setState _ _ _)).trans (sameMap_setValue _ _ _)

theorem relax_skip {cfg : Cfg F} {eik : Eik F} {s : St F} {j : Nat} (h : s.g.state j = .frozen ∨ s.g.occ j = true) :
    relax cfg eik s j = s := by unfold relax; rw [if_pos h]

theorem relax_cells_ne {cfg : Cfg F} {eik : Eik F} {s : St F} {j k : Nat} (h : k ≠ j) :
    (relax cfg eik s j).g.cells k = s.g.cells k := by
  unfold relax
  split
  · rfl
  · dsimp only
    split
    · split
      · rw [cells_setValue_ne _ _ h, applyHeur_cells_ne _ _ h, Grid.setScratch_cells]
      · exact (applyHeur_cells_ne _ _ h).trans (by rw [Grid.setScratch_cells])
    · rw [cells_setValue_ne _ _ h, cells_setState_ne _ _ h, applyHeur_cells_ne _ _ h, Grid.setScratch_cells]

/-- frozen and occupied cells are not touched by `relax` -/
theorem relax_cells_protected {cfg : Cfg F} {eik : Eik F} {s : St F} {j k : Nat}
    (h : s.g.state k = .frozen ∨ s.g.occ k = true) : (relax cfg eik s j).g.cells k = s.g.cells k := by
  by_cases hk : k = j
  · subst hk; rw [relax_skip h]
  · exact relax_cells_ne hk

@[simp] theorem relax_stop (cfg : Cfg F) (eik : Eik F) (s : St F) (j : Nat) : (relax cfg eik s j).stop = s.stop := by
  unfold relax
  split
  · rfl
  · dsimp only
    split
    · split <;> rfl
    · rfl

/-- the four outcomes of `relax` -/
theorem relax_cases (cfg : Cfg F) (eik : Eik F) (s : St F) (j : Nat) :
    ((s.g.state j = .frozen ∨ s.g.occ j = true) ∧ relax cfg eik s j = s) ∨
    (s.g.occ j = false ∧ s.g.state j = .narrow ∧ better (eik s.g j).1 (s.g.value j) = true ∧
      relax cfg eik s j = { s with g := (applyHeur cfg (s.g.setScratch (eik s.g j).2) j).setValue j (eik s.g j).1,
                                   heap := if cfg.dup then j :: s.heap else s.heap }) ∨
    (s.g.occ j = false ∧ s.g.state j = .narrow ∧ better (eik s.g j).1 (s.g.value j) = false ∧
      relax cfg eik s j = { s with g := applyHeur cfg (s.g.setScratch (eik s.g j).2) j }) ∨
    (s.g.occ j = false ∧ s.g.state j = .opn ∧
      relax cfg eik s j = { s with g := ((applyHeur cfg (s.g.setScratch (eik s.g j).2) j).setState j .narrow).setValue j (eik s.g j).1,
                                   heap := j :: s.heap }) := by
  by_cases h : s.g.state j = .frozen ∨ s.g.occ j = true
  · left; exact ⟨h, relax_skip h⟩
  · right
    have hocc : s.g.occ j = false := by
      cases ho : s.g.occ j
      · rfl
      · exact absurd (Or.inr ho) h
    unfold relax
    rw [if_neg h]
    dsimp only
    by_cases hn : s.g.state j = .narrow
    · rw [if_pos hn]
      by_cases hb : better (eik s.g j).1 (s.g.value j) = true
      · left; rw [if_pos hb]; exact ⟨hocc, hn, hb, rfl⟩
      · right; left; rw [if_neg hb]; exact ⟨hocc, hn, by simpa using hb, rfl⟩
    · right; right
      rw [if_neg hn]
      refine ⟨hocc, ?_, rfl⟩
      cases hs : s.g.state j
      · rfl
      · exact absurd hs hn
      · exact absurd (Or.inl hs) h

/-- state after `relax` -/
theorem relax_state (cfg : Cfg F) (eik : Eik F) (s : St F) (j k : Nat) :
    (relax cfg eik s j).g.state k =
      if k = j ∧ s.g.state j = .opn ∧ s.g.occ j = false then .narrow else s.g.state k := by
  rcases relax_cases cfg eik s j with ⟨h, e⟩ | ⟨ho, hn, _, e⟩ | ⟨ho, hn, _, e⟩ | ⟨ho, hn, e⟩ <;> rw [e]
  · rw [if_neg]
    rintro ⟨_, h1, h2⟩
    rcases h with h | h
    · rw [h] at h1; cases h1
    · rw [h] at h2; cases h2
  · simp only [Grid.state_setValue, applyHeur_state, Grid.state_setScratch]; rw [if_neg (by rintro ⟨_, h1, _⟩; rw [hn] at h1; cases h1)]
  · rw [if_neg (by rintro ⟨_, h1, _⟩; rw [hn] at h1; cases h1)]; simp
  · by_cases hk : k = j
    · subst hk; simp [hn, ho, Grid.state_setState]
    · simp [hk, Grid.state_setState]

/-- elements of the heap after `relax` -/
theorem relax_heap_mem {cfg : Cfg F} {eik : Eik F} {s : St F} {j y : Nat} (h : y ∈ (relax cfg eik s j).heap) :
    y ∈ s.heap ∨ (y = j ∧ s.g.occ j = false) := by
  rcases relax_cases cfg eik s j with ⟨_, e⟩ | ⟨ho, hn, _, e⟩ | ⟨ho, hn, _, e⟩ | ⟨ho, hn, e⟩ <;> rw [e] at h
  · exact Or.inl h
  · dsimp only at h
    split at h
    · rcases List.mem_cons.1 h with rfl | h
      · exact Or.inr ⟨rfl, ho⟩
      · exact Or.inl h
    · exact Or.inl h
  · exact Or.inl h
  · rcases List.mem_cons.1 h with rfl | h
    · exact Or.inr ⟨rfl, ho⟩
    · exact Or.inl h

theorem relax_heap_sub {cfg : Cfg F} {eik : Eik F} {s : St F} {j y : Nat} (h : y ∈ s.heap) : y ∈ (relax cfg eik s j).heap := by
  rcases relax_cases cfg eik s j with ⟨_, e⟩ | ⟨ho, hn, _, e⟩ | ⟨ho, hn, _, e⟩ | ⟨ho, hn, e⟩ <;> rw [e]
  · exact h
  · dsimp only; split
    · exact List.mem_cons_of_mem _ h
    · exact h
  · exact h
  · exact List.mem_cons_of_mem _ h

/-! #### expand -/

/-- the state after popping `x` and marking it FROZEN, before the neighbours are visited -/
def popped (s : St F) (x : Nat) : St F := { s with g := s.g.setState x .frozen, heap := s.heap.erase x }

theorem expand_eq (cfg : Cfg F) (eik : Eik F) (s : St F) (x : Nat) :
    expand cfg eik s x = { (s.g.shape.nbrs x).foldl (relax cfg eik) (popped s x) with
      stop := if x = cfg.goal then true else s.stop } := by
  have : ((s.g.shape.nbrs x).foldl (relax cfg eik) (popped s x)).stop = s.stop :=
    foldl_inv (I := fun t : St F => t.stop = s.stop) _ _ _ rfl (fun t j _ h => by rw [relax_stop]; exact h)
  unfold expand
  dsimp only
  have e : ({ s with g := s.g.setState x .frozen, heap := s.heap.erase x } : St F) = popped s x := rfl
  rw [e, this]

theorem expand_g (cfg : Cfg F) (eik : Eik F) (s : St F) (x : Nat) :
    (expand cfg eik s x).g = ((s.g.shape.nbrs x).foldl (relax cfg eik) (popped s x)).g := rfl
theorem expand_heap (cfg : Cfg F) (eik : Eik F) (s : St F) (x : Nat) :
    (expand cfg eik s x).heap = ((s.g.shape.nbrs x).foldl (relax cfg eik) (popped s x)).heap := rfl

/-- invariant rule for `expand` -/
theorem expand_inv {I : St F → Prop} (cfg : Cfg F) (eik : Eik F) (s : St F) (x : Nat)
    (hstop : ∀ t b, I t → I { t with stop := b })
    (h0 : I (popped s x)) (h : ∀ t j, j ∈ s.g.shape.nbrs x → I t → I (relax cfg eik t j)) : I (expand cfg eik s x) := by
  rw [expand_eq]
  exact hstop _ _ (foldl_inv _ _ _ h0 h)

theorem popped_sameMap (s : St F) (x : Nat) : SameMap s.g (popped s x).g := sameMap_setState _ _ _

theorem expand_sameMap (cfg : Cfg F) (eik : Eik F) (s : St F) (x : Nat) : SameMap s.g (expand cfg eik s x).g :=
  expand_inv (I := fun t : St F => SameMap s.g t.g) cfg eik s x (fun _ _ h => h) (popped_sameMap s x)
    (fun t j _ h => h.trans (relax_sameMap cfg eik t j))

/-- `expand` does not touch frozen cells -/
theorem expand_frozen {cfg : Cfg F} {eik : Eik F} {s : St F} {x k : Nat} (hk : s.g.state k = .frozen) :
    (expand cfg eik s x).g.cells k = s.g.cells k := by
  have h0 : (popped s x).g.cells k = s.g.cells k := by
    show (s.g.setState x .frozen).cells k = _
    rw [Grid.setState, Grid.modify_cells]
    split
    · unfold Grid.state at hk; rw [← hk]
    · rfl
  apply expand_inv (I := fun t : St F => t.g.cells k = s.g.cells k) cfg eik s x (fun _ _ h => h) h0
  intro t j _ h
  rw [relax_cells_protected, h]
  left; unfold Grid.state; rw [h]; exact hk

/-- `expand` does not change the value of occupied cells -/
theorem expand_occ_value {cfg : Cfg F} {eik : Eik F} {s : St F} {x k : Nat} (hk : s.g.occ k = true) :
    (expand cfg eik s x).g.value k = s.g.value k := by
  have := expand_inv (I := fun t : St F => t.g.value k = s.g.value k ∧ t.g.occ k = true) cfg eik s x (fun _ _ h => h)
    (by simp [popped, hk])
    (by intro t j _ h
        have e : (relax cfg eik t j).g.cells k = t.g.cells k := relax_cells_protected (Or.inr h.2)
        unfold Grid.value Grid.occ at *
        rw [e]; exact h)
  exact this.1

theorem expand_x_frozen {cfg : Cfg F} {eik : Eik F} {s : St F} {x : Nat} :
    (expand cfg eik s x).g.state x = .frozen := by
  apply expand_inv (I := fun t : St F => t.g.state x = .frozen) cfg eik s x (fun _ _ h => h)
    (by simp [popped, Grid.state_setState])
  intro t j _ h
  unfold Grid.state at *
  rw [relax_cells_protected (Or.inl h)]; exact h

theorem expand_frozen_iff {cfg : Cfg F} {eik : Eik F} {s : St F} {x k : Nat} :
    (expand cfg eik s x).g.state k = .frozen ↔ s.g.state k = .frozen ∨ k = x := by
  have := expand_inv (I := fun t : St F => t.g.state k = .frozen ↔ s.g.state k = .frozen ∨ k = x) cfg eik s x (fun _ _ h => h)
    (by simp only [popped, Grid.state_setState]; split <;> simp [*])
    (by intro t j _ h
        rw [relax_state, ← h]
        split
        · next hh => rw [hh.1, hh.2.1]; simp
        · rfl)
  exact this

end FMM
end FMV
