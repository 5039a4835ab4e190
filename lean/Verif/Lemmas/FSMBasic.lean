import Verif.Lemmas.Improve
import Verif.Props.SweepOrder
/-! Facts about the sweeps of FSM and LSM. -/
set_option linter.unusedSectionVars false
set_option linter.unusedVariables false
namespace FMV
open Spec Shape XR FMM
variable {F : Type} [Arith F]
namespace FSM

/-- what the fixed part of a solver's `solveForIdx` guarantees -/
structure Solver (eik : Eik F) (solve : St F → Nat → St F) : Prop where
  tried : ∀ s i, ∃ b, Tried eik s.g (solve s i).g i b ∧ (solve s i).keep = (s.keep || b)
  sweeps : ∀ s i, (solve s i).sweeps = s.sweeps
  incs : ∀ s i, (solve s i).incs = s.incs

theorem solveFSM_cases (goal : Nat) (eik : Eik F) (s : St F) (i : Nat) :
    (Arith.better (eik s.g i).1 (s.g.value i) = true ∧
      solveFSM goal eik s i = { s with g := (s.g.setScratch (eik s.g i).2).setValue i (eik s.g i).1, keep := true }) ∨
    (Arith.better (eik s.g i).1 (s.g.value i) = false ∧
      solveFSM goal eik s i = { s with g := s.g.setScratch (eik s.g i).2, stop := (solveFSM goal eik s i).stop } ∧
      ((solveFSM goal eik s i).stop = true → s.stop = true ∨ i = goal)) := by
  unfold solveFSM
  cases hb : Arith.better (eik s.g i).1 (s.g.value i) with
  | true => left; simp [hb]
  | false =>
    right
    simp only [hb, if_false, Bool.false_eq_true]
    split
    · next hc => simp at hc; simp [hc]
    · simp; tauto

theorem solveFSM_solver (goal : Nat) (eik : Eik F) : Solver eik (solveFSM goal eik) where
  tried := by
    intro s i
    rcases solveFSM_cases goal eik s i with ⟨hb, e⟩ | ⟨hb, e, _⟩
    · refine ⟨true, ⟨?_, ?_, ?_, by simp⟩, by rw [e]; simp⟩
      · rw [e]; exact (sameMap_setScratch _ _).trans (sameMap_setValue _ _ _)
      · intro k hk; rw [e]; simp [Grid.value_setValue, hk]
      · intro _; rw [e]; simp [Grid.value_setValue, hb]
    · refine ⟨false, ⟨?_, ?_, by simp, ?_⟩, by rw [e]; simp⟩
      · rw [e]; exact sameMap_setScratch _ _
      · intro k hk; rw [e]; simp
      · intro _; rw [e]; simp
  sweeps := by
    intro s i
    rcases solveFSM_cases goal eik s i with ⟨hb, e⟩ | ⟨hb, e, _⟩ <;> rw [e]
  incs := by
    intro s i
    rcases solveFSM_cases goal eik s i with ⟨hb, e⟩ | ⟨hb, e, _⟩ <;> rw [e]

/-! ### LSM -/

/-- the loop unlocking the neighbours -/
def unlock (t : F) (g : Grid F) (ns : List Nat) : Grid F :=
  ns.foldl (fun g n => if Arith.better t (g.value n) then g.setState n .opn else g) g

theorem unlock_sameMap (t : F) (ns : List Nat) : ∀ g : Grid F, SameMap g (unlock t g ns) := by
  induction ns with
  | nil => exact fun g => SameMap.refl g
  | cons n ns ih =>
    intro g
    show SameMap g (unlock t _ ns)
    refine SameMap.trans ?_ (ih _)
    dsimp only
    split
    · exact sameMap_setState _ _ _
    · exact SameMap.refl _

theorem unlock_value (t : F) (ns : List Nat) : ∀ (g : Grid F) (k : Nat), (unlock t g ns).value k = g.value k := by
  induction ns with
  | nil => exact fun g k => rfl
  | cons n ns ih =>
    intro g k
    show (unlock t _ ns).value k = _
    rw [ih]
    dsimp only
    split
    · simp
    · rfl

theorem unlock_state (t : F) (ns : List Nat) : ∀ (g : Grid F) (k : Nat),
    (unlock t g ns).state k = if k ∈ ns ∧ Arith.better t (g.value k) = true then .opn else g.state k := by
  induction ns with
  | nil => intro g k; simp [unlock]
  | cons n ns ih =>
    intro g k
    show (unlock t _ ns).state k = _
    rw [ih]
    by_cases hkn : k = n
    · subst hkn
      by_cases hb : Arith.better t (g.value k) = true
      · simp [hb, Grid.state_setState]
      · simp [hb]
    · have : (if Arith.better t (g.value n) = true then g.setState n .opn else g).state k = g.state k := by
        split
        · simp [Grid.state_setState, hkn]
        · rfl
      rw [this]
      have : (if Arith.better t (g.value n) = true then g.setState n .opn else g).value k = g.value k := by
        split
        · simp
        · rfl
      rw [this]
      simp [hkn]

theorem solveLSM_cases (goal : Nat) (eik : Eik F) (s : St F) (i : Nat) :
    (s.g.state i ≠ .opn ∧ solveLSM goal eik s i = s) ∨
    (s.g.state i = .opn ∧ Arith.better (eik s.g i).1 (s.g.value i) = true ∧
      solveLSM goal eik s i = { s with
        g := (unlock (eik s.g i).1 ((s.g.setScratch (eik s.g i).2).setValue i (eik s.g i).1) (s.g.shape.nbrs i)).setState i .frozen,
        keep := true }) ∨
    (s.g.state i = .opn ∧ Arith.better (eik s.g i).1 (s.g.value i) = false ∧
      solveLSM goal eik s i = { s with g := (s.g.setScratch (eik s.g i).2).setState i .frozen, stop := (solveLSM goal eik s i).stop } ∧
      ((solveLSM goal eik s i).stop = true → s.stop = true ∨ i = goal)) := by
  unfold solveLSM
  by_cases hs : s.g.state i = .opn
  · right
    cases hb : Arith.better (eik s.g i).1 (s.g.value i) with
    | true => left; simp [hb, hs]; rfl
    | false =>
      right
      simp only [hb, hs, if_true, if_false, Bool.false_eq_true]
      split
      · next hc => simp at hc; simp [hc]
      · simp; tauto
  · left; simp [hs]

theorem solveLSM_solver (goal : Nat) (eik : Eik F) : Solver eik (solveLSM goal eik) where
  tried := by
    intro s i
    rcases solveLSM_cases goal eik s i with ⟨_, e⟩ | ⟨_, hb, e⟩ | ⟨_, hb, e, _⟩
    · exact ⟨false, ⟨by rw [e]; exact SameMap.refl _, fun _ _ => by rw [e], by simp, fun _ => by rw [e]⟩, by rw [e]; simp⟩
    · refine ⟨true, ⟨?_, ?_, ?_, by simp⟩, by rw [e]; simp⟩
      · rw [e]
        exact (((sameMap_setScratch _ _).trans (sameMap_setValue _ _ _)).trans (unlock_sameMap _ _ _)).trans (sameMap_setState _ _ _)
      · intro k hk; rw [e]; simp [Grid.value_setValue, unlock_value, hk]
      · intro _; rw [e]; simp [Grid.value_setValue, unlock_value, hb]
    · refine ⟨false, ⟨?_, ?_, by simp, ?_⟩, by rw [e]; simp⟩
      · rw [e]; exact (sameMap_setScratch _ _).trans (sameMap_setState _ _ _)
      · intro k hk; rw [e]; simp
      · intro _; rw [e]; simp
  sweeps := by
    intro s i
    rcases solveLSM_cases goal eik s i with ⟨_, e⟩ | ⟨_, hb, e⟩ | ⟨_, hb, e, _⟩ <;> rw [e]
  incs := by
    intro s i
    rcases solveLSM_cases goal eik s i with ⟨_, e⟩ | ⟨_, hb, e⟩ | ⟨_, hb, e, _⟩ <;> rw [e]

/-! ### sweeps -/

variable {eik : Eik F} {solve : St F → Nat → St F}

/-- state at the beginning of the iteration over the cells -/
def begun (s : St F) : St F := { s with keep := false, incs := bump s.incs, sweeps := u32 (s.sweeps + 1) }

theorem sweep_eq (s : St F) : sweep solve s = (sweepOrder s.g.shape.dims (bump s.incs)).foldl (visit solve) (begun s) := rfl

theorem visit_cases (s : St F) (i : Nat) :
    (s.g.occ i = true ∧ visit solve s i = s) ∨ (s.g.occ i = false ∧ visit solve s i = solve s i) := by
  unfold visit
  cases s.g.occ i <;> simp

/-- induction over a sweep -/
theorem sweep_inv {I : St F → Prop} (s : St F) (h0 : I (begun s))
    (h : ∀ t i, i ∈ sweepOrder s.g.shape.dims (bump s.incs) → I t → t.g.occ i = false → I (solve t i)) : I (sweep solve s) := by
  rw [sweep_eq]
  apply foldl_inv (I := I) _ _ _ h0
  intro t i hi ht
  rcases visit_cases (solve := solve) t i with ⟨_, e⟩ | ⟨ho, e⟩ <;> rw [e]
  · exact ht
  · exact h t i hi ht ho

theorem Solver.sameMap (S : Solver eik solve) (s : St F) (i : Nat) : SameMap s.g (solve s i).g := by
  obtain ⟨b, h, _⟩ := S.tried s i; exact h.map

theorem Solver.sweep_sameMap (S : Solver eik solve) (s : St F) : SameMap s.g (sweep solve s).g := by
  refine sweep_inv (I := fun t => SameMap s.g t.g) s (SameMap.refl _) ?_
  intro t i _ ht _
  exact ht.trans (S.sameMap t i)

theorem Solver.sweep_sweeps (S : Solver eik solve) (s : St F) : (sweep solve s).sweeps = u32 (s.sweeps + 1) :=
  sweep_inv (I := fun t => t.sweeps = u32 (s.sweeps + 1)) s rfl (fun t i _ ht _ => by rw [S.sweeps]; exact ht)

theorem Solver.sweep_incs (S : Solver eik solve) (s : St F) : (sweep solve s).incs = bump s.incs :=
  sweep_inv (I := fun t => t.incs = bump s.incs) s rfl (fun t i _ ht _ => by rw [S.incs]; exact ht)

theorem bump_isDirs {n : Nat} {incs : List Int} (h : IsDirs n incs) : IsDirs n (bump incs) := by
  obtain ⟨m, _, rfl⟩ := exists_dirsOf _ h
  rw [bump_dirsOf]; exact isDirs_dirsOf _ _

theorem incs0_isDirs (dims : List Nat) : IsDirs dims.length (incs0 dims) := by
  unfold incs0
  exact ⟨by simp, fun x hx => Or.inl (List.eq_of_mem_replicate hx)⟩

/-- run invariants -/
theorem Solver.run_inv (S : Solver eik solve) {m n : Nat} {s t : St F} (hs : Steps (Step m solve) n s t)
    {dims : List Nat} (hsh : s.g.shape = Shape.mk' dims) (hd : IsDirs dims.length s.incs) :
    SameMap s.g t.g ∧ t.g.shape = Shape.mk' dims ∧ IsDirs dims.length t.incs := by
  refine Steps.inv (I := fun t : St F => SameMap s.g t.g ∧ t.g.shape = Shape.mk' dims ∧ IsDirs dims.length t.incs) ?_ hs
    ⟨SameMap.refl _, hsh, hd⟩
  rintro a b ⟨h1, h2, h3⟩ ⟨_, rfl⟩
  have := S.sweep_sameMap a
  exact ⟨h1.trans this, this.shape.trans h2, by rw [S.sweep_incs]; exact bump_isDirs h3⟩

theorem mem_sweepOrder {dims : List Nat} (hne : dims ≠ []) {incs : List Int} (hd : IsDirs dims.length incs) {i : Nat} :
    i ∈ sweepOrder dims incs ↔ i < dims.prod := by
  rw [(C21_sweep_visits_each_once dims hne incs hd).mem_iff]; simp

/-- induction over a run, cell by cell: `J` must hold at the start, be kept by every visit of a free cell, and not depend on the counters -/
theorem Solver.run_grid (S : Solver eik solve) {m n : Nat} {s t : St F} (hs : Steps (Step m solve) n s t)
    {dims : List Nat} (hne : dims ≠ []) (hsh : s.g.shape = Shape.mk' dims) (hd : IsDirs dims.length s.incs) {J : Grid F → Prop} (h0 : J s.g)
    (h : ∀ t i, i < dims.prod → J t.g → t.g.occ i = false → J (solve t i).g) : J t.g := by
  have : J t.g ∧ t.g.shape = Shape.mk' dims ∧ IsDirs dims.length t.incs := by
    refine Steps.inv (I := fun t : St F => J t.g ∧ t.g.shape = Shape.mk' dims ∧ IsDirs dims.length t.incs) ?_ hs ⟨h0, hsh, hd⟩
    rintro a b ⟨h1, h2, h3⟩ ⟨_, rfl⟩
    refine ⟨?_, (S.sweep_sameMap a).shape.trans h2, by rw [S.sweep_incs]; exact bump_isDirs h3⟩
    refine sweep_inv (I := fun t => J t.g) a h1 ?_
    intro t i hi ht ho
    rw [h2] at hi
    exact h t i ((mem_sweepOrder hne (bump_isDirs h3)).1 hi) ht ho
  exact this.1

/-! ### initialisation -/

theorem zeroPts_sameMap (pts : List Nat) : ∀ g : Grid F, SameMap g (pts.foldl (fun g i => g.setValue i Arith.zero) g) := by
  induction pts with
  | nil => exact fun g => SameMap.refl g
  | cons p ps ih => intro g; exact (sameMap_setValue g p Arith.zero).trans (ih _)

theorem zeroPts_value (pts : List Nat) : ∀ (g : Grid F) (k : Nat),
    (pts.foldl (fun g i => g.setValue i Arith.zero) g).value k = if k ∈ pts then Arith.zero else g.value k := by
  induction pts with
  | nil => intro g k; simp
  | cons p ps ih =>
    intro g k
    rw [List.foldl_cons, ih, Grid.value_setValue]
    by_cases h1 : k ∈ ps <;> by_cases h2 : k = p <;> simp [h1, h2]

theorem initFSM_sameMap (g : Grid F) (pts : List Nat) (sw : Nat) (incs : List Int) : SameMap g (initFSM g pts sw incs).g :=
  zeroPts_sameMap _ _

theorem initFSM_value (g : Grid F) (pts : List Nat) (sw : Nat) (incs : List Int) (k : Nat) :
    (initFSM g pts sw incs).g.value k = if k ∈ pts then Arith.zero else g.value k := zeroPts_value _ _ _

theorem allState_sameMap (st : FMState) (g : Grid F) : SameMap g (allState st g) := by
  refine ⟨rfl, rfl, rfl, fun i => ?_, fun i => ?_⟩ <;> unfold allState <;> dsimp only <;> split <;> rfl
theorem allState_value (st : FMState) (g : Grid F) (k : Nat) : (allState st g).value k = g.value k := by
  unfold allState Grid.value; dsimp only; split <;> rfl
theorem allState_state (st : FMState) (g : Grid F) (k : Nat) :
    (allState st g).state k = if k < g.shape.ncells then st else g.state k := by
  unfold allState Grid.state; dsimp only; split <;> rfl

/-- `for n in ns: setState(n, OPEN)` -/
def openAll (ns : List Nat) (g : Grid F) : Grid F := ns.foldl (fun g n => g.setState n .opn) g
theorem openAll_sameMap (ns : List Nat) : ∀ g : Grid F, SameMap g (openAll ns g) := by
  induction ns with
  | nil => exact fun g => SameMap.refl g
  | cons p ps ih => intro g; exact (sameMap_setState g p .opn).trans (ih _)
theorem openAll_value (ns : List Nat) : ∀ (g : Grid F) (k : Nat), (openAll ns g).value k = g.value k := by
  induction ns with
  | nil => exact fun g k => rfl
  | cons p ps ih => intro g k; show (openAll ps _).value k = _; rw [ih]; simp
theorem openAll_state (ns : List Nat) : ∀ (g : Grid F) (k : Nat), (openAll ns g).state k = if k ∈ ns then .opn else g.state k := by
  induction ns with
  | nil => intro g k; simp [openAll]
  | cons p ps ih =>
    intro g k; show (openAll ps _).state k = _; rw [ih, Grid.state_setState]
    by_cases h1 : k ∈ ps <;> by_cases h2 : k = p <;> simp [h1, h2]

theorem initPointLSM_eq (g : Grid F) (i : Nat) : initPointLSM g i = openAll (g.shape.nbrs i) (g.setValue i Arith.zero) := rfl

theorem initPts_sameMap (pts : List Nat) : ∀ g : Grid F, SameMap g (pts.foldl initPointLSM g) := by
  induction pts with
  | nil => exact fun g => SameMap.refl g
  | cons p ps ih =>
    intro g
    exact ((sameMap_setValue g p Arith.zero).trans (openAll_sameMap _ _)).trans (ih _)

theorem initPts_value (pts : List Nat) : ∀ (g : Grid F) (k : Nat),
    (pts.foldl initPointLSM g).value k = if k ∈ pts then Arith.zero else g.value k := by
  induction pts with
  | nil => intro g k; simp
  | cons p ps ih =>
    intro g k
    rw [List.foldl_cons, ih, initPointLSM_eq, openAll_value, Grid.value_setValue]
    by_cases h1 : k ∈ ps <;> by_cases h2 : k = p <;> simp [h1, h2]

theorem initPts_state (pts : List Nat) : ∀ (g : Grid F) (k : Nat),
    (pts.foldl initPointLSM g).state k = if ∃ p ∈ pts, k ∈ g.shape.nbrs p then .opn else g.state k := by
  induction pts with
  | nil => intro g k; simp
  | cons p ps ih =>
    intro g k
    have hsh : (initPointLSM g p).shape = g.shape := ((sameMap_setValue g p Arith.zero).trans (openAll_sameMap _ _)).shape
    rw [List.foldl_cons, ih, hsh, initPointLSM_eq, openAll_state, Grid.state_setValue]
    by_cases h1 : ∃ q ∈ ps, k ∈ g.shape.nbrs q <;> by_cases h2 : k ∈ g.shape.nbrs p <;> simp [h1, h2]

theorem initLSM_sameMap (g : Grid F) (pts : List Nat) (sw : Nat) (incs : List Int) : SameMap g (initLSM g pts sw incs).g :=
  (allState_sameMap _ _).trans (initPts_sameMap _ _)

theorem initLSM_value (g : Grid F) (pts : List Nat) (sw : Nat) (incs : List Int) (k : Nat) :
    (initLSM g pts sw incs).g.value k = if k ∈ pts then Arith.zero else g.value k := by
  show (pts.foldl initPointLSM _).value k = _
  rw [initPts_value, allState_value]

theorem initLSM_state (g : Grid F) (pts : List Nat) (sw : Nat) (incs : List Int) (k : Nat) (hk : k < g.shape.ncells) :
    (initLSM g pts sw incs).g.state k = if ∃ p ∈ pts, k ∈ g.shape.nbrs p then .opn else .frozen := by
  show (pts.foldl initPointLSM _).state k = _
  rw [initPts_state, allState_state, if_pos hk]; rfl

end FSM
end FMV
