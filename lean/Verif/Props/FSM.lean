import Verif.Lemmas.FSMBasic
import Verif.Lemmas.Lock
/-!
# FSM and LSM

C10, C11, C18, C20, C25 for both; C23, C24 (FSM), C26 (LSM): termination, fixed point; accuracy (used for C28).
`sw` and `incs` are the sweep counter and directions left in the solver object by earlier calls (`0` and `incs0` after setup).
-/
set_option linter.unusedSectionVars false
set_option linter.unusedVariables false
namespace FMV
open Spec Shape XR FMM
variable {F : Type} [Arith F]
namespace FSM

/-! ## C20, C11, C25: any floating-point semantics, any local solver, with or without goal -/

theorem Solver.keeps_map {eik : Eik F} {solve : St F → Nat → St F} (S : Solver eik solve) {m n : Nat} {s t : St F}
    (hs : Steps (Step m solve) n s t) : SameMap s.g t.g := by
  refine Steps.inv (I := fun t : St F => SameMap s.g t.g) ?_ hs (SameMap.refl _)
  rintro a b h ⟨_, rfl⟩
  exact h.trans (S.sweep_sameMap a)

theorem Solver.obstacle {eik : Eik F} {solve : St F → Nat → St F} (S : Solver eik solve) {m n : Nat} {s t : St F}
    (hs : Steps (Step m solve) n s t) {i : Nat} (ho : s.g.occ i = true) : t.g.value i = s.g.value i := by
  have := Steps.inv (I := fun t : St F => t.g.value i = s.g.value i ∧ t.g.occ i = true) (r := Step m solve) ?_ hs ⟨rfl, ho⟩
  · exact this.1
  · rintro a b h ⟨_, rfl⟩
    refine sweep_inv (I := fun t : St F => t.g.value i = s.g.value i ∧ t.g.occ i = true) a h ?_
    intro t k _ ht hk
    have hne : i ≠ k := by rintro rfl; rw [ht.2] at hk; cases hk
    obtain ⟨b, hT, _⟩ := S.tried t k
    exact ⟨by rw [hT.other i hne]; exact ht.1, by rw [SameMap.occ_eq hT.map]; exact ht.2⟩

theorem Solver.lower (L : MarginLaws F) {eik : Eik F} {solve : St F → Nat → St F} (S : Solver eik solve) {m n : Nat} {s t : St F}
    (hs : Steps (Step m solve) n s t) : Lower s.g t.g := by
  refine Steps.inv (I := fun t : St F => Lower s.g t.g) ?_ hs (Lower.refl _)
  rintro a b h ⟨_, rfl⟩
  refine sweep_inv (I := fun t : St F => Lower s.g t.g) a h ?_
  intro t k _ ht _
  obtain ⟨b, hT, _⟩ := S.tried t k
  exact ht.trans L hT.lower

/-- **C20** for FSM -/
theorem _root_.FMV.C20_FSM (goal m : Nat) (eik : Eik F) (g : Grid F) (pts : List Nat) (sw : Nat) (incs : List Int) (n : Nat) (s : St F)
    (hs : Steps (Step m (solveFSM goal eik)) n (initFSM g pts sw incs) s) : SameMap g s.g :=
  (initFSM_sameMap g pts sw incs).trans ((solveFSM_solver goal eik).keeps_map hs)

/-- **C20** for LSM -/
theorem _root_.FMV.C20_LSM (goal m : Nat) (eik : Eik F) (g : Grid F) (pts : List Nat) (sw : Nat) (incs : List Int) (n : Nat) (s : St F)
    (hs : Steps (Step m (solveLSM goal eik)) n (initLSM g pts sw incs) s) : SameMap g s.g :=
  (initLSM_sameMap g pts sw incs).trans ((solveLSM_solver goal eik).keeps_map hs)

/-- **C11** for FSM -/
theorem _root_.FMV.C11_FSM (goal m : Nat) (eik : Eik F) (g : Grid F) (pts : List Nat) (sw : Nat) (incs : List Int) (n : Nat) (s : St F)
    (hs : Steps (Step m (solveFSM goal eik)) n (initFSM g pts sw incs) s) (i : Nat) (ho : g.occ i = true) (hi : i ∉ pts) :
    s.g.value i = g.value i := by
  rw [(solveFSM_solver goal eik).obstacle hs (by rw [SameMap.occ_eq (initFSM_sameMap g pts sw incs)]; exact ho), initFSM_value, if_neg hi]

/-- **C11** for LSM -/
theorem _root_.FMV.C11_LSM (goal m : Nat) (eik : Eik F) (g : Grid F) (pts : List Nat) (sw : Nat) (incs : List Int) (n : Nat) (s : St F)
    (hs : Steps (Step m (solveLSM goal eik)) n (initLSM g pts sw incs) s) (i : Nat) (ho : g.occ i = true) (hi : i ∉ pts) :
    s.g.value i = g.value i := by
  rw [(solveLSM_solver goal eik).obstacle hs (by rw [SameMap.occ_eq (initLSM_sameMap g pts sw incs)]; exact ho), initLSM_value, if_neg hi]

/-- **C25** for FSM: between any two moments of a run every arrival time is either unchanged or smaller by more than COMP_MARGIN. -/
theorem _root_.FMV.C25_FSM (L : MarginLaws F) (goal m : Nat) (eik : Eik F) (n : Nat) (s t : St F)
    (hs : Steps (Step m (solveFSM goal eik)) n s t) (k : Nat) :
    t.g.value k = s.g.value k ∨ Arith.better (t.g.value k) (s.g.value k) = true := (solveFSM_solver goal eik).lower L hs k

/-- **C25** for LSM -/
theorem _root_.FMV.C25_LSM (L : MarginLaws F) (goal m : Nat) (eik : Eik F) (n : Nat) (s t : St F)
    (hs : Steps (Step m (solveLSM goal eik)) n s t) (k : Nat) :
    t.g.value k = s.g.value k ∨ Arith.better (t.g.value k) (s.g.value k) = true := (solveLSM_solver goal eik).lower L hs k

/-- **C25** inside a sweep: also between any two cell visits (`solveForIdx` on a free cell), for FSM and LSM. -/
theorem _root_.FMV.C25_visit (goal : Nat) (eik : Eik F) (s : St F) (i k : Nat) :
    ((visit (solveFSM goal eik) s i).g.value k = s.g.value k ∨
      Arith.better ((visit (solveFSM goal eik) s i).g.value k) (s.g.value k) = true) ∧
    ((visit (solveLSM goal eik) s i).g.value k = s.g.value k ∨
      Arith.better ((visit (solveLSM goal eik) s i).g.value k) (s.g.value k) = true) := by
  constructor
  · rcases visit_cases (solve := solveFSM goal eik) s i with ⟨_, e⟩ | ⟨_, e⟩ <;> rw [e]
    · exact Or.inl rfl
    · obtain ⟨b, hT, _⟩ := (solveFSM_solver goal eik).tried s i; exact hT.lower k
  · rcases visit_cases (solve := solveLSM goal eik) s i with ⟨_, e⟩ | ⟨_, e⟩ <;> rw [e]
    · exact Or.inl rfl
    · obtain ⟨b, hT, _⟩ := (solveLSM_solver goal eik).tried s i; exact hT.lower k

/-! ## C23: termination -/

theorem Solver.at_most {eik : Eik F} {solve : St F → Nat → St F} (S : Solver eik solve) {m : Nat} (hm : m < 2^32) {n : Nat} {s t : St F}
    (h0 : s.sweeps ≤ m) (hs : Steps (Step m solve) n s t) : t.sweeps = s.sweeps + n ∧ t.sweeps ≤ m := by
  induction hs with
  | refl => exact ⟨rfl, h0⟩
  | tail h1 h2 ih =>
    obtain ⟨e, h3⟩ := ih h0
    obtain ⟨hnd, rfl⟩ := h2
    unfold Done at hnd
    push Not at hnd
    rw [S.sweep_sweeps]
    have : u32 (s.sweeps + 0) = u32 s.sweeps := rfl
    unfold u32
    have h5 := hnd.2.2
    rw [Nat.mod_eq_of_lt (by omega)]
    omega

/-- **C23**: FSM performs at most `maxSweeps` sweeps (any 32-bit `maxSweeps`), counting those recorded in the object. -/
theorem _root_.FMV.C23_FSM_at_most_maxSweeps (goal m : Nat) (hm : m < 2^32) (eik : Eik F) (g : Grid F) (pts : List Nat) (sw : Nat)
    (hsw : sw ≤ m) (incs : List Int) (n : Nat) (s : St F) (hs : Steps (Step m (solveFSM goal eik)) n (initFSM g pts sw incs) s) :
    sw + n ≤ m ∧ s.sweeps = sw + n := by
  have := (solveFSM_solver goal eik).at_most hm (show (initFSM g pts sw incs).sweeps ≤ m from hsw) hs
  have e : (initFSM g pts sw incs).sweeps = sw := rfl
  omega

/-- measure of a sweep loop -/
def meas {good : F → Prop} (R : Ranked F good) (N : Nat) (s : St F) : (Fin N → WithTop ℕ) ×ₗ ℕ :=
  toLex (rkVec R N s.g, if s.keep then 1 else 0)

theorem Solver.fold_rk {good : F → Prop} {R : Ranked F good} {eik : Eik F} {N : Nat} {J : Grid F → Prop} (K : Keeps R eik N J)
    {solve : St F → Nat → St F} (S : Solver eik solve) : ∀ (l : List Nat) (s : St F), (∀ i ∈ l, i < N) → J s.g →
    J (l.foldl (visit solve) s).g ∧
    (rkVec R N (l.foldl (visit solve) s).g < rkVec R N s.g ∨
      (rkVec R N (l.foldl (visit solve) s).g = rkVec R N s.g ∧ (l.foldl (visit solve) s).keep = s.keep)) := by
  intro l
  induction l with
  | nil => intro s _ hJ; exact ⟨hJ, Or.inr ⟨rfl, rfl⟩⟩
  | cons i l ih =>
    intro s hl hJ
    rw [List.foldl_cons]
    rcases visit_cases (solve := solve) s i with ⟨_, e⟩ | ⟨ho, e⟩
    · rw [e]; exact ih s (fun k hk => hl k (by simp [hk])) hJ
    · rw [e]
      obtain ⟨b, hT, hk⟩ := S.tried s i
      have hi := hl i (by simp)
      obtain ⟨h1, h2⟩ := ih (solve s i) (fun k hk => hl k (by simp [hk])) (K.tried _ _ _ _ hJ hT hi ho)
      refine ⟨h1, ?_⟩
      rcases hT.rk R hi (K.good _ _ hJ hi ho).1 (K.good _ _ hJ hi ho).2 with ⟨rfl, h3⟩ | ⟨rfl, h3⟩
      · left
        rcases h2 with h2 | ⟨h2, _⟩
        · exact lt_trans h2 h3
        · rw [h2]; exact h3
      · rw [h3] at h2; simpa [hk] using h2

theorem Solver.step_meas {good : F → Prop} {R : Ranked F good} {eik : Eik F} {dims : List Nat} (hne : dims ≠ []) {J : Grid F → Prop}
    (K : Keeps R eik dims.prod J) {solve : St F → Nat → St F} (S : Solver eik solve) {m : Nat} {s t : St F}
    (hsh : s.g.shape = Shape.mk' dims) (hd : IsDirs dims.length s.incs) (hJ : J s.g) (hst : Step m solve s t) :
    J t.g ∧ meas R dims.prod t < meas R dims.prod s := by
  obtain ⟨hnd, rfl⟩ := hst
  unfold Done at hnd
  push Not at hnd
  have hl : ∀ i ∈ sweepOrder s.g.shape.dims (bump s.incs), i < dims.prod := by
    intro i hi; rw [hsh] at hi; exact (mem_sweepOrder hne (bump_isDirs hd)).1 hi
  obtain ⟨h1, h2⟩ := S.fold_rk K _ (begun s) hl hJ
  rw [← sweep_eq] at h1 h2
  refine ⟨h1, ?_⟩
  unfold meas
  rw [Prod.Lex.toLex_lt_toLex]
  rcases h2 with h2 | ⟨h2, h3⟩
  · exact Or.inl h2
  · right
    refine ⟨h2, ?_⟩
    have : (sweep solve s).keep = false := h3
    rw [this, hnd.1]; simp

theorem lex_wf (N : Nat) : WellFounded (fun a b : (Fin N → WithTop ℕ) ×ₗ ℕ => a < b) := by
  have := WellFounded.prod_lex (rkVec_wf N) (Nat.lt_wfRel.wf)
  exact this

theorem Solver.terminates {good : F → Prop} {R : Ranked F good} {eik : Eik F} {dims : List Nat} (hne : dims ≠ []) {J : Grid F → Prop}
    (K : Keeps R eik dims.prod J) {solve : St F → Nat → St F} (S : Solver eik solve) (m : Nat) (s : St F)
    (hsh : s.g.shape = Shape.mk' dims) (hd : IsDirs dims.length s.incs) (hJ : J s.g) :
    (∃ n t, Steps (Step m solve) n s t ∧ Done m t) ∧ ¬ ∃ f : Nat → St F, f 0 = s ∧ ∀ n, Step m solve (f n) (f (n+1)) := by
  have hI : ∀ a b, (a.g.shape = Shape.mk' dims ∧ IsDirs dims.length a.incs ∧ J a.g) → Step m solve a b →
      (b.g.shape = Shape.mk' dims ∧ IsDirs dims.length b.incs ∧ J b.g) := by
    rintro a b ⟨h1, h2, h3⟩ hst
    have h4 := S.step_meas hne K h1 h2 h3 hst
    obtain ⟨_, rfl⟩ := hst
    exact ⟨(S.sweep_sameMap a).shape.trans h1, by rw [S.sweep_incs]; exact bump_isDirs h2, h4.1⟩
  have hdec : ∀ a b, (a.g.shape = Shape.mk' dims ∧ IsDirs dims.length a.incs ∧ J a.g) → Step m solve a b →
      meas R dims.prod b < meas R dims.prod a := fun a b ⟨h1, h2, h3⟩ hst => (S.step_meas hne K h1 h2 h3 hst).2
  constructor
  · exact exists_done_wf (lex_wf dims.prod) (meas R dims.prod) hI hdec (fun a _ hnd => ⟨_, hnd, rfl⟩) s ⟨hsh, hd, hJ⟩
  · rintro ⟨f, h0, hf⟩
    exact no_infinite_wf (lex_wf dims.prod) (meas R dims.prod) hI hdec ⟨f, by rw [h0]; exact ⟨hsh, hd, hJ⟩, hf⟩

/-- **C23** in any finite arithmetic satisfying the margin laws (64-bit doubles) and whatever the local solver returns: without any sweep budget
(`m ≥ 2^32` never stops the loop) FSM stops after finitely many sweeps, and there is no infinite run. -/
theorem _root_.FMV.C23_FSM_finite_arithmetic [Fintype F] (L : MarginLaws F) (goal m : Nat) (eik : Eik F) (dims : List Nat) (g : Grid F)
    (pts : List Nat) (hin : Input dims g pts) (sw : Nat) (incs : List Int) (hd : IsDirs dims.length incs) :
    (∃ n s, Steps (Step m (solveFSM goal eik)) n (initFSM g pts sw incs) s ∧ Done m s) ∧
    ¬ ∃ f : Nat → St F, f 0 = initFSM g pts sw incs ∧ ∀ n, Step m (solveFSM goal eik) (f n) (f (n+1)) :=
  (solveFSM_solver goal eik).terminates (dims_ne hin.fits) (keeps_true L eik dims.prod) m _
    ((initFSM_sameMap g pts sw incs).shape.trans hin.shape) hd trivial

section exact
variable {dims : List Nat} {g : Grid XR} {h : ℝ} {v : Nat → ℝ} {pts : List Nat}

theorem initFSM_sinv (X : XInput dims g h v pts) (hfr : Fresh g) (sw : Nat) (incs : List Int) : X.SInv (initFSM g pts sw incs).g :=
  XInput.SInv.start X (initFSM_sameMap _ _ _ _) (fun k => by rw [initFSM_value, hfr.value]; rfl)

theorem initLSM_sinv (X : XInput dims g h v pts) (hfr : Fresh g) (sw : Nat) (incs : List Int) : X.SInv (initLSM g pts sw incs).g :=
  XInput.SInv.start X (initLSM_sameMap _ _ _ _) (fun k => by rw [initLSM_value, hfr.value]; rfl)

/-- **C23** in exact arithmetic. -/
theorem _root_.FMV.C23_FSM_exact (X : XInput dims g h v pts) (hfr : Fresh g) (goal m sw : Nat) (incs : List Int)
    (hd : IsDirs dims.length incs) :
    (∃ n s, Steps (Step m (solveFSM goal eikS)) n (initFSM g pts sw incs) s ∧ Done m s) ∧
    ¬ ∃ f : Nat → St XR, f 0 = initFSM g pts sw incs ∧ ∀ n, Step m (solveFSM goal eikS) (f n) (f (n+1)) :=
  (solveFSM_solver goal eikS).terminates (dims_ne X.fits) (keeps_exact X) m _
    ((initFSM_sameMap g pts sw incs).shape.trans X.shape) hd (initFSM_sinv X hfr sw incs)

theorem Solver.sinv (X : XInput dims g h v pts) {solve : St XR → Nat → St XR} (S : Solver eikS solve) {m n : Nat} {s t : St XR}
    (hsh : s.g.shape = Shape.mk' dims) (hd : IsDirs dims.length s.incs) (hJ : X.SInv s.g) (hs : Steps (Step m solve) n s t) : X.SInv t.g := by
  refine S.run_grid hs (dims_ne X.fits) hsh hd (J := X.SInv) hJ ?_
  intro t i hi ht ho
  obtain ⟨b, hT, _⟩ := S.tried t i
  exact (keeps_exact X).tried _ _ _ _ ht hT hi ho

/-- **C10** for FSM: the initial points have time 0 at every moment (exact arithmetic). -/
theorem _root_.FMV.C10_FSM (X : XInput dims g h v pts) (hfr : Fresh g) (goal m sw : Nat) (incs : List Int)
    (hd : IsDirs dims.length incs) (n : Nat) (s : St XR) (hs : Steps (Step m (solveFSM goal eikS)) n (initFSM g pts sw incs) s)
    (i : Nat) (hi : i ∈ pts) : s.g.value i = fin 0 := by
  have I := (solveFSM_solver goal eikS).sinv X ((initFSM_sameMap g pts sw incs).shape.trans X.shape) hd (initFSM_sinv X hfr sw incs) hs
  have := I.src i hi
  unfold tv at this
  rw [← (I.good i).ofT_toT, this]; rfl

/-- **C10** for LSM -/
theorem _root_.FMV.C10_LSM (X : XInput dims g h v pts) (hfr : Fresh g) (goal m sw : Nat) (incs : List Int)
    (hd : IsDirs dims.length incs) (n : Nat) (s : St XR) (hs : Steps (Step m (solveLSM goal eikS)) n (initLSM g pts sw incs) s)
    (i : Nat) (hi : i ∈ pts) : s.g.value i = fin 0 := by
  have I := (solveLSM_solver goal eikS).sinv X ((initLSM_sameMap g pts sw incs).shape.trans X.shape) hd (initLSM_sinv X hfr sw incs) hs
  have := I.src i hi
  unfold tv at this
  rw [← (I.good i).ofT_toT, this]; rfl

/-- **C18** for FSM: no arrival time is ever below the exact one (and none is NaN or negative), with or without goal. -/
theorem _root_.FMV.C18_FSM (X : XInput dims g h v pts) (hfr : Fresh g) (U : Nat → WithTop ℝ) (hU : X.problem.IsSolution U)
    (goal m sw : Nat) (incs : List Int) (hd : IsDirs dims.length incs) (n : Nat) (s : St XR)
    (hs : Steps (Step m (solveFSM goal eikS)) n (initFSM g pts sw incs) s) (i : Nat) (hi : i < dims.prod) :
    GoodT (s.g.value i) ∧ U i ≤ toT (s.g.value i) := by
  have I := (solveFSM_solver goal eikS).sinv X ((initFSM_sameMap g pts sw incs).shape.trans X.shape) hd (initFSM_sinv X hfr sw incs) hs
  exact ⟨I.good i, I.low U hU i hi⟩

/-- **C18** for LSM -/
theorem _root_.FMV.C18_LSM (X : XInput dims g h v pts) (hfr : Fresh g) (U : Nat → WithTop ℝ) (hU : X.problem.IsSolution U)
    (goal m sw : Nat) (incs : List Int) (hd : IsDirs dims.length incs) (n : Nat) (s : St XR)
    (hs : Steps (Step m (solveLSM goal eikS)) n (initLSM g pts sw incs) s) (i : Nat) (hi : i < dims.prod) :
    GoodT (s.g.value i) ∧ U i ≤ toT (s.g.value i) := by
  have I := (solveLSM_solver goal eikS).sinv X ((initLSM_sameMap g pts sw incs).shape.trans X.shape) hd (initLSM_sinv X hfr sw incs) hs
  exact ⟨I.good i, I.low U hU i hi⟩

end exact

/-! ## C24: FSM stops at a fixed point (any floating-point semantics) -/

theorem fold_fix (goal : Nat) (eik : Eik F) : ∀ (l : List Nat) (s : St F), (l.foldl (visit (solveFSM goal eik)) s).keep = false →
    s.keep = false ∧ (∀ k, (l.foldl (visit (solveFSM goal eik)) s).g.value k = s.g.value k) ∧
    ∀ i ∈ l, s.g.occ i = false → ∃ g', SameMap s.g g' ∧ (∀ k, g'.value k = s.g.value k) ∧ Arith.better (eik g' i).1 (g'.value i) = false := by
  intro l
  induction l with
  | nil => intro s h; exact ⟨h, fun _ => rfl, by simp⟩
  | cons i l ih =>
    intro s hk
    rw [List.foldl_cons] at hk ⊢
    obtain ⟨h1, h2, h3⟩ := ih _ hk
    rcases visit_cases (solve := solveFSM goal eik) s i with ⟨ho, e⟩ | ⟨ho, e⟩
    · rw [e] at h1 h2 h3 ⊢
      refine ⟨h1, h2, ?_⟩
      intro j hj hjo
      rcases List.mem_cons.1 hj with rfl | hj
      · rw [ho] at hjo; cases hjo
      · exact h3 j hj hjo
    · rw [e] at h1 h2 h3 ⊢
      rcases solveFSM_cases goal eik s i with ⟨hb, e'⟩ | ⟨hb, e', _⟩
      · rw [e'] at h1; cases h1
      · have hv : ∀ k, (solveFSM goal eik s i).g.value k = s.g.value k := by intro k; rw [e']; simp
        have hm : SameMap s.g (solveFSM goal eik s i).g := (solveFSM_solver goal eik).sameMap s i
        refine ⟨by rw [e'] at h1; exact h1, fun k => by rw [h2, hv], ?_⟩
        intro j hj hjo
        rcases List.mem_cons.1 hj with rfl | hj
        · exact ⟨s.g, SameMap.refl _, fun _ => rfl, hb⟩
        · obtain ⟨g', a, b, c⟩ := h3 j hj (by rw [SameMap.occ_eq hm]; exact hjo)
          exact ⟨g', hm.trans a, fun k => (b k).trans (hv k), c⟩

/-- the run did at least one sweep and its last sweep ended with `keep = false` -/
theorem last_sweep {solve : St F → Nat → St F} {m n : Nat} {s t : St F} (hs : Steps (Step m solve) n s t) (h0 : s.keep = true)
    (h1 : t.keep = false) : ∃ n' u, Steps (Step m solve) n' s u ∧ t = sweep solve u := by
  cases hs with
  | refl => rw [h0] at h1; cases h1
  | tail h2 h3 => exact ⟨_, _, h2, h3.2⟩

theorem stop_false {eik : Eik F} {solve : St F → Nat → St F} (S : Solver eik solve) {goal : Nat}
    (hst : ∀ s i, (solve s i).stop = true → s.stop = true ∨ i = goal) {m n : Nat} {dims : List Nat} (hne : dims ≠ [])
    (hgoal : dims.prod ≤ goal) {s t : St F} (hsh : s.g.shape = Shape.mk' dims) (hd : IsDirs dims.length s.incs)
    (hs : Steps (Step m solve) n s t) (h0 : s.stop = false) : t.stop = false := by
  have : t.stop = false ∧ t.g.shape = Shape.mk' dims ∧ IsDirs dims.length t.incs := by
    refine Steps.inv (I := fun t : St F => t.stop = false ∧ t.g.shape = Shape.mk' dims ∧ IsDirs dims.length t.incs) ?_ hs ⟨h0, hsh, hd⟩
    rintro a b ⟨h1, h2, h3⟩ ⟨_, rfl⟩
    refine ⟨?_, (S.sweep_sameMap a).shape.trans h2, by rw [S.sweep_incs]; exact bump_isDirs h3⟩
    refine sweep_inv (I := fun t : St F => t.stop = false) a h1 ?_
    intro t i hi ht ho
    rw [h2] at hi
    have := (mem_sweepOrder hne (bump_isDirs h3)).1 hi
    by_contra hc
    rcases hst t i (by simpa using hc) with h | h
    · rw [ht] at h; cases h
    · omega
  exact this.1

theorem solveFSM_stop (goal : Nat) (eik : Eik F) (s : St F) (i : Nat) (h : (solveFSM goal eik s i).stop = true) :
    s.stop = true ∨ i = goal := by
  rcases solveFSM_cases goal eik s i with ⟨_, e⟩ | ⟨_, _, e⟩
  · rw [e] at h; exact Or.inl h
  · exact e h

theorem solveLSM_stop (goal : Nat) (eik : Eik F) (s : St F) (i : Nat) (h : (solveLSM goal eik s i).stop = true) :
    s.stop = true ∨ i = goal := by
  rcases solveLSM_cases goal eik s i with ⟨_, e⟩ | ⟨_, _, e⟩ | ⟨_, _, _, e⟩
  · rw [e] at h; exact Or.inl h
  · rw [e] at h; exact Or.inl h
  · exact e h

/-- **C24**: when FSM without goal (`goal` not a cell) has stopped within its sweep budget, no free cell can be improved: `solveEikonal` returns
for no free cell a time smaller than the stored one by more than COMP_MARGIN.  Holds for any arithmetic `F`. -/
theorem _root_.FMV.C24_FSM_fixpoint (goal m : Nat) (dims : List Nat) (g : Grid F) (pts : List Nat) (hin : Input dims g pts)
    (h2 : ∀ x ∈ dims, 2 ≤ x) (hgoal : dims.prod ≤ goal) (sw : Nat) (incs : List Int) (hd : IsDirs dims.length incs) (n : Nat) (s : St F)
    (hs : Steps (Step m (solveFSM goal eikS)) n (initFSM g pts sw incs) s) (hdone : Done m s) (hbud : s.sweeps < m)
    (i : Nat) (hi : i < dims.prod) (ho : g.occ i = false) : Arith.better (solveEikonal s.g i) (s.g.value i) = false := by
  have S := solveFSM_solver (F := F) goal eikS
  have hne := dims_ne hin.fits
  have hsh0 : (initFSM g pts sw incs).g.shape = Shape.mk' dims := (initFSM_sameMap g pts sw incs).shape.trans hin.shape
  have hstop := stop_false S (solveFSM_stop goal eikS) hne hgoal hsh0 hd hs rfl
  have hk : s.keep = false := by
    by_contra hc
    exact hdone ⟨by simpa using hc, hstop, hbud⟩
  obtain ⟨n', u, hu, rfl⟩ := last_sweep hs rfl hk
  obtain ⟨hm, hsh, hdu⟩ := S.run_inv hu hsh0 hd
  rw [sweep_eq] at hk
  obtain ⟨_, hv, hb⟩ := fold_fix goal eikS _ _ hk
  rw [← sweep_eq] at hv
  have hou : (begun u).g.occ i = false := by
    show u.g.occ i = false
    rw [SameMap.occ_eq ((initFSM_sameMap g pts sw incs).trans hm)]; exact ho
  obtain ⟨g', a, b, c⟩ := hb i (by rw [hsh]; exact (mem_sweepOrder hne (bump_isDirs hdu)).2 hi) hou
  have hsh' : g'.shape = Shape.mk' dims := a.shape.trans hsh
  rw [eikS_eq_solve hin.fits h2 hsh' hi] at c
  have e1 : solveEikonal (sweep (solveFSM goal eikS) u).g i = solveEikonal u.g i :=
    solveEikonal_congr (S.sweep_sameMap u) hv i
  have e2 : solveEikonal g' i = solveEikonal u.g i := solveEikonal_congr a b i
  rw [e1, hv, ← e2]
  show Arith.better _ ((begun u).g.value i) = false
  rw [← b i]
  exact c

/-! ## C26: LSM -/

/-- **C26**, termination in any finite arithmetic with the margin laws, whatever the local solver returns. -/
theorem _root_.FMV.C26_LSM_finite_arithmetic [Fintype F] (L : MarginLaws F) (goal m : Nat) (eik : Eik F) (dims : List Nat) (g : Grid F)
    (pts : List Nat) (hin : Input dims g pts) (sw : Nat) (incs : List Int) (hd : IsDirs dims.length incs) :
    (∃ n s, Steps (Step m (solveLSM goal eik)) n (initLSM g pts sw incs) s ∧ Done m s) ∧
    ¬ ∃ f : Nat → St F, f 0 = initLSM g pts sw incs ∧ ∀ n, Step m (solveLSM goal eik) (f n) (f (n+1)) :=
  (solveLSM_solver goal eik).terminates (dims_ne hin.fits) (keeps_true L eik dims.prod) m _
    ((initLSM_sameMap g pts sw incs).shape.trans hin.shape) hd trivial

/-- **C26**: LSM performs at most `maxSweeps` sweeps. -/
theorem _root_.FMV.C26_LSM_at_most_maxSweeps (goal m : Nat) (hm : m < 2^32) (eik : Eik F) (g : Grid F) (pts : List Nat) (sw : Nat)
    (hsw : sw ≤ m) (incs : List Int) (n : Nat) (s : St F) (hs : Steps (Step m (solveLSM goal eik)) n (initLSM g pts sw incs) s) :
    sw + n ≤ m ∧ s.sweeps = sw + n := by
  have := (solveLSM_solver goal eik).at_most hm (show (initLSM g pts sw incs).sweeps ≤ m from hsw) hs
  have e : (initLSM g pts sw incs).sweeps = sw := rfl
  omega

section exact
variable {dims : List Nat} {g : Grid XR} {h : ℝ} {v : Nat → ℝ} {pts : List Nat}

/-- **C26**, termination in exact arithmetic. -/
theorem _root_.FMV.C26_LSM_exact (X : XInput dims g h v pts) (hfr : Fresh g) (goal m sw : Nat) (incs : List Int)
    (hd : IsDirs dims.length incs) :
    (∃ n s, Steps (Step m (solveLSM goal eikS)) n (initLSM g pts sw incs) s ∧ Done m s) ∧
    ¬ ∃ f : Nat → St XR, f 0 = initLSM g pts sw incs ∧ ∀ n, Step m (solveLSM goal eikS) (f n) (f (n+1)) :=
  (solveLSM_solver goal eikS).terminates (dims_ne X.fits) (keeps_exact X) m _
    ((initLSM_sameMap g pts sw incs).shape.trans X.shape) hd (initLSM_sinv X hfr sw incs)

theorem _root_.FMV.LInv.solve (X : XInput dims g h v pts) (goal : Nat) {s : St XR} {i : Nat} (I : LInv X s.g) (hi : i < dims.prod)
    (ho : s.g.occ i = false) : LInv X (solveLSM goal eikS s i).g := by
  have hsh : s.g.shape = Shape.mk' dims := I.sinv.map.shape.trans X.shape
  rcases solveLSM_cases goal eikS s i with ⟨_, e⟩ | ⟨hopn, hb, e⟩ | ⟨hopn, hb, e, _⟩
  · rw [e]; exact I
  · refine LInv.lockStep X (b := true) I hi ho ?_ ?_ (by simp)
    · obtain ⟨b, hT, hk⟩ := (solveLSM_solver goal eikS).tried s i
      cases b with
      | true => exact hT
      | false =>
        have := hT.no rfl
        refine ⟨hT.map, hT.other, ?_, by simp⟩
        intro _; refine ⟨hb, ?_⟩
        rw [e]; simp [Grid.value_setValue, unlock_value]
    · intro _ k _
      rw [e]
      show Grid.state (Grid.setState _ _ _) k = _
      rw [Grid.state_setState]
      by_cases hk : k = i
      · simp [hk]
      · rw [if_neg hk, if_neg hk, unlock_state, hsh]
        simp [Grid.value_setValue, hk]
  · refine LInv.lockStep X (b := false) I hi ho ?_ (by simp) ?_
    · refine ⟨?_, ?_, by simp, ?_⟩
      · rw [e]; exact (sameMap_setScratch _ _).trans (sameMap_setState _ _ _)
      · intro k hk; rw [e]; simp
      · intro _; rw [e]; simp
    · intro _; refine ⟨hb, ?_⟩
      intro k _; rw [e]; simp [Grid.state_setState]

theorem _root_.FMV.LInv.start (X : XInput dims g h v pts) (hfr : Fresh g) (sw : Nat) (incs : List Int) : LInv X (initLSM g pts sw incs).g := by
  have hS := initLSM_sinv X hfr sw incs
  have hnc : g.shape.ncells = dims.prod := by rw [X.shape]; exact mk'_ncells (X.fits.mono (by norm_num))
  have hst : ∀ i, i < dims.prod → (initLSM g pts sw incs).g.state i = if ∃ p ∈ pts, i ∈ (Shape.mk' dims).nbrs p then .opn else .frozen := by
    intro i hi; rw [initLSM_state _ _ _ _ _ (by rw [hnc]; exact hi), X.shape]
  refine ⟨hS, ?_, ?_⟩
  · intro i hi; rw [hst i hi]; split
    · exact Or.inl rfl
    · exact Or.inr rfl
  · intro i hi ho hf
    rw [hst i hi] at hf
    split at hf
    · cases hf
    · next hc =>
      by_cases hp : i ∈ pts
      · exact nb_source X hS hi ho hp
      · apply nb_lonely X hi ho
        intro j hj
        have hjp : j ∉ pts := fun hjp => hc ⟨j, hjp, nbrs_symm X.fits hi hj⟩
        unfold tv
        rw [initLSM_value, if_neg hjp, hfr.value]; rfl

theorem _root_.FMV.LInv.run (X : XInput dims g h v pts) (hfr : Fresh g) {goal m sw : Nat} {incs : List Int}
    (hd : IsDirs dims.length incs) {n : Nat} {s : St XR} (hs : Steps (Step m (solveLSM goal eikS)) n (initLSM g pts sw incs) s) :
    LInv X s.g := by
  refine (solveLSM_solver goal eikS).run_grid hs (dims_ne X.fits) ((initLSM_sameMap g pts sw incs).shape.trans X.shape) hd
    (J := LInv X) (LInv.start X hfr sw incs) ?_
  intro t i hi I ho
  exact LInv.solve X goal I hi ho

/-- a sweep without improvement locks every free cell -/
theorem fold_locks (X : XInput dims g h v pts) (goal : Nat) : ∀ (l : List Nat) (s : St XR), (∀ i ∈ l, i < dims.prod) → LInv X s.g →
    (l.foldl (visit (solveLSM goal eikS)) s).keep = false →
    s.keep = false ∧ (∀ k, s.g.state k = .frozen → (l.foldl (visit (solveLSM goal eikS)) s).g.state k = .frozen) ∧
    ∀ i ∈ l, g.occ i = false → (l.foldl (visit (solveLSM goal eikS)) s).g.state i = .frozen := by
  intro l
  induction l with
  | nil => intro s _ _ h; exact ⟨h, fun _ h => h, by simp⟩
  | cons i l ih =>
    intro s hl I hk
    rw [List.foldl_cons] at hk ⊢
    have hi := hl i (by simp)
    have hocc : s.g.occ i = g.occ i := SameMap.occ_eq I.sinv.map i
    rcases visit_cases (solve := solveLSM goal eikS) s i with ⟨ho, e⟩ | ⟨ho, e⟩
    · rw [e] at hk ⊢
      obtain ⟨h1, h2, h3⟩ := ih s (fun k hk => hl k (by simp [hk])) I hk
      refine ⟨h1, h2, ?_⟩
      intro j hj hjo
      rcases List.mem_cons.1 hj with rfl | hj
      · rw [hocc] at ho; rw [ho] at hjo; cases hjo
      · exact h3 j hj hjo
    · rw [e] at hk ⊢
      obtain ⟨h1, h2, h3⟩ := ih _ (fun k hk => hl k (by simp [hk])) (LInv.solve X goal I hi ho) hk
      rcases solveLSM_cases goal eikS s i with ⟨hn, e'⟩ | ⟨hopn, hb, e'⟩ | ⟨hopn, hb, e', _⟩
      · rw [e'] at h1 h2 h3 ⊢
        refine ⟨h1, h2, ?_⟩
        intro j hj hjo
        rcases List.mem_cons.1 hj with rfl | hj
        · apply h2
          rcases I.st j hi with h | h
          · exact absurd h hn
          · exact h
        · exact h3 j hj hjo
      · rw [e'] at h1; cases h1
      · have hst : ∀ k, (solveLSM goal eikS s i).g.state k = if k = i then .frozen else s.g.state k := by
          intro k; rw [e']; simp [Grid.state_setState]
        refine ⟨by rw [e'] at h1; exact h1, ?_, ?_⟩
        · intro k hkf
          apply h2
          rw [hst]; split
          · rfl
          · exact hkf
        · intro j hj hjo
          rcases List.mem_cons.1 hj with rfl | hj
          · apply h2; rw [hst, if_pos rfl]
          · exact h3 j hj hjo

/-- **C26**: when LSM without goal has stopped within its sweep budget, no free cell - locked or not - can be improved by more than COMP_MARGIN
(exact arithmetic). -/
theorem _root_.FMV.C26_LSM_fixpoint (X : XInput dims g h v pts) (hfr : Fresh g) (goal m sw : Nat) (hgoal : dims.prod ≤ goal)
    (incs : List Int) (hd : IsDirs dims.length incs) (n : Nat) (s : St XR)
    (hs : Steps (Step m (solveLSM goal eikS)) n (initLSM g pts sw incs) s) (hdone : Done m s) (hbud : s.sweeps < m)
    (i : Nat) (hi : i < dims.prod) (ho : g.occ i = false) : Arith.better (solveEikonal s.g i) (s.g.value i) = false := by
  have S := solveLSM_solver (F := XR) goal eikS
  have hne := dims_ne X.fits
  have hsh0 : (initLSM g pts sw incs).g.shape = Shape.mk' dims := (initLSM_sameMap g pts sw incs).shape.trans X.shape
  have hstop := stop_false S (solveLSM_stop goal eikS) hne hgoal hsh0 hd hs rfl
  have hk : s.keep = false := by
    by_contra hc
    exact hdone ⟨by simpa using hc, hstop, hbud⟩
  have IF := LInv.run X hfr hd hs
  obtain ⟨n', u, hu, rfl⟩ := last_sweep hs rfl hk
  obtain ⟨hm, hsh, hdu⟩ := S.run_inv hu hsh0 hd
  have Iu := LInv.run X hfr hd hu
  rw [sweep_eq] at hk
  have hmem : ∀ k, k ∈ sweepOrder u.g.shape.dims (bump u.incs) ↔ k < dims.prod := by
    intro k; rw [hsh]; exact mem_sweepOrder hne (bump_isDirs hdu)
  obtain ⟨_, _, h3⟩ := fold_locks X goal _ (begun u) (fun k hk => (hmem k).1 hk) Iu hk
  have hfz := h3 i ((hmem i).2 hi) ho
  rw [← sweep_eq] at hfz
  have hnb := IF.lock i hi ho hfz
  rw [← eikS_eq_solve X.fits X.two (IF.sinv.map.shape.trans X.shape) hi]
  by_contra hc
  exact hnb ((X.better_iff IF.sinv.map IF.sinv.good hi ho).1 (by simpa using hc))

/-- Accuracy of FSM (part of **C28**): when it has stopped without goal and within its sweep budget, every time is between the exact one and the
exact one plus twice the margin per cell. -/
theorem _root_.FMV.C28_FSM_accuracy (X : XInput dims g h v pts) (hfr : Fresh g) (U : Nat → WithTop ℝ) (hU : X.problem.IsSolution U)
    (goal m sw : Nat) (hgoal : dims.prod ≤ goal) (incs : List Int) (hd : IsDirs dims.length incs) (n : Nat) (s : St XR)
    (hs : Steps (Step m (solveFSM goal eikS)) n (initFSM g pts sw incs) s) (hdone : Done m s) (hbud : s.sweeps < m)
    (i : Nat) (hi : i < dims.prod) :
    U i ≤ toT (s.g.value i) ∧ toT (s.g.value i) ≤ U i + ((dims.prod * (2 * eps) : ℝ) : WithTop ℝ) := by
  have I := (solveFSM_solver goal eikS).sinv X ((initFSM_sameMap g pts sw incs).shape.trans X.shape) hd (initFSM_sinv X hfr sw incs) hs
  exact accurate_of_fix X I U hU
    (fun i hi ho => C24_FSM_fixpoint goal m dims g pts ⟨X.fits, X.shape, X.inside⟩ X.two hgoal sw incs hd n s hs hdone hbud i hi ho) i hi

/-- Accuracy of LSM (part of **C28**). -/
theorem _root_.FMV.C28_LSM_accuracy (X : XInput dims g h v pts) (hfr : Fresh g) (U : Nat → WithTop ℝ) (hU : X.problem.IsSolution U)
    (goal m sw : Nat) (hgoal : dims.prod ≤ goal) (incs : List Int) (hd : IsDirs dims.length incs) (n : Nat) (s : St XR)
    (hs : Steps (Step m (solveLSM goal eikS)) n (initLSM g pts sw incs) s) (hdone : Done m s) (hbud : s.sweeps < m)
    (i : Nat) (hi : i < dims.prod) :
    U i ≤ toT (s.g.value i) ∧ toT (s.g.value i) ≤ U i + ((dims.prod * (2 * eps) : ℝ) : WithTop ℝ) := by
  have I := (LInv.run X hfr hd hs).sinv
  exact accurate_of_fix X I U hU
    (fun i hi ho => C26_LSM_fixpoint X hfr goal m sw hgoal incs hd n s hs hdone hbud i hi ho) i hi

end exact

/-- non-vacuity: a 3x3 grid with two starts; FSM and LSM without goal and with an unlimited budget stop, so the hypotheses of the fixed-point
theorems are met. -/
example : ∃ (g : Grid XR), XInput [3,3] g 1 (fun _ => 1) [0, 8] ∧ Fresh g ∧
    (∃ n s, Steps (Step (2^32) (solveFSM noGoal eikS)) n (initFSM g [0,8] 0 (incs0 [3,3])) s ∧ Done (2^32) s ∧ s.sweeps < 2^32) ∧
    (∃ n s, Steps (Step (2^32) (solveLSM noGoal eikS)) n (initLSM g [0,8] 0 (incs0 [3,3])) s ∧ Done (2^32) s ∧ s.sweeps < 2^32) := by
  have X : XInput [3,3] (Grid.create [3,3] (fin 1) (0,0)) 1 (fun _ => 1) [0, 8] :=
    ⟨⟨by decide, by decide, by decide⟩, by decide, rfl, by decide, one_pos, rfl, fun _ _ _ => rfl⟩
  have hfr : Fresh (Grid.create (F := XR) [3,3] (fin 1) (0,0)) := ⟨fun _ => rfl, fun _ => rfl, fun _ => rfl⟩
  have hlt : ∀ {eik : Eik XR} {solve : St XR → Nat → St XR} (S : Solver eik solve) {n : Nat} {s t : St XR} (h0 : s.sweeps < 2^32),
      Steps (Step (2^32) solve) n s t → t.sweeps < 2^32 := by
    intro eik solve S n s t h0 hs
    refine Steps.inv (I := fun t : St XR => t.sweeps < 2^32) ?_ hs h0
    rintro a b _ ⟨_, rfl⟩
    rw [S.sweep_sweeps]; exact Nat.mod_lt _ (by norm_num)
  refine ⟨_, X, hfr, ?_, ?_⟩
  · obtain ⟨⟨n, s, hs, hd⟩, _⟩ := C23_FSM_exact X hfr noGoal (2^32) 0 _ (incs0_isDirs [3,3])
    exact ⟨n, s, hs, hd, hlt (solveFSM_solver _ _) (show (0:Nat) < 2^32 by norm_num) hs⟩
  · obtain ⟨⟨n, s, hs, hd⟩, _⟩ := C26_LSM_exact X hfr noGoal (2^32) 0 _ (incs0_isDirs [3,3])
    exact ⟨n, s, hs, hd, hlt (solveLSM_solver _ _) (show (0:Nat) < 2^32 by norm_num) hs⟩

end FSM
end FMV
