import Verif.Props.GoalStop
import Verif.Props.FSM
/-!
# C74: what FSM and LSM guarantee for a goal
-/
namespace FMV
open FMM Grid XR Arith
namespace FSM

theorem not_better_ne_pinf {t v : XR} (hn : Arith.isInf t = false) (hna : Arith.isNaN t = false) (h : Arith.better t v = false) : v ≠ .pinf := by
  rintro rfl
  cases t with
  | fin a =>
    have : Arith.better (fin a) XR.pinf = true := rfl
    rw [this] at h; cases h
  | nan => cases hna
  | pinf => cases hn
  | ninf => cases hn

theorem better_ne_pinf {t v : XR} (h : Arith.better t v = true) : t ≠ .pinf := by
  rintro rfl
  have : Arith.better XR.pinf v = false := by cases v <;> rfl
  rw [this] at h; cases h

/-- a visit keeps finite times finite, and stops only at a goal with a finite time -/
theorem solveFSM_finite (goal : Nat) (eik : Eik XR) (s : St XR) (i k : Nat) (hk : s.g.value k ≠ .pinf) : (solveFSM goal eik s i).g.value k ≠ .pinf := by
  unfold solveFSM
  dsimp only
  split
  · next h =>
    show ((s.g.setScratch _).setValue i _).value k ≠ _
    rw [value_setValue]
    split
    · exact better_ne_pinf h
    · exact hk
  · split <;> exact hk

theorem openNbrs_value (t : XR) (l : List Nat) (k : Nat) : ∀ g : Grid XR,
    (l.foldl (fun g n => if Arith.better t (g.value n) then g.setState n .opn else g) g).value k = g.value k := by
  induction l with
  | nil => intro g; rfl
  | cons n l ih =>
    intro g
    rw [List.foldl_cons, ih]
    split
    · exact value_setState _ _ _ _
    · rfl

theorem solveLSM_finite (goal : Nat) (eik : Eik XR) (s : St XR) (i k : Nat) (hk : s.g.value k ≠ .pinf) : (solveLSM goal eik s i).g.value k ≠ .pinf := by
  unfold solveLSM
  split
  · dsimp only
    rw [value_setState]
    split
    · next h =>
      dsimp only
      rw [openNbrs_value, value_setValue]
      split
      · exact better_ne_pinf h
      · exact hk
    · split <;> exact hk
  · exact hk

/-- what one of the two visits does -/
structure Good (goal : Nat) (solve : St XR → Nat → St XR) : Prop where
  fin : ∀ s i k, s.g.value k ≠ .pinf → (solve s i).g.value k ≠ .pinf
  stop : ∀ s i, (solve s i).stop = true → s.stop = true ∨ (solve s i).g.value goal ≠ .pinf

theorem good_FSM (goal : Nat) (eik : Eik XR) : Good goal (solveFSM goal eik) := by
  refine ⟨solveFSM_finite goal eik, ?_⟩
  intro s i h
  by_cases hs : s.stop = true
  · exact Or.inl hs
  · refine Or.inr ?_
    unfold solveFSM at h ⊢
    dsimp only at h ⊢
    by_cases h1 : Arith.better (eik s.g i).1 (s.g.value i) = true
    · rw [if_pos h1] at h; exact absurd h hs
    · rw [if_neg h1] at h ⊢
      by_cases h2 : (!(Arith.isNaN (eik s.g i).1) && !(Arith.isInf (eik s.g i).1) && (i == goal)) = true
      · rw [if_pos h2]
        simp only [Bool.and_eq_true, Bool.not_eq_true', beq_iff_eq] at h2
        obtain ⟨⟨h3, h4⟩, rfl⟩ := h2
        exact not_better_ne_pinf h4 h3 (by simpa using h1)
      · rw [if_neg h2] at h; exact absurd h hs

theorem good_LSM (goal : Nat) (eik : Eik XR) : Good goal (solveLSM goal eik) := by
  refine ⟨solveLSM_finite goal eik, ?_⟩
  intro s i h
  by_cases hs : s.stop = true
  · exact Or.inl hs
  · refine Or.inr ?_
    unfold solveLSM at h ⊢
    split at h
    · next ho =>
      rw [if_pos ho]
      dsimp only at h ⊢
      rw [value_setState]
      by_cases h1 : Arith.better (eik s.g i).1 (s.g.value i) = true
      · rw [if_pos h1] at h; exact absurd h hs
      · rw [if_neg h1] at h ⊢
        by_cases h2 : (!(Arith.isNaN (eik s.g i).1) && !(Arith.isInf (eik s.g i).1) && (i == goal)) = true
        · rw [if_pos h2]
          simp only [Bool.and_eq_true, Bool.not_eq_true', beq_iff_eq] at h2
          obtain ⟨⟨h3, h4⟩, rfl⟩ := h2
          exact not_better_ne_pinf h4 h3 (by simpa using h1)
        · rw [if_neg h2] at h; exact absurd h hs
    · exact absurd h hs

theorem Good.run {goal m : Nat} {solve : St XR → Nat → St XR} (G : Good goal solve) {n : Nat} {s0 s : St XR} (hs : Steps (Step m solve) n s0 s)
    (h0 : s0.stop = false) : s.stop = true → s.g.value goal ≠ .pinf := by
  refine Steps.inv (I := fun s : St XR => s.stop = true → s.g.value goal ≠ .pinf) ?_ hs (fun h => by rw [h0] at h; cases h)
  rintro a b ha ⟨-, rfl⟩
  unfold sweep
  refine foldl_inv (I := fun s : St XR => s.stop = true → s.g.value goal ≠ .pinf) _ _ _ ha ?_
  intro t i _ ht
  unfold visit
  split
  · exact ht
  · intro h
    rcases G.stop t i h with h1 | h1
    · exact G.fin _ _ _ (ht h1)
    · exact h1

/-- **C74** for FSM and LSM (what holds): when they are stopped by the goal, the goal has a finite time (by C18 it is not below the exact one). -/
theorem _root_.FMV.C74_FSM_goal_finite_partial (goal m : Nat) (eik : Eik XR) (g : Grid XR) (pts : List Nat) (sw : Nat) (incs : List Int) (n : Nat) (s : St XR)
    (hs : Steps (Step m (solveFSM goal eik)) n (initFSM g pts sw incs) s) (h : s.stop = true) : s.g.value goal ≠ .pinf :=
  (good_FSM goal eik).run hs rfl h

theorem _root_.FMV.C74_LSM_goal_finite_partial (goal m : Nat) (eik : Eik XR) (g : Grid XR) (pts : List Nat) (sw : Nat) (incs : List Int) (n : Nat) (s : St XR)
    (hs : Steps (Step m (solveLSM goal eik)) n (initLSM g pts sw incs) s) (h : s.stop = true) : s.g.value goal ≠ .pinf :=
  (good_LSM goal eik).run hs rfl h

/-! ### a run with a goal is the beginning of the run without -/
section Prefix
variable {F : Type} [Arith F]

/-- equal except for the stop flag -/
def Same (a b : St F) : Prop := a.g = b.g ∧ a.keep = b.keep ∧ a.sweeps = b.sweeps ∧ a.incs = b.incs

theorem same_solveFSM (goal goal' : Nat) (eik : Eik F) {a b : St F} (h : Same a b) (i : Nat) : Same (solveFSM goal eik a i) (solveFSM goal' eik b i) := by
  obtain ⟨ag, ak, as, aw, ai⟩ := a
  obtain ⟨bg, bk, bs, bw, bi⟩ := b
  obtain ⟨h1, h2, h3, h4⟩ := h
  dsimp only at h1 h2 h3 h4
  subst h1 h2 h3 h4
  unfold solveFSM
  dsimp only
  split
  · exact ⟨rfl, rfl, rfl, rfl⟩
  · split <;> split <;> exact ⟨rfl, rfl, rfl, rfl⟩

theorem same_solveLSM (goal goal' : Nat) (eik : Eik F) {a b : St F} (h : Same a b) (i : Nat) : Same (solveLSM goal eik a i) (solveLSM goal' eik b i) := by
  obtain ⟨ag, ak, as, aw, ai⟩ := a
  obtain ⟨bg, bk, bs, bw, bi⟩ := b
  obtain ⟨h1, h2, h3, h4⟩ := h
  dsimp only at h1 h2 h3 h4
  subst h1 h2 h3 h4
  unfold solveLSM
  dsimp only
  split
  · split
    · exact ⟨rfl, rfl, rfl, rfl⟩
    · split <;> split <;> exact ⟨rfl, rfl, rfl, rfl⟩
  · exact ⟨rfl, rfl, rfl, rfl⟩

theorem same_sweep {f f' : St F → Nat → St F} (hf : ∀ a b i, Same a b → Same (f a i) (f' b i)) {a b : St F} (h : Same a b) : Same (sweep f a) (sweep f' b) := by
  unfold sweep
  dsimp only
  rw [h.1, h.2.2.1, h.2.2.2]
  have h0 : Same { a with g := b.g, keep := false, incs := bump b.incs, sweeps := u32 (b.sweeps + 1) } { b with keep := false, incs := bump b.incs, sweeps := u32 (b.sweeps + 1) } :=
    ⟨rfl, rfl, rfl, rfl⟩
  generalize ({ a with g := b.g, keep := false, incs := bump b.incs, sweeps := u32 (b.sweeps + 1) } : St F) = a0 at h0
  generalize ({ b with keep := false, incs := bump b.incs, sweeps := u32 (b.sweeps + 1) } : St F) = b0 at h0
  generalize sweepOrder b.g.shape.dims (bump b.incs) = l
  induction l generalizing a0 b0 with
  | nil => exact h0
  | cons i l ih =>
    rw [List.foldl_cons, List.foldl_cons]
    apply ih
    unfold visit
    rw [h0.1]
    split
    · exact h0
    · exact hf _ _ _ h0

/-- the run with a goal and the run without, for a solver whose visits do the same -/
theorem goal_prefix {f f' : St F → Nat → St F} {eik : Eik F} (S' : Solver eik f') {goal' : Nat}
    (hst : ∀ s i, (f' s i).stop = true → s.stop = true ∨ i = goal') (hf : ∀ a b i, Same a b → Same (f a i) (f' b i)) {m : Nat} {dims : List Nat} (hne : dims ≠ [])
    (hgoal : dims.prod ≤ goal') {s0 : St F} (hsh : s0.g.shape = Shape.mk' dims) (hd : IsDirs dims.length s0.incs) (h0 : s0.stop = false) {n k : Nat} {s t : St F}
    (hs : Steps (Step m f) n s0 s) (ht : Steps (Step m f') k s0 t) (htd : Done m t) :
    n ≤ k ∧ (Done m s → s.stop = false → t.g = s.g) := by
  have key : ∃ u, Steps (Step m f') n s0 u ∧ Same s u := by
    clear ht htd
    induction hs with
    | refl => exact ⟨_, .refl _, rfl, rfl, rfl, rfl⟩
    | @tail n a b c h1 hstep ih =>
      obtain ⟨u, hu, hsu⟩ := ih hsh hd h0
      obtain ⟨hnd, rfl⟩ := hstep
      refine ⟨_, .tail hu ⟨?_, rfl⟩, same_sweep hf hsu⟩
      have := stop_false S' hst hne hgoal hsh hd hu h0
      unfold Done at hnd ⊢
      rw [not_not] at hnd ⊢
      exact ⟨by rw [← hsu.2.1]; exact hnd.1, this, by rw [← hsu.2.2.1]; exact hnd.2.2⟩
  obtain ⟨u, hu, hsu⟩ := key
  obtain ⟨j, hj, h3⟩ := FMV.Steps.prefix_of_det (r := Step m f') (fun _ _ _ h h' => h.2.trans h'.2.symm) hu ht (fun d hd => hd.1 htd)
  refine ⟨by omega, fun hsd hstop => ?_⟩
  have hud : Done m u := by
    unfold Done at hsd ⊢
    rw [← hsu.2.1, ← hsu.2.2.1]
    intro h
    exact hsd ⟨h.1, hstop, h.2.2⟩
  cases h3 with
  | refl => exact hsu.1.symm
  | tail h4 h5 =>
    obtain ⟨d, hd', -⟩ := FMV.Steps.uncons (Steps.tail h4 h5)
    exact absurd hud hd'.1

/-- **C74** for FSM (what holds): a run with a goal does at most as many sweeps as the run without, and if the goal has not stopped it, it gives the same grid. -/
theorem _root_.FMV.C74_FSM_not_stopped_partial (goal goal' m : Nat) (eik : Eik F) (dims : List Nat) (hne : dims ≠ []) (hgoal : dims.prod ≤ goal') (g : Grid F)
    (hsh : g.shape = Shape.mk' dims) (pts : List Nat) (sw : Nat) (incs : List Int) (hd : IsDirs dims.length incs) (n k : Nat) (s t : St F)
    (hs : Steps (Step m (solveFSM goal eik)) n (initFSM g pts sw incs) s) (ht : Steps (Step m (solveFSM goal' eik)) k (initFSM g pts sw incs) t) (htd : Done m t) :
    n ≤ k ∧ (Done m s → s.stop = false → t.g = s.g) :=
  goal_prefix (solveFSM_solver goal' eik) (solveFSM_stop goal' eik) (fun _ _ i h => same_solveFSM goal goal' eik h i) hne hgoal
    (by
      show (pts.foldl _ g).shape = _
      refine foldl_inv (I := fun x : Grid F => x.shape = Shape.mk' dims) _ _ _ hsh ?_
      intro x i _ h; exact h) hd rfl hs ht htd

/-- **C74** for LSM (what holds): as for FSM. -/
theorem _root_.FMV.C74_LSM_not_stopped_partial (goal goal' m : Nat) (eik : Eik F) (dims : List Nat) (hne : dims ≠ []) (hgoal : dims.prod ≤ goal') (g : Grid F)
    (hsh : g.shape = Shape.mk' dims) (pts : List Nat) (sw : Nat) (incs : List Int) (hd : IsDirs dims.length incs) (n k : Nat) (s t : St F)
    (hs : Steps (Step m (solveLSM goal eik)) n (initLSM g pts sw incs) s) (ht : Steps (Step m (solveLSM goal' eik)) k (initLSM g pts sw incs) t) (htd : Done m t) :
    n ≤ k ∧ (Done m s → s.stop = false → t.g = s.g) :=
  goal_prefix (solveLSM_solver goal' eik) (solveLSM_stop goal' eik) (fun _ _ i h => same_solveLSM goal goal' eik h i) hne hgoal
    (by
      show (pts.foldl initPointLSM (allState .frozen g)).shape = _
      refine foldl_inv (I := fun x : Grid F => x.shape = Shape.mk' dims) _ _ _ hsh ?_
      intro x i _ h
      unfold initPointLSM
      refine foldl_inv (I := fun x : Grid F => x.shape = Shape.mk' dims) _ _ _ h ?_
      intro x i _ h; exact h) hd rfl hs ht htd

end Prefix

end FSM
end FMV
