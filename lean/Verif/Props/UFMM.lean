import Verif.Lemmas.UFMM
/-!
# UFMM: C10, C11, C12, C13, C18, C20 and C50
-/
set_option linter.unusedSectionVars false
set_option linter.unusedVariables false
namespace FMV
open Arith Spec Shape FMM
variable {F : Type} [Arith F]
namespace UFMM

theorem relax_sameMap (eik : Eik F) (s : St F) (j : Nat) : SameMap s.g (relax eik s j).g := by
  rcases relax_cases eik s j with ⟨_, e⟩ | ⟨_, _, _, e⟩ | ⟨_, _, _, e⟩ | ⟨_, _, e⟩ <;> rw [e]
  · exact SameMap.refl _
  · exact ((sameMap_setScratch _ _).trans (sameMap_setValue _ _ _)).trans (sameMap_setBucket _ _ _)
  · exact sameMap_setScratch _ _
  · exact (((sameMap_setScratch _ _).trans (sameMap_setState _ _ _)).trans (sameMap_setValue _ _ _)).trans (sameMap_setBucket _ _ _)

theorem relax_protected {eik : Eik F} {s : St F} {j k : Nat} (h : s.g.state k = .frozen ∨ s.g.occ k = true) :
    (relax eik s j).g.cells k = s.g.cells k := by
  have hk : k = j → False ∨ (s.g.state j = .frozen ∨ s.g.occ j = true) := fun e => Or.inr (e ▸ h)
  rcases relax_cases eik s j with ⟨_, e⟩ | ⟨ho, hn, _, e⟩ | ⟨_, _, _, e⟩ | ⟨ho, hn, e⟩ <;> rw [e]
  · have : k ≠ j := by
      rintro rfl; rcases h with h | h
      · rw [hn] at h; cases h
      · rw [ho] at h; cases h
    rw [cells_setBucket, if_neg this, cells_setValue_ne _ _ this]; rfl
  · rfl
  · have : k ≠ j := by
      rintro rfl; rcases h with h | h
      · rw [hn] at h; cases h
      · rw [ho] at h; cases h
    rw [cells_setBucket, if_neg this, cells_setValue_ne _ _ this, cells_setState_ne _ _ this]; rfl

theorem expand_sameMap (goal : Nat) (eik : Eik F) (s : St F) (x : Nat) : SameMap s.g (expand goal eik s x).g := by
  show SameMap s.g (List.foldl (relax eik) { s with g := s.g.setState x .frozen } (s.g.shape.nbrs x)).g
  exact foldl_inv (I := fun t : St F => SameMap s.g t.g) _ _ _ (sameMap_setState _ _ _) (fun t j _ h => h.trans (relax_sameMap eik t j))

/-- **C20** for UFMM: the map is never modified (any starting queue, any arithmetic). -/
theorem _root_.FMV.C20_UFMM (goal : Nat) (eik : Eik F) (g : Grid F) (q : UQ F) (pts : List Nat) (n : Nat) (s : St F)
    (hs : Steps (Step goal eik) n (init g q pts) s) : SameMap g s.g := by
  refine Steps.inv (I := fun s : St F => SameMap g s.g) ?_ hs (init_g g q pts).1
  rintro s t h ⟨_, x, _, rfl⟩
  exact h.trans (expand_sameMap goal eik { s with q := s.q.top.1 } x)

/-- **C11** for UFMM: the arrival time of an occupied cell that is not an initial point is never changed. -/
theorem _root_.FMV.C11_UFMM (goal : Nat) (eik : Eik F) (g : Grid F) (q : UQ F) (pts : List Nat) (n : Nat) (s : St F)
    (hs : Steps (Step goal eik) n (init g q pts) s) (i : Nat) (hocc : g.occ i = true) (hni : i ∉ pts) : s.g.value i = g.value i := by
  have := Steps.inv (I := fun s : St F => s.g.value i = g.value i ∧ s.g.occ i = true) (r := Step goal eik) ?_ hs ?_
  · exact this.1
  · rintro s t ⟨h1, h2⟩ ⟨_, x, _, rfl⟩
    have key : ∀ t : St F, t.g.value i = g.value i ∧ t.g.occ i = true → ∀ j, (relax eik t j).g.value i = g.value i ∧ (relax eik t j).g.occ i = true := by
      rintro t ⟨h1, h2⟩ j
      have := relax_protected (eik := eik) (j := j) (Or.inr h2 : t.g.state i = .frozen ∨ _)
      exact ⟨by unfold Grid.value; rw [this]; exact h1, by unfold Grid.occ; rw [this]; exact h2⟩
    exact foldl_inv (I := fun t : St F => t.g.value i = g.value i ∧ t.g.occ i = true) _ _ _
      ⟨by show (s.g.setState x .frozen).value i = _; rw [Grid.value_setState]; exact h1, by show (s.g.setState x .frozen).occ i = _; rw [Grid.occ_setState]; exact h2⟩
      (fun t j _ h => key t h j)
  · obtain ⟨g1, _, g3, _, _⟩ := init_g g q pts
    rw [g3, if_neg hni]
    exact ⟨rfl, by rw [SameMap.occ_eq g1]; exact hocc⟩

/-- **C12** for UFMM: a FROZEN cell is never changed again, except that an initial point may be popped (and marked FROZEN) once more. -/
theorem _root_.FMV.C12_UFMM (goal : Nat) (eik : Eik F) (s t : St F) (n : Nat) (hs : Steps (Step goal eik) n s t) (i : Nat)
    (hi : s.g.state i = .frozen) : t.g.cells i = s.g.cells i := by
  have := Steps.inv (I := fun t : St F => t.g.cells i = s.g.cells i) (r := Step goal eik) ?_ hs rfl
  · exact this
  · rintro u t h ⟨_, x, _, rfl⟩
    have hf : u.g.state i = .frozen := by unfold Grid.state; rw [h]; exact hi
    refine foldl_inv (I := fun t : St F => t.g.cells i = s.g.cells i) _ _ _ ?_ ?_
    · show (u.g.setState x .frozen).cells i = _
      rw [← h]
      by_cases hix : i = x
      · subst hix
        have hf' : (u.g.cells i).state = .frozen := hf
        unfold Grid.setState Grid.modify; dsimp only; rw [if_pos rfl, ← hf']
      · exact cells_setState_ne _ _ hix
    · intro t j _ ht
      have := relax_protected (eik := eik) (j := j) (Or.inl (by unfold Grid.state; rw [ht]; exact hi) : t.g.state i = .frozen ∨ t.g.occ i = true)
      rw [this]; exact ht

/-- **C13** for UFMM (any initial points, any arithmetic): the main loop makes at most (cells + initial points) iterations. -/
theorem _root_.FMV.C50_UFMM_linear {dims : List Nat} {g : Grid F} {pts : List Nat} (hin : Input dims g pts) (hop : ∀ i, g.state i = .opn)
    {size : Nat} (hs : 0 < size) (inc : F) (ub : F → Nat) (goal : Nat) (n : Nat) (s : St F)
    (h : Steps (Step goal eikS) n (init g (UQ.create size inc ub) pts) s) : n ≤ dims.prod + pts.length := by
  obtain ⟨heap, _, hsim⟩ := simulates_weak hop hs h
  exact C13_FMM_linear (fcfg goal) rfl dims g.nob pts ⟨hin.fits, hin.shape, hin.inside⟩ n _ (hsim.mono (fun _ _ => StepLib.any))

/-- **C50** (soundness, any initial points, any arithmetic): only initial points and cells connected to one through free cells are frozen. -/
theorem _root_.FMV.C50_UFMM_only_reachable {dims : List Nat} {g : Grid F} {pts : List Nat} (hin : Input dims g pts) (hop : ∀ i, g.state i = .opn)
    {size : Nat} (hs : 0 < size) (inc : F) (ub : F → Nat) (goal : Nat) (n : Nat) (s : St F)
    (h : Steps (Step goal eikS) n (init g (UQ.create size inc ub) pts) s) (i : Nat) (hi : s.g.state i = .frozen) : reach dims g pts i := by
  obtain ⟨heap, _, hsim⟩ := simulates_weak hop hs h
  exact C14_only_reachable (fcfg goal) dims g.nob pts ⟨hin.fits, hin.shape, hin.inside⟩ hop n _ (hsim.mono (fun _ _ => StepLib.any)) i hi

/-- **C50** (non-adjacent initial points): when UFMM runs out of elements, the FROZEN cells are exactly the reachable ones. -/
theorem _root_.FMV.C50_UFMM_frozen_iff_reachable_partial {dims : List Nat} {g : Grid F} {pts : List Nat} (hin : Input dims g pts) (hop : ∀ i, g.state i = .opn)
    (hap : StartsApart dims g pts) {size : Nat} (hs : 0 < size) (inc : F) (ub : F → Nat) (hz : ZeroFirst size inc ub pts) (goal : Nat)
    (n : Nat) (s : St F) (h : Steps (Step goal eikS) n (init g (UQ.create size inc ub) pts) s) (hend : s.q.nb = 0) (i : Nat) :
    s.g.state i = .frozen ↔ reach dims g pts i := by
  obtain ⟨heap, rem, I, hc, hsim⟩ := simulates hin hop hap hs hz h
  have he : heap = [] := by
    have := I.wf.nb_zero.1 hend
    rw [hc] at this
    simpa using this
  exact C14_frozen_iff_reachable (fcfg goal) dims g.nob pts ⟨hin.fits, hin.shape, hin.inside⟩ hop n _ (hsim.mono (fun _ _ => StepLib.any)) he i

/-- **C50** (non-adjacent initial points): UFMM ends within (cells + initial points) iterations, and `top()` always returns; without a goal it ends
with an empty queue. -/
theorem _root_.FMV.C50_UFMM_terminates_partial {dims : List Nat} {g : Grid F} {pts : List Nat} (hin : Input dims g pts) (hop : ∀ i, g.state i = .opn)
    (hap : StartsApart dims g pts) {size : Nat} (hs : 0 < size) (inc : F) (ub : F → Nat) (hz : ZeroFirst size inc ub pts) (goal : Nat) :
    (∀ n s, Steps (Step goal eikS) n (init g (UQ.create size inc ub) pts) s → ¬ Done s → ∃ s', Step goal eikS s s') ∧
    ∃ n s, n ≤ dims.prod + pts.length ∧ Steps (Step goal eikS) n (init g (UQ.create size inc ub) pts) s ∧ Done s ∧
      (dims.prod ≤ goal → s.q.nb = 0) := by
  have prog : ∀ n s, Steps (Step goal eikS) n (init g (UQ.create size inc ub) pts) s → ¬ Done s → ∃ s', Step goal eikS s s' := by
    intro n s h hd
    obtain ⟨heap, rem, I, hc, hsim⟩ := simulates hin hop hap hs hz h
    obtain ⟨x, hx, _⟩ := UQ.top_some I.wf (fun h0 => hd (Or.inr (I.wf.nb_zero.2 h0)))
    exact ⟨_, hd, x, hx, rfl⟩
  refine ⟨prog, ?_⟩
  by_contra hcon
  push Not at hcon
  have hlin := C50_UFMM_linear hin hop hs inc ub goal
  have nd : ∀ n s, Steps (Step goal eikS) n (init g (UQ.create size inc ub) pts) s → ¬ Done s := by
    intro n s h hd
    obtain ⟨hg, hnb⟩ := hcon n s (hlin n s h) h hd
    obtain ⟨heap, rem, I, hc, hsim⟩ := simulates hin hop hap hs hz h
    have hin' : Input dims g.nob pts := ⟨hin.fits, hin.shape, hin.inside⟩
    have hstop := C14_no_goal_ends_empty (fcfg goal) dims g.nob pts hin' hg n _ (hsim.mono (fun _ _ => StepLib.any))
    rcases hd with hd | hd
    · have := hstop (Or.inl hd)
      simp only at this
      exact hnb (I.wf.nb_zero.2 (by rw [hc, this]; rfl))
    · exact hnb hd
  have : ∀ n, ∃ s, Steps (Step goal eikS) n (init g (UQ.create size inc ub) pts) s := by
    intro n
    induction n with
    | zero => exact ⟨_, .refl _⟩
    | succ n ih =>
      obtain ⟨s, h⟩ := ih
      obtain ⟨s', h'⟩ := prog n s h (nd n s h)
      exact ⟨s', .tail h h'⟩
  obtain ⟨s, h⟩ := this (dims.prod + pts.length + 1)
  have := hlin _ s h
  omega

/-- **C10** for UFMM (partial: initial points must be pairwise non-adjacent; any arithmetic): in every state every initial point has arrival time 0. -/
theorem _root_.FMV.C10_UFMM_partial {dims : List Nat} {g : Grid F} {pts : List Nat} (hin : Input dims g pts) (hop : ∀ i, g.state i = .opn)
    (hap : StartsApart dims g pts) {size : Nat} (hs : 0 < size) (inc : F) (ub : F → Nat) (hz : ZeroFirst size inc ub pts) (goal : Nat)
    (n : Nat) (s : St F) (h : Steps (Step goal eikS) n (init g (UQ.create size inc ub) pts) s) (i : Nat) (hi : i ∈ pts) : s.g.value i = zero := by
  obtain ⟨heap, rem, I, _⟩ := simulates hin hop hap hs hz h
  exact (I.start i hi).1

/-- In exact arithmetic the initial points always go to the first bucket. -/
theorem zeroFirst_exact {size : Nat} {inc : ℝ} (hinc : 0 < inc) (ub : XR → Nat) (pts : List Nat) : ZeroFirst size (XR.fin inc) ub pts := by
  right
  unfold UQ.rawIdx
  have : Arith.div (Arith.mul (Arith.sub (Arith.zero : XR) (UQ.create size (XR.fin inc) ub).t0) (Arith.ofNat (UQ.create size (XR.fin inc) ub).size))
      (UQ.create size (XR.fin inc) ub).incMax = XR.fin 0 := by
    show XR.div (XR.mul (XR.add (XR.fin 0) (XR.neg (XR.fin 0))) (XR.fin _)) (XR.fin inc) = _
    simp only [XR.neg, XR.add, XR.mul, XR.div, if_neg hinc.ne']
    simp
  dsimp only
  rw [this]
  show (if 0 ≤ ⌊(0:ℝ)⌋ ∧ ⌊(0:ℝ)⌋ < 4294967296 then some ⌊(0:ℝ)⌋.toNat else none).getD _ = 0
  simp

theorem nobX {dims : List Nat} {g : Grid XR} {h : ℝ} {v : Nat → ℝ} {pts : List Nat} (X : XInput dims g h v pts) : XInput dims g.nob h v pts :=
  ⟨X.fits, X.two, X.shape, X.inside, X.hpos, X.leaf, X.speed⟩

/-- **C18** for UFMM (any initial points, any window and number of buckets): no arrival time is ever below the exact solution, nor NaN, nor
negative. -/
theorem _root_.FMV.C18_UFMM {dims : List Nat} {g : Grid XR} {h : ℝ} {v : Nat → ℝ} {pts : List Nat} (X : XInput dims g h v pts) (hfr : Fresh g)
    (U : Nat → WithTop ℝ) (hU : X.problem.IsSolution U) {size : Nat} (hs : 0 < size) (inc : XR) (ub : XR → Nat) (goal : Nat) (n : Nat) (s : St XR)
    (hst : Steps (Step goal eikS) n (init g (UQ.create size inc ub) pts) s) (i : Nat) (hi : i < dims.prod) :
    GoodT (s.g.value i) ∧ U i ≤ toT (s.g.value i) := by
  obtain ⟨heap, _, hsim⟩ := simulates_weak hfr.state hs hst
  exact C18_FMM (nobX X) ⟨hfr.value, hfr.state, hfr.hValue⟩ U hU (fcfg goal) n _ hsim i hi

/-- non-vacuity: a 3x3 grid with starts in opposite corners and the default queue: the hypotheses hold, and the run ends with an empty queue -/
example : ∃ (g : Grid XR), XInput [3,3] g 1 (fun _ => 1) [0, 8] ∧ Fresh g ∧ StartsApart [3,3] g [0, 8] ∧
    ∃ n s, Steps (Step noGoal eikS) n (init g (UQ.create 1000 (XR.fin 2) (fun _ => 0)) [0, 8]) s ∧ s.q.nb = 0 ∧ s.g.state 4 = .frozen := by
  have hap : StartsApart [3,3] (Grid.create [3,3] (XR.fin 1) (0,0)) [0, 8] := by
    intro i hi j hj _ hadj
    obtain ⟨k, h0, h1, h2, h3⟩ := hadj
    fin_cases hi <;> fin_cases hj <;> revert h1 h2 h3 <;> (intro h1 h2 h3)
    all_goals
      have h4 : k = 0 ∨ k = 1 := by
        have : k < 2 := h1
        omega
      rcases h4 with rfl | rfl <;> revert h2 <;> decide
  have hin : Input [3,3] (Grid.create [3,3] (XR.fin 1) (0,0)) [0, 8] := ⟨⟨by decide, by decide, by decide⟩, rfl, by decide⟩
  refine ⟨Grid.create [3,3] (XR.fin 1) (0,0), ⟨⟨by decide, by decide, by decide⟩, by decide, rfl, by decide, one_pos, rfl, fun _ _ _ => rfl⟩,
    ⟨fun _ => rfl, fun _ => rfl, fun _ => rfl⟩, hap, ?_⟩
  have hz := zeroFirst_exact (size := 1000) (inc := 2) (by norm_num) (fun _ => 0) [0, 8]
  obtain ⟨n, s, _, h, _, he⟩ := (C50_UFMM_terminates_partial hin (fun _ => rfl) hap (by norm_num) (XR.fin 2) (fun _ => 0) hz noGoal).2
  have he := he (by decide)
  refine ⟨n, s, h, he, ?_⟩
  rw [C50_UFMM_frozen_iff_reachable_partial hin (fun _ => rfl) hap (by norm_num) (XR.fin 2) (fun _ => 0) hz noGoal n s h he 4]
  have hfree : ∀ j, (Grid.create [3,3] (XR.fin 1) (0,0)).occ j = false := by
    intro j
    show decide ((1:ℝ) < XR.eps) = false
    unfold XR.eps; simp; norm_num
  have h1 : reach [3,3] (Grid.create [3,3] (XR.fin 1) (0,0)) [0, 8] 0 := .start (by simp) (by decide)
  have h2 : reach [3,3] (Grid.create [3,3] (XR.fin 1) (0,0)) [0, 8] 1 :=
    .move h1 (by decide) (hfree 1) ((axisAdjacent_iff (i := 0) hin.fits (by decide)).1 (by decide)).2
  exact .move h2 (by decide) (hfree 4) ((axisAdjacent_iff (i := 1) hin.fits (by decide)).1 (by decide)).2

end UFMM
end FMV
