import Verif.Props.Reuse
import Verif.Props.HeurRun
/-
C63: the heuristics of a re-used FMM*/SFMM* object refer to the current problem.
-/
namespace FMV
open Arith Spec FMM Life
variable {F : Type} [Arith F]

theorem FMMStep.any {pop : FMM.St F → Nat → Prop} {cfg : FMM.Cfg F} {s t : FMM.St F} (h : Obj.FMMStep pop cfg s t) : FMM.StepAny cfg s t := by
  obtain ⟨h1, x, h2, _, h3⟩ := h
  exact ⟨h1, eikS, x, h2, h3⟩

/-- **C63** (part): after any careful history on a grid (any number of solvers, no LSM `reset`), `reset()`, `setInitialAndGoalPoints(pts, goal)` and
`compute()` of an object constructed as FMM, FMM*, SFMM or SFMM* with strategy `h` leave in every labelled cell and every start the heuristic value of
strategy `h` for the goal just given: the Euclidean distance in cells to the goal (DISTANCE), that distance divided by the speed of the cell (TIME), or 0. -/
theorem C63_current_goal_partial (pop : FMM.St XR → Nat → Prop) (w0 w : World XR) (h0 : NewWorld w0) (hc : CarefulCalls false pop w0 w) (k : Nat)
    (d : Bool) (h : Heur) (hk : (w0.obj k).kind = .fmm d h) {dims : List Nat} (hf : Shape.Fits dims (2^32)) (hd : ∀ n ∈ dims, n ≤ 65536)
    (hsh : w.grid.shape = Shape.mk' dims) (pts : List Nat) (goal : Nat) (hg : goal < dims.prod) (G : Grid XR)
    (hr : Result pop [.reset k, .setPoints k pts goal, .compute k] w G) (i : Nat) (hi : i < dims.prod) (hl : i ∈ pts ∨ G.state i ≠ .opn) :
    (h = .none → (G.cells i).hValue = XR.fin 0) ∧
    (h = .distance → (G.cells i).hValue = XR.fin (euclid ((Shape.mk' dims).idx2coord i) ((Shape.mk' dims).idx2coord goal))) ∧
    (∀ v : ℝ, h = .time → v ≠ 0 → w.grid.vel i = XR.fin v →
      (G.cells i).hValue = XR.fin (euclid ((Shape.mk' dims).idx2coord i) ((Shape.mk' dims).idx2coord goal) / v)) := by
  rw [C39_reset_reusable_partial false pop w0 w h0 hc k (by simp) (by rw [hk]; simp) pts goal G] at hr
  obtain ⟨kk, jj, hnew⟩ := h0.objs k
  have hkk : kk = .fmm d h := by rw [hnew] at hk; exact hk
  subst hkk
  rw [result_first ⟨freshGrid w.grid, w0.obj⟩ _ _ _ _ (new_facts (h0.objs k)).1] at hr
  have he : ((w0.obj k).setEnvironment (freshGrid w.grid).cleanGrid) = w0.obj k := by unfold Obj.setEnvironment; rw [hk]
  change Solve pop (((w0.obj k).setEnvironment (freshGrid w.grid).cleanGrid).setPoints pts goal) (freshGrid w.grid).cleanGrid G at hr
  rw [he, fresh_clean] at hr
  obtain ⟨g1, o1, o', hs, hrun⟩ := hr
  obtain ⟨_, rfl, rfl⟩ := setup_spec hs
  obtain ⟨oo, e1, e2, e3, e4, e5⟩ := fmm_setup (freshGrid w.grid) (o := (w0.obj k).setPoints pts goal) hk
  rw [e1] at hrun
  unfold Obj.runs at hrun
  rw [e2] at hrun
  obtain ⟨n, s, hst, _, rfl, _⟩ := hrun
  have hp : oo.pts = pts := e4
  have hheap : oo.heap = [] := e3.trans (new_facts (h0.objs k)).2.1
  rw [hp, hheap] at hst
  have hng : goal ≠ noGoal := by
    have := hf.lt
    unfold noGoal
    omega
  have hst' := Steps.mono (fun _ _ => FMMStep.any) hst
  rw [e5] at hst'
  have ho : ((w0.obj k).setPoints pts goal).goal = goal := rfl
  have hh : ((w0.obj k).setPoints pts goal).heur = h := by rw [hnew]; rfl
  have hpre : ((w0.obj k).setPoints pts goal).pre = false := by rw [hnew]; rfl
  have hshape : (freshGrid w.grid).shape = Shape.mk' dims := hsh
  rw [ho, hh, hpre, hshape, if_neg hng] at hst'
  have hfr : Fresh ((freshGrid w.grid).setClean false) := fresh_Fresh _
  refine ⟨fun e => ?_, fun e => ?_, fun v e hv hvel => ?_⟩
  · exact ((C41_heuristic_in_run _ hfr pts n s hst' i).1 hl).1 e
  · subst e
    exact (C41_heuristic_value hf hd hg _ _ (by simp [hng]; rfl) hfr pts n s hst' i hi hl).1 rfl
  · subst e
    exact (C41_heuristic_value hf hd hg _ _ (by simp [hng]; rfl) hfr pts n s hst' i hi hl).2 v rfl hv hvel

theorem heur_none_setup {o : Obj F} {g : Grid F} (h : o.heur = .none) : (o.setupKind g).heur = .none := by
  unfold Obj.setupKind
  split
  · simp only [Obj.setHeuristics, h]; simp [h]
  all_goals exact h

theorem heur_none_runs {pop : FMM.St F → Nat → Prop} {o o' : Obj F} {g G : Grid F} (h : o.heur = .none) (hr : o.runs pop g G o') : o'.heur = .none := by
  unfold Obj.runs at hr
  split at hr <;> obtain ⟨_, _, _, _, _, rfl⟩ := hr <;> exact h

theorem heur_none_does {pop : FMM.St F → Nat → Prop} {c : Call} {w w' : World F} {k : Nat} (h : (w.obj k).heur = .none) (hd : Does pop c w w') :
    (w'.obj k).heur = .none := by
  have key : ∀ (i : Nat) (g : Grid F) (o : Obj F), (i = k → o.heur = .none) → ((w.put i g o).obj k).heur = .none := by
    intro i g o ho
    rw [put_obj]
    split
    · rename_i e; exact ho e.symm
    · exact h
  cases hd with
  | setEnvironment _ i => exact key _ _ _ (by rintro rfl; unfold Obj.setEnvironment; split <;> exact h)
  | setPoints _ i p g => exact key _ _ _ (by rintro rfl; exact h)
  | setup _ i g o hs =>
    obtain ⟨_, rfl, rfl⟩ := setup_spec hs
    exact key _ _ _ (by rintro rfl; exact heur_none_setup h)
  | computeReady _ i g o _ hr => exact key _ _ _ (by rintro rfl; exact heur_none_runs h hr)
  | computeSetup _ i g1 o1 g o _ hs hr =>
    obtain ⟨_, rfl, rfl⟩ := setup_spec hs
    exact key _ _ _ (by rintro rfl; exact heur_none_runs (heur_none_setup (o := { w.obj i with ready := true }) h) hr)
  | reset _ i => exact key _ _ _ (by rintro rfl; unfold Obj.reset; dsimp only; split <;> exact h)

/-- Once `setup()` has run without a goal, no sequence of `setEnvironment`, `setInitialAndGoalPoints`, `setup`, `compute` and `reset` calls (on any solvers)
brings the heuristics back: `getHeuristics()` stays NOHEUR. -/
theorem C63_no_goal_disables {pop : FMM.St F → Nat → Prop} {w w1 w2 : World F} {k : Nat} {d : Bool} {h : Heur} (hk : (w.obj k).kind = .fmm d h)
    (hg : (w.obj k).goal = noGoal) (hs : Does pop (.setup k) w w1 ∨ ((w.obj k).ready = false ∧ Does pop (.compute k) w w1)) {cs : List Call}
    (hc : Calls pop cs w1 w2) : (w2.obj k).heur = .none := by
  have h0 : ∀ g : Grid F, (({ w.obj k with ready := true } : Obj F).setupKind g).heur = .none := by
    intro g
    unfold Obj.setupKind
    simp only [hk, Obj.setHeuristics, hg]
    simp only [ne_eq, not_true_eq_false, and_false, if_false, true_and]
    split
    · rfl
    · rename_i e; simpa using e
  have h1 : (w1.obj k).heur = .none := by
    rcases hs with hs | ⟨hr, hs⟩
    · cases hs with
      | setup _ _ g o hs =>
        obtain ⟨_, rfl, rfl⟩ := setup_spec hs
        rw [put_self]; exact h0 _
    · cases hs with
      | computeReady _ _ _ _ hr2 _ => rw [hr] at hr2; cases hr2
      | computeSetup _ _ _ _ _ _ _ hs hr =>
        obtain ⟨_, rfl, rfl⟩ := setup_spec hs
        rw [put_self]; exact heur_none_runs (h0 _) hr
  induction hc with
  | nil => exact h1
  | snoc c _ hd ih => exact heur_none_does (ih hs h1) hd

/-- **C63 is false after a run without a goal**: a new FMM* (DISTANCE) is run once without a goal, as `setInitialPoints` does; whatever is called later, its
heuristics stay off. -/
theorem C63_refuted_no_goal (pop : FMM.St XR → Nat → Prop) (hpop : ∀ s : FMM.St XR, s.heap ≠ [] → ∃ x ∈ s.heap, pop s x) :
    ∃ w0 w1 : World XR, NewWorld w0 ∧ (w0.obj 0).kind = .fmm false .distance ∧ (w0.obj 0).heur = .distance ∧
      Calls pop [.setEnvironment 0, .setPoints 0 [0] noGoal, .compute 0] w0 w1 ∧
      ∀ cs w2, Calls pop cs w1 w2 → (w2.obj 0).heur = .none := by
  let g : Grid XR := Grid.create [2,2] (XR.fin 1) (0,0)
  let o : Obj XR := Obj.new (.fmm false .distance) ⟨0, fun _ => XR.fin 0, [], [], XR.fin 0, XR.fin 0⟩
  let w0 : World XR := ⟨g, fun _ => o⟩
  have hfree : ∀ j, g.occ j = false := by
    intro j
    show decide ((1:ℝ) < XR.eps) = false
    unfold XR.eps; simp; norm_num
  have hsan : (o.setPoints [0] noGoal).sanityChecks g = 0 :=
    (sanity_iff _ _).2 ⟨rfl, by simp [Obj.setPoints], fun p _ => hfree p, fun h => absurd rfl h, by decide⟩
  obtain ⟨oo, o1, o2, o3, o4, _⟩ := fmm_setup g (o := o.setPoints [0] noGoal) rfl
  obtain ⟨G, o', hrun⟩ := fmm_returns pop hpop (o := oo) o2 (o3.trans rfl) (dims := [2,2]) (g := g.setClean false)
      ⟨⟨by simp, by simp, by norm_num⟩, rfl, by rw [o4]; simp [Obj.setPoints]⟩
  have d3 := Does.computeSetup (pop := pop) ((w0.put 0 g o).put 0 g (o.setPoints [0] noGoal)) 0 (g.setClean false) oo G o'
    (by rw [put_self]; rfl) (by rw [put_self, put_grid]; unfold Obj.setup; rw [if_pos hsan, o1]) hrun
  refine ⟨w0, _, ⟨rfl, fun _ => ⟨_, _, rfl⟩⟩, rfl, rfl, calls_cons.2 ⟨_, .setEnvironment w0 0, calls_cons.2 ⟨_, .setPoints _ 0 [0] noGoal,
    calls_cons.2 ⟨_, d3, .nil _⟩⟩⟩, fun cs w2 hc => ?_⟩
  exact C63_no_goal_disables (d := false) (h := .distance) (by rw [put_self]; rfl) (by rw [put_self]; rfl) (Or.inr ⟨by rw [put_self]; rfl, d3⟩) hc

/-- The distances a solver uses on grid `B` after it has already computed distances for a grid of another shape: the old table is read with the indices of `B`. -/
theorem setup_stale_table {o o' : Obj F} {d : Bool} {h : Heur} (hk : o.kind = .fmm d h) (hpre : o.pre = true) (hh : o.heur ≠ .none) (hg : o.goal ≠ noGoal)
    {B B' : Grid F} (hs : o.setup B = .ok (B', o')) (i : Nat) :
    (o'.fmmCfg B' d).hdist i = o.dist (distIdx B.shape (B.shape.idx2coord o.goal) i) := by
  obtain ⟨_, rfl, rfl⟩ := setup_spec hs
  obtain ⟨oo, o1, _, _, _, o5⟩ := fmm_setup B hk
  rw [o1, o5]
  simp only [hh, hg, false_or, if_false, hpre, if_true]
  rfl

/-- **C63 is false for another grid**: an FMM* (DISTANCE) that has been set up for a 5 x 5 grid with goal 0 is given an empty 3 x 3 grid (`setEnvironment`, `reset`) with the
same goal.  Its heuristic distance of cell (2,1) is 1, the distance is √5.  (`hp`: what the run on the first grid left in the narrow band.) -/
theorem C63_refuted_other_grid (j : Junk XR) (hp : List Nat) :
    let A : Grid XR := Grid.create [5,5] (XR.fin 1) (0,0)
    let B : Grid XR := Grid.create [3,3] (XR.fin 1) (0,0)
    ∃ A' oA B' oB, (((Obj.new (.fmm false .distance) j).setEnvironment A).setPoints [24] 0).setup A = .ok (A', oA) ∧
      (((({ oA with heap := hp }).setEnvironment B).reset B).2.setPoints [8] 0).setup B = .ok (B', oB) ∧ oB.heur = .distance ∧
      (oB.fmmCfg B' false).hdist 5 = XR.fin 1 ∧
      euclid ((Shape.mk' [3,3]).idx2coord 5) ((Shape.mk' [3,3]).idx2coord 0) = Real.sqrt 5 := by
  intro A B
  have hfA : ∀ j, A.occ j = false := by
    intro j
    show decide ((1:ℝ) < XR.eps) = false
    unfold XR.eps; simp; norm_num
  have hfB : ∀ j, B.occ j = false := by
    intro j
    show decide ((1:ℝ) < XR.eps) = false
    unfold XR.eps; simp; norm_num
  have sA : (((Obj.new (.fmm false .distance) j).setEnvironment A).setPoints [24] 0).sanityChecks A = 0 :=
    (sanity_iff _ _).2 ⟨rfl, by simp [Obj.setPoints], fun p _ => hfA p, fun _ => hfA 0, by show 0 ∉ [24]; decide⟩
  obtain ⟨A', oA, hsetA, hA⟩ : ∃ A' oA, (((Obj.new (.fmm false .distance) j).setEnvironment A).setPoints [24] 0).setup A = .ok (A', oA) ∧
      oA = { (Obj.new (.fmm false .distance) j) with pts := [24], goal := 0, ready := true, hcoord := (A.setClean false).shape.idx2coord 0, dist := precomputeDistances (A.setClean false).shape j.dist, pre := true } := by
    refine ⟨_, _, by unfold Obj.setup; rw [if_pos sA], ?_⟩
    simp only [Obj.setEnvironment, Obj.new, Obj.setPoints, Obj.setupKind, Obj.setHeuristics]
    simp [noGoal]
  have sB : ((({ oA with heap := hp }).setEnvironment B).reset B).2.setPoints [8] 0 =
      { oA with heap := [], ready := false, pts := [8], goal := 0 } := by
    rw [hA]; rfl
  have hsB : (((({ oA with heap := hp }).setEnvironment B).reset B).2.setPoints [8] 0).sanityChecks B = 0 :=
    (sanity_iff _ _).2 ⟨rfl, by rw [sB]; simp, fun p _ => hfB p, fun _ => hfB _, by rw [sB]; show 0 ∉ [8]; decide⟩
  have hset : ((((({ oA with heap := hp }).setEnvironment B).reset B).2.setPoints [8] 0).setup B) = .ok (B.setClean false,
      ({ (((({ oA with heap := hp }).setEnvironment B).reset B).2.setPoints [8] 0) with ready := true } : Obj XR).setupKind (B.setClean false)) := by
    unfold Obj.setup; rw [if_pos hsB]
  refine ⟨A', oA, _, _, hsetA, hset, ?_, ?_, ?_⟩
  · rw [sB, hA]
    simp only [Obj.new, Obj.setupKind, Obj.setHeuristics]
    simp [noGoal]
  · rw [setup_stale_table (h := .distance) (by rw [sB, hA]; rfl) (by rw [sB, hA]) (by rw [sB, hA]; simp [Obj.new]) (by rw [sB]; show 0 ≠ noGoal; decide) hset 5, sB, hA]
    have e1 : distIdx B.shape (B.shape.idx2coord 0) 5 = 5 := by decide
    have e2 : (A.setClean false).shape.idx2coord 5 = [0, 1] := by decide
    show precomputeDistances (A.setClean false).shape j.dist (distIdx B.shape (B.shape.idx2coord 0) 5) = _
    rw [e1]
    unfold precomputeDistances
    rw [if_pos (by decide)]
    unfold cellDist
    rw [e2]
    simp only [List.foldl_cons, List.foldl_nil]
    show XR.sqrt (XR.add (XR.add (XR.fin 0) (XR.fin _)) (XR.fin _)) = _
    simp [XR.add, u32, XR.sqrt]
  · have e1 : (Shape.mk' [3,3]).idx2coord 5 = [2, 1] := by decide
    have e2 : (Shape.mk' [3,3]).idx2coord 0 = [0, 0] := by decide
    rw [e1, e2]
    unfold euclid
    norm_num

/-- **C63 is false if the goal is changed without `reset()`**: the distances used still refer to the goal of the last `setup()`. -/
theorem C63_stale_goal (o : Obj F) (g : Grid F) (d : Bool) (pts : List Nat) (goal : Nat) :
    ((o.setPoints pts goal).fmmCfg g d).hdist = (o.fmmCfg g d).hdist ∧ ((o.setPoints pts goal).fmmCfg g d).goal = goal := ⟨rfl, rfl⟩

/-- non-vacuity of `C63_current_goal_partial`: an FMM* (TIME) on an empty 2 x 2 grid with start 0 and goal 3, after an empty history -/
example : ∃ (w0 : World XR) (G : Grid XR), NewWorld w0 ∧ CarefulCalls false FMM.IsTop w0 w0 ∧ (w0.obj 0).kind = .fmm false .time ∧ w0.grid.shape = Shape.mk' [2,2] ∧
    Result FMM.IsTop [.reset 0, .setPoints 0 [0] 3, .compute 0] w0 G ∧ w0.grid.vel 0 = XR.fin 1 := by
  let g : Grid XR := Grid.create [2,2] (XR.fin 1) (0,0)
  let o : Obj XR := Obj.new (.fmm false .time) ⟨0, fun _ => XR.fin 0, [], [], XR.fin 0, XR.fin 0⟩
  let w0 : World XR := ⟨g, fun _ => o⟩
  have hfree : ∀ j, g.occ j = false := by
    intro j
    show decide ((1:ℝ) < XR.eps) = false
    unfold XR.eps; simp; norm_num
  have hsan : ((o.reset g).2.setPoints [0] 3).sanityChecks g = 0 :=
    (sanity_iff _ _).2 ⟨rfl, by simp [Obj.setPoints], fun p _ => hfree p, fun _ => hfree 3, by decide⟩
  obtain ⟨oo, o1, o2, o3, o4, _⟩ := fmm_setup g (o := (o.reset g).2.setPoints [0] 3) rfl
  obtain ⟨G, o', hrun⟩ := fmm_returns FMM.IsTop (fun s hs => by
      obtain ⟨x, hx, hmin⟩ := FMM.exists_min XR.ltLaws (fun y => (s.g.cells y).total) s.heap hs
      exact ⟨x, hx, hx, hmin⟩) (o := oo) o2 (o3.trans rfl) (dims := [2,2]) (g := g.setClean false)
      ⟨⟨by simp, by simp, by norm_num⟩, rfl, by rw [o4]; simp [Obj.setPoints]⟩
  refine ⟨w0, G, ⟨rfl, fun _ => ⟨_, _, rfl⟩⟩, .nil _, rfl, rfl, ?_, rfl⟩
  rw [result_reset]
  refine ⟨_, oo, o', ?_, hrun⟩
  show ((o.reset g).2.setPoints [0] 3).setup g = _
  unfold Obj.setup; rw [if_pos hsan, o1]

end FMV
