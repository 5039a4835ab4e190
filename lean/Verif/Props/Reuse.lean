import Verif.Props.Lifecycle
import Verif.Props.Agree
/-!
# C39 and C40: a solver can be used again after `reset()`, and solvers can share a grid
-/
set_option linter.unusedSectionVars false
set_option linter.unusedVariables false
namespace FMV
open Arith Spec Shape
variable {F : Type} [Arith F]
namespace Life

theorem fresh_fresh (g : Grid F) : freshGrid (freshGrid g) = freshGrid g := rfl
theorem fresh_clean (g : Grid F) : (freshGrid g).cleanGrid = freshGrid g := rfl

/-- what is needed of the new object -/
theorem new_facts {o : Obj F} (h : ∃ k j, o = Obj.new k j) : o.ready = false ∧ o.heap = [] ∧ o.sweeps = 0 ∧ o.q0 = [] ∧ o.q1 = [] ∧ o.list = [] ∧
    o.pre = false ∧ (∀ d h, o.kind = .fmm d h → o.heur = h) ∧
    ∀ a b c, o.kind = .ufmm a b c → o.uq = UQ.create a b c := by
  obtain ⟨k, j, rfl⟩ := h
  refine ⟨rfl, rfl, rfl, rfl, rfl, rfl, rfl, ?_, ?_⟩
  · intro d h hk; change k = _ at hk; subst hk; rfl
  · intro a b c hk; change k = _ at hk; subst hk; rfl

theorem dist_congr {g0 : Grid F} {o0 o : Obj F} (ok : ObjOk g0 o0 o) (hn : o0.pre = false) {sh : Shape} (hs : sh = g0.shape) :
    (if o.pre then o.dist else FMM.precomputeDistances sh o.dist) = (if o0.pre then o0.dist else FMM.precomputeDistances sh o0.dist) := by
  rw [hn, hs]
  rcases ok.pre with ⟨h1, h2⟩ | ⟨h1, h2⟩ <;> rw [h1, h2] <;> rfl

theorem reset_lsm {o : Obj F} {g : Grid F} (h : ∃ m, o.kind = .lsm m) : (o.reset g).1 = FSM.allState .frozen g.cleanGrid := by
  obtain ⟨m, h⟩ := h
  unfold Obj.reset
  dsimp only
  rw [h]

theorem reset_other {o : Obj F} {g : Grid F} (h : ¬ ∃ m, o.kind = .lsm m) : (o.reset g).1 = g.cleanGrid := by
  unfold Obj.reset
  dsimp only
  split
  case h_3 m hk => exact absurd ⟨m, hk⟩ h
  all_goals rfl

/-- after `reset` the object agrees with the new one, except for the threshold of DDQM -/
theorem reset_agree {lsm : Bool} {w0 w : World F} (h0 : NewWorld w0) (I : LInv lsm w0 w) {k : Nat} (hl : lsm = true → IsLSM (w0.obj k))
    (hd : (w0.obj k).kind ≠ .ddqm) (pts : List Nat) (goal : Nat) :
    Agree (((w.obj k).reset w.grid).2.setPoints pts goal) (((w0.obj k).setEnvironment (freshGrid w.grid)).setPoints pts goal)
      ((w.obj k).reset w.grid).1 (freshGrid w.grid) := by
  obtain ⟨n1, n2, n3, n4, n5, n6, n7, n8, n9⟩ := new_facts (h0.objs k)
  have ok := I.obj k
  have henv : (w0.obj k).setEnvironment (freshGrid w.grid) = w0.obj k := by
    unfold Obj.setEnvironment
    split
    · next h => exact absurd h hd
    · rfl
  rw [henv]
  have hkr : ((w.obj k).reset w.grid).2.kind = (w0.obj k).kind := by
    rw [← ok.kind]; unfold Obj.reset; split <;> rfl
  have hm0 : SameMap w0.grid (freshGrid w.grid) := I.map.trans (fresh_map _)
  have hcases := clean_fresh I.cells
  have hgrid : (¬ (∃ m, (w0.obj k).kind = .lsm m) ∧ ((w.obj k).reset w.grid).1 = freshGrid w.grid) ∨
      ((∃ m, (w0.obj k).kind = .lsm m) ∧ ((w.obj k).reset w.grid).1 = FSM.allState .frozen (freshGrid w.grid)) := by
    by_cases hc : ∃ m, (w0.obj k).kind = .lsm m
    · refine Or.inr ⟨hc, ?_⟩
      rw [reset_lsm (by rw [ok.kind]; exact hc)]
      rcases hcases with h | ⟨_, h⟩ <;> rw [h]
      exact allState_idem _ _
    · refine Or.inl ⟨hc, ?_⟩
      rw [reset_other (by rw [ok.kind]; exact hc)]
      rcases hcases with h | ⟨h, _⟩
      · exact h
      · exact absurd (hl h) hc
  have hshape : ((w.obj k).reset w.grid).1.shape = w0.grid.shape := by
    rcases hgrid with ⟨_, h⟩ | ⟨_, h⟩ <;> rw [h] <;> exact I.map.shape
  refine ⟨hkr, rfl, rfl, ?_, ?_, ?_, ?_, ?_, ?_, ?_⟩
  · rcases hgrid with ⟨_, h⟩ | ⟨hc, h⟩
    · exact Or.inl h
    · refine Or.inr ⟨Or.inl hc, ?_, ?_, ?_⟩
      · rw [h]; exact SameMap.symm' (Kept.allState (Kept.refl _) _).map
      · rw [h]; rfl
      · rw [h]; exact allState_idem _ _
  · intro d h hk
    have hk' : (w.obj k).kind = .fmm d h := ok.kind.trans hk
    have e : ((w.obj k).reset w.grid).2 = { w.obj k with ready := false, heap := [] } := by unfold Obj.reset; dsimp only; rw [hk']
    refine ⟨?_, ?_, ?_⟩
    · show ((w.obj k).reset w.grid).2.heap = (w0.obj k).heap
      rw [e, n2]
    · show ((w.obj k).reset w.grid).2.heur = (w0.obj k).heur
      rw [e, ← ok.heur]
    · show (if ((w.obj k).reset w.grid).2.pre then ((w.obj k).reset w.grid).2.dist else
          FMM.precomputeDistances ((w.obj k).reset w.grid).1.shape ((w.obj k).reset w.grid).2.dist) = _
      rw [hshape, e, show (freshGrid w.grid).shape = w0.grid.shape from I.map.shape]
      exact dist_congr ok n7 rfl
  · rintro (⟨m, hk⟩ | ⟨m, hk⟩)
    · have hk' : (w.obj k).kind = .fsm m := ok.kind.trans hk
      show ((w.obj k).reset w.grid).2.sweeps = (w0.obj k).sweeps
      rw [n3]; unfold Obj.reset; dsimp only; rw [hk']
    · have hk' : (w.obj k).kind = .lsm m := ok.kind.trans hk
      show ((w.obj k).reset w.grid).2.sweeps = (w0.obj k).sweeps
      rw [n3]; unfold Obj.reset; dsimp only; rw [hk']
  · intro hk; exact absurd hk hd
  · rintro (⟨m, hk⟩ | ⟨m, hk⟩)
    · have hk' : (w.obj k).kind = .fim m := ok.kind.trans hk
      show ((w.obj k).reset w.grid).2.list = (w0.obj k).list
      rw [n6]; unfold Obj.reset; dsimp only; rw [hk']
    · have hk' : (w.obj k).kind = .gmm m := ok.kind.trans hk
      show ((w.obj k).reset w.grid).2.list = (w0.obj k).list
      rw [n6]; unfold Obj.reset; dsimp only; rw [hk']
  · intro dt hk
    have hk' : (w.obj k).kind = .gmm dt := ok.kind.trans hk
    have hg1 : ((w.obj k).reset w.grid).1 = freshGrid w.grid := by
      rcases hgrid with ⟨_, h⟩ | ⟨⟨m, h⟩, _⟩
      · exact h
      · cases h.symm.trans hk
    have e : ((w.obj k).reset w.grid).2 = { w.obj k with ready := false, list := [] } := by unfold Obj.reset; dsimp only; rw [hk']
    show GMM.deltau ((w.obj k).reset w.grid).2.deltau ((w.obj k).reset w.grid).1 = GMM.deltau (w0.obj k).deltau (freshGrid w.grid)
    rw [hg1, e]
    dsimp only
    rcases ok.dt with h | h
    · rw [h]
    · rw [h, deltau_congr hm0, deltau_congr hm0, deltau_idem]
  · intro a b c hk
    have hk' : (w.obj k).kind = .ufmm a b c := ok.kind.trans hk
    have e : ((w.obj k).reset w.grid).2 = { w.obj k with ready := false, uq := (w.obj k).uq.clear } := by unfold Obj.reset; dsimp only; rw [hk']
    show ((w.obj k).reset w.grid).2.uq = (w0.obj k).uq
    rw [e]
    dsimp only
    have hq := ok.uq
    rw [n9 a b c hk] at hq ⊢
    exact SameQ.clear _ hq

/-- **C39**: after any careful history with any number of solvers on the grid, `reset()` of a solver (of a class other than DDQM) makes it as good as
new: solving any problem next can produce exactly the grids that a newly constructed solver of the same class can produce on a new grid with the
same map; in particular it exits, or runs forever, in the same cases.  If `reset()` of LSM objects occurs in the history (`lsm = true`), this is
shown for LSM solvers only (`C40_refuted_LSM_reset` shows that it fails for others). -/
theorem _root_.FMV.C39_reset_reusable_partial (lsm : Bool) (pop : FMM.St F → Nat → Prop) (w0 w : World F) (h0 : NewWorld w0)
    (h : CarefulCalls lsm pop w0 w) (k : Nat) (hl : lsm = true → IsLSM (w0.obj k)) (hd : (w0.obj k).kind ≠ .ddqm) (pts : List Nat) (goal : Nat)
    (G : Grid F) :
    Result pop [.reset k, .setPoints k pts goal, .compute k] w G ↔
      Result pop [.setEnvironment k, .setPoints k pts goal, .compute k] ⟨freshGrid w.grid, w0.obj⟩ G := by
  have I := LInv.calls h0 h
  rw [result_reset, result_first ⟨freshGrid w.grid, w0.obj⟩ _ _ _ _ (new_facts (h0.objs k)).1]
  have A := reset_agree h0 I hl hd pts goal
  exact ⟨A.solve, A.symm.solve⟩

/-- **C40**: after any careful history of other solvers on the grid, a solver used for the first time can produce exactly the grids it can produce
on a new grid with the same map.  If `reset()` of LSM objects occurs in the history (`lsm = true`), this is shown for LSM and DDQM only, which
overwrite all states themselves (`C40_refuted_LSM_reset` shows that it fails for FMM). -/
theorem _root_.FMV.C40_shared_grid_partial (lsm : Bool) (pop : FMM.St F → Nat → Prop) (w0 w : World F) (h0 : NewWorld w0)
    (h : CarefulCalls lsm pop w0 w) (k : Nat) (hl : lsm = true → IsLSM (w0.obj k) ∨ (w0.obj k).kind = .ddqm) (hu : w.obj k = w0.obj k)
    (pts : List Nat) (goal : Nat) (G : Grid F) :
    Result pop [.setEnvironment k, .setPoints k pts goal, .compute k] w G ↔
      Result pop [.setEnvironment k, .setPoints k pts goal, .compute k] ⟨freshGrid w.grid, w0.obj⟩ G := by
  have I := LInv.calls h0 h
  have hr := (new_facts (h0.objs k)).1
  rw [result_first ⟨freshGrid w.grid, w0.obj⟩ _ _ _ _ hr, result_first w _ _ _ _ (by rw [hu]; exact hr), hu]
  show _ ↔ Solve pop (((w0.obj k).setEnvironment (freshGrid w.grid)).setPoints pts goal) (freshGrid w.grid) G
  have hmap : SameMap w.grid.cleanGrid (freshGrid w.grid) := by
    rcases clean_fresh I.cells with h | ⟨_, h⟩ <;> rw [h]
    · exact SameMap.refl _
    · exact SameMap.symm' (Kept.allState (Kept.refl _) _).map
  have henv : (w0.obj k).setEnvironment w.grid.cleanGrid = (w0.obj k).setEnvironment (freshGrid w.grid) := by
    have hmap := SameMap.symm' hmap
    unfold Obj.setEnvironment DDQM.thStepEnv
    rw [avgSpeed_congr hmap, hmap.leaf]
  rw [henv]
  rcases clean_fresh I.cells with h | ⟨hl', h⟩
  · rw [h]
  · have hk : ((w0.obj k).setEnvironment (freshGrid w.grid)).kind = (w0.obj k).kind := by unfold Obj.setEnvironment; split <;> rfl
    have A : Agree (((w0.obj k).setEnvironment (freshGrid w.grid)).setPoints pts goal) (((w0.obj k).setEnvironment (freshGrid w.grid)).setPoints pts goal)
        w.grid.cleanGrid (freshGrid w.grid) := by
      have hk2 : (((w0.obj k).setEnvironment (freshGrid w.grid)).setPoints pts goal).kind = (w0.obj k).kind := hk
      refine ⟨rfl, rfl, rfl, Or.inr ⟨?_, hmap, ?_, ?_⟩, ?_, fun _ => rfl, fun _ => ⟨rfl, rfl, rfl, rfl⟩, fun _ => rfl, ?_, fun _ _ _ _ => rfl⟩
      · rw [hk2]; exact hl hl'
      · rw [h]; rfl
      · rw [h]; exact allState_idem _ _
      · intro _ _ _; rw [hmap.shape]; exact ⟨rfl, rfl, rfl⟩
      · intro _ _; rw [deltau_congr hmap]
    exact ⟨A.solve, A.symm.solve⟩

/-! ## DDQM: `reset()` computes another threshold than `setEnvironment()` -/

/-- **C39** for DDQM: after `reset()` of a DDQM in any careful history (LSM resets allowed), the next `compute()` is the run of DDQM on the new grid,
but with the initial threshold given by the formula of `reset()`. -/
theorem _root_.FMV.C39_reset_DDQM_partial (lsm : Bool) (pop : FMM.St F → Nat → Prop) (w0 w : World F) (h0 : NewWorld w0)
    (h : CarefulCalls lsm pop w0 w) (k : Nat) (hd : (w0.obj k).kind = .ddqm) (pts : List Nat) (goal : Nat) (G : Grid F) :
    Result pop [.reset k, .setPoints k pts goal, .compute k] w G ↔
      ValidProblem (freshGrid w.grid) pts goal ∧
      ∃ n s, FMM.Steps (DDQM.Step goal eikS) n (DDQM.init ((freshGrid w.grid).setClean false) pts (DDQM.thStepReset (freshGrid w.grid))
        (DDQM.thStepReset (freshGrid w.grid))) s ∧ DDQM.Done s ∧ G = s.g := by
  have I := LInv.calls h0 h
  have hk : (w.obj k).kind = .ddqm := (I.obj k).kind.trans hd
  have hmap : SameMap w.grid.cleanGrid (freshGrid w.grid) := by
    rcases clean_fresh I.cells with h | ⟨_, h⟩ <;> rw [h]
    · exact SameMap.refl _
    · exact SameMap.symm' (Kept.allState (Kept.refl _) _).map
  have hcl : w.grid.cleanGrid.clean = (freshGrid w.grid).clean := by
    rcases clean_fresh I.cells with h | ⟨_, h⟩ <;> rw [h] <;> rfl
  have hall : FSM.allState .frozen (w.grid.cleanGrid.setClean false) = FSM.allState .frozen ((freshGrid w.grid).setClean false) := by
    rcases clean_fresh I.cells with h | ⟨_, h⟩ <;> rw [h]
    exact congrArg (fun g : Grid F => g.setClean false) (allState_idem .frozen (freshGrid w.grid))
  have hth : DDQM.thStepReset w.grid.cleanGrid = DDQM.thStepReset (freshGrid w.grid) := by
    have hmap := SameMap.symm' hmap
    unfold DDQM.thStepReset
    rw [avgSpeed_congr hmap, hmap.leaf]
  have hres : (w.obj k).reset w.grid = (w.grid.cleanGrid, { w.obj k with ready := false, q0 := [], q1 := [], thStep := DDQM.thStepReset (freshGrid w.grid), threshold := DDQM.thStepReset (freshGrid w.grid) }) := by
    unfold Obj.reset; dsimp only; rw [hk]; dsimp only; rw [hth]
  rw [result_reset, hres]
  dsimp only
  have hsan : ∀ o : Obj F, o.pts = pts → o.goal = goal → (o.sanityChecks w.grid.cleanGrid = 0 ↔ ValidProblem (freshGrid w.grid) pts goal) := by
    rintro o rfl rfl
    rw [sanity_congr (o1 := o) (o2 := o) rfl rfl hmap hcl, sanity_iff]
  constructor
  · rintro ⟨g1, o1, o', hs, hr⟩
    obtain ⟨hz, rfl, rfl⟩ := setup_spec hs
    refine ⟨(hsan _ rfl rfl).1 hz, ?_⟩
    have e : ∀ (o : Obj F) (g : Grid F), o.kind = .ddqm → ({ o with ready := true } : Obj F).setupKind (g.setClean false) =
        { o with ready := true } := by
      intro o g hk; unfold Obj.setupKind; dsimp only; rw [hk]
    rw [e _ _ (by exact hk)] at hr
    unfold Obj.runs at hr
    simp only [Obj.setPoints, hk] at hr
    obtain ⟨n, s, r1, r2, r3, _⟩ := hr
    refine ⟨n, s, ?_, r2, r3⟩
    unfold DDQM.init at r1 ⊢
    rw [hall] at r1
    simpa using r1
  · rintro ⟨hv, n, s, r1, r2, r3⟩
    have hz := (hsan (({ w.obj k with ready := false, q0 := [], q1 := [], thStep := DDQM.thStepReset (freshGrid w.grid), threshold := DDQM.thStepReset (freshGrid w.grid) } : Obj F).setPoints pts goal) rfl rfl).2 hv
    refine ⟨_, _, { w.obj k with ready := true, pts := pts, goal := goal, q0 := s.q0, q1 := s.q1, threshold := s.threshold, thStep := s.thStep },
      by unfold Obj.setup; rw [if_pos hz], ?_⟩
    have e : ∀ (o : Obj F) (g : Grid F), o.kind = .ddqm → ({ o with ready := true } : Obj F).setupKind (g.setClean false) =
        { o with ready := true } := by
      intro o g hk; unfold Obj.setupKind; dsimp only; rw [hk]
    rw [e _ _ (by exact hk)]
    unfold Obj.runs
    simp only [Obj.setPoints, hk]
    refine ⟨n, s, ?_, r2, r3, by simp [hk]⟩
    unfold DDQM.init at r1 ⊢
    rw [hall]
    simpa using r1

/-- The two formulas give different thresholds: on a 2 x 2 grid with leaf size 1 and all velocities 2, `setEnvironment` gives 3/4 and `reset` gives 3. -/
theorem _root_.FMV.C39_refuted_DDQM_threshold :
    let g : Grid XR := { Grid.create [2,2] (XR.fin 1) (0,0) with cells := fun i => { (Cell.default : Cell XR) with occupancy := XR.fin 2 } }
    DDQM.thStepEnv g = XR.fin (3/4) ∧ DDQM.thStepReset g = XR.fin 3 := by
  intro g
  have hocc : ∀ i, (g.cells i).isOccupied = false := by
    intro i
    show decide ((2:ℝ) < XR.eps) = false
    unfold XR.eps; simp; norm_num
  have hav : g.getAvgSpeed = XR.fin 2 := by
    have hl : g.toList = [g.cells 0, g.cells 1, g.cells 2, g.cells 3] := rfl
    unfold Grid.getAvgSpeed
    rw [hl]
    simp only [List.foldl_cons, List.foldl_nil, hocc, Bool.not_false, if_true]
    have hn : u32sub g.shape.ncells 0 = 4 := by decide
    rw [hn]
    show XR.div (XR.add (XR.add (XR.add (XR.add (XR.fin 0) (XR.fin 2)) (XR.fin 2)) (XR.fin 2)) (XR.fin 2)) (XR.fin (((4:Nat):ℤ) / ((1:Nat):ℝ))) = _
    simp only [XR.add, XR.div]
    norm_num
  unfold DDQM.thStepEnv DDQM.thStepReset
  rw [hav]
  constructor
  · show XR.div (XR.mul (XR.fin (((3:ℤ):ℝ) / ((2:Nat):ℝ))) (XR.fin 1)) (XR.fin 2) = _
    simp only [XR.mul, XR.div]; norm_num
  · show XR.div (XR.fin (((3:ℤ):ℝ) / ((2:Nat):ℝ))) (XR.div (XR.fin 1) (XR.mul (XR.fin 2) (XR.fin 1))) = _
    simp only [XR.mul, XR.div]; norm_num [XR.div]

/-! ## LSM::reset() spoils a shared grid -/

theorem frozen_run {pop : FMM.St F → Nat → Prop} {cfg : FMM.Cfg F} {dims : List Nat} (hf : Fits dims (2^31+1)) {s t : FMM.St F} {n : Nat}
    (hs : FMM.Steps (Obj.FMMStep pop cfg) n s t) (h1 : s.g.shape = Shape.mk' dims) (h2 : ∀ i, i < dims.prod → s.g.state i = .frozen)
    (h3 : ∀ x ∈ s.heap, x < dims.prod) : t.g.shape = Shape.mk' dims ∧ (∀ i, i < dims.prod → t.g.state i = .frozen) ∧
      (∀ x ∈ t.heap, x < dims.prod) ∧ (∀ i, t.g.value i = s.g.value i) ∧ t.heap.length + n = s.heap.length := by
  induction hs with
  | refl => exact ⟨h1, h2, h3, fun _ => rfl, rfl⟩
  | @tail m s t u hs1 hst ih =>
    obtain ⟨a1, a2, a3, a4, a5⟩ := ih h1 h2 h3
    obtain ⟨_, x, hx, _, rfl⟩ := hst
    have hxN := a3 x hx
    have : (t.g.shape.nbrs x).foldl (FMM.relax cfg eikS) { t with g := t.g.setState x .frozen, heap := t.heap.erase x } =
        { t with g := t.g.setState x .frozen, heap := t.heap.erase x } := by
      refine foldl_inv (I := fun u : FMM.St F => u = { t with g := t.g.setState x .frozen, heap := t.heap.erase x }) _ _ _ rfl ?_
      rintro u j hj rfl
      rw [a1] at hj
      unfold FMM.relax
      rw [if_pos]
      left
      show (t.g.setState x .frozen).state j = .frozen
      rw [Grid.state_setState]
      split
      · rfl
      · exact a2 j (FMM.nbr_lt hf hxN hj)
    unfold FMM.expand
    dsimp only
    rw [this]
    dsimp only
    refine ⟨a1, ?_, fun y hy => a3 y (List.mem_of_mem_erase hy), ?_, ?_⟩
    · intro i hi
      rw [Grid.state_setState]
      split
      · rfl
      · exact a2 i hi
    · intro i; rw [Grid.value_setState]; exact a4 i
    · have := List.length_erase_of_mem hx
      have := List.length_pos_of_mem hx
      omega

/-- **C40 fails for FMM after `reset()` of an LSM**: a grid on which an LSM has been reset is taken for clean, but all its cells are frozen; a new FMM
solver (any heap, any heuristic, any floating-point semantics) given any valid problem on it returns, but leaves every cell except the initial
points at infinity, however the map looks like. -/
theorem _root_.FMV.C40_refuted_LSM_reset (pop : FMM.St F → Nat → Prop) (hpop : ∀ s : FMM.St F, s.heap ≠ [] → ∃ x ∈ s.heap, pop s x)
    (w0 : World F) (h0 : NewWorld w0) (l k : Nat) (hlk : l ≠ k) (hl : IsLSM (w0.obj l)) (d : Bool) (hh : Heur) (hk : (w0.obj k).kind = .fmm d hh)
    (dims : List Nat) (hf : Fits dims (2^31+1)) (hsh : w0.grid.shape = Shape.mk' dims) (pts : List Nat) (goal : Nat)
    (hp : ∀ p ∈ pts, p < dims.prod) (hv : ValidProblem w0.grid pts goal) :
    (∃ G, Result pop [.setEnvironment l, .reset l, .setEnvironment k, .setPoints k pts goal, .compute k] w0 G) ∧
    ∀ G, Result pop [.setEnvironment l, .reset l, .setEnvironment k, .setPoints k pts goal, .compute k] w0 G →
      ∀ i, i < dims.prod → i ∉ pts → G.value i = inf := by
  obtain ⟨n1, n2, _, _, _, _, _, _, _⟩ := new_facts (h0.objs k)
  obtain ⟨m, hm⟩ := hl
  have hc : w0.grid.clean = true := hv.clean
  have hcg : w0.grid.cleanGrid = w0.grid := by unfold Grid.cleanGrid; rw [if_pos hc]
  have hle : (w0.obj l).setEnvironment w0.grid = w0.obj l := by unfold Obj.setEnvironment; rw [hm]
  have hke : ∀ g, (w0.obj k).setEnvironment g = w0.obj k := by intro g; unfold Obj.setEnvironment; rw [hk]
  -- the world after the two calls of the LSM
  have hw : ∃ w2 : World F, (∀ w', Calls pop [.setEnvironment l, .reset l, .setEnvironment k, .setPoints k pts goal, .compute k] w0 w' ↔
      Calls pop [.setEnvironment k, .setPoints k pts goal, .compute k] w2 w') ∧ w2.grid = FSM.allState .frozen w0.grid ∧ w2.obj k = w0.obj k := by
    refine ⟨(w0.put l w0.grid (w0.obj l)).put l ((w0.obj l).reset w0.grid).1 ((w0.obj l).reset w0.grid).2, ?_, ?_, ?_⟩
    · intro w'
      rw [calls_cons, ]
      constructor
      · rintro ⟨v, h1, h2⟩
        obtain ⟨v2, h3, h4⟩ := calls_cons.1 h2
        cases h1; cases h3
        rw [put_self, put_grid, hcg, hle] at h4
        exact h4
      · intro h
        refine ⟨_, .setEnvironment w0 l, calls_cons.2 ⟨_, .reset _ l, ?_⟩⟩
        rw [put_self, put_grid, hcg, hle]
        exact h
    · rw [put_grid, reset_lsm ⟨m, hm⟩, hcg]
    · rw [put_obj, if_neg (Ne.symm hlk), put_obj, if_neg (Ne.symm hlk)]
  obtain ⟨w2, e1, e2, e3⟩ := hw
  have hres : ∀ G, Result pop [.setEnvironment l, .reset l, .setEnvironment k, .setPoints k pts goal, .compute k] w0 G ↔
      Solve pop ((w0.obj k).setPoints pts goal) (FSM.allState .frozen w0.grid) G := by
    intro G
    have h2c : w2.grid.cleanGrid = FSM.allState .frozen w0.grid := by
      rw [e2]; unfold Grid.cleanGrid; rw [if_pos (by exact hc)]
    have := result_first (pop := pop) w2 k pts goal G (by rw [e3]; exact n1)
    rw [e3, hke, h2c] at this
    rw [← this]
    unfold Result
    exact exists_congr fun w' => and_congr_left fun _ => e1 w'
  have hval : ∀ i, (FSM.allState .frozen w0.grid).value i = inf := by
    intro i
    have : (FSM.allState .frozen w0.grid).value i = w0.grid.value i := by
      show (if i < w0.grid.shape.ncells then { w0.grid.cells i with state := .frozen } else w0.grid.cells i : Cell F).value = _
      split <;> rfl
    rw [this, h0.grid]
    rfl
  have hst : ∀ i, i < dims.prod → (FSM.allState .frozen w0.grid).state i = .frozen := by
    intro i hi
    show (if i < w0.grid.shape.ncells then { w0.grid.cells i with state := .frozen } else w0.grid.cells i : Cell F).state = _
    rw [if_pos (by rw [hsh, mk'_ncells (hf.mono (by norm_num))]; exact hi)]
  have hsan : ((w0.obj k).setPoints pts goal).sanityChecks (FSM.allState .frozen w0.grid) = 0 := by
    rw [sanity_iff]
    have hoc := occ_congr (Kept.allState (Kept.refl w0.grid) .frozen).map
    exact ⟨hv.clean, hv.some, fun p hp => by rw [hoc]; exact hv.start p hp, fun hg => by rw [hoc]; exact hv.free hg, hv.apart⟩
  obtain ⟨oo, o1, o2, o3, o4, _⟩ := fmm_setup (FSM.allState .frozen w0.grid) (o := (w0.obj k).setPoints pts goal) hk
  have hset : ((w0.obj k).setPoints pts goal).setup (FSM.allState .frozen w0.grid) = .ok ((FSM.allState .frozen w0.grid).setClean false, oo) := by
    unfold Obj.setup; rw [if_pos hsan, o1]
  have hheap : oo.heap = [] := o3.trans n2
  have hpts : oo.pts = pts := o4
  have i1 : (FMM.init (oo.fmmCfg ((FSM.allState .frozen w0.grid).setClean false) d) ((FSM.allState .frozen w0.grid).setClean false) oo.heap oo.pts).g.shape
      = Shape.mk' dims := (FMM.init_sameMap _ _ _ _).shape.trans hsh
  have i2 : ∀ i, i < dims.prod → (FMM.init (oo.fmmCfg ((FSM.allState .frozen w0.grid).setClean false) d) ((FSM.allState .frozen w0.grid).setClean false) oo.heap oo.pts).g.state i
      = .frozen := by intro i hi; rw [FMM.init_state]; exact hst i hi
  have i3 : ∀ x ∈ (FMM.init (oo.fmmCfg ((FSM.allState .frozen w0.grid).setClean false) d) ((FSM.allState .frozen w0.grid).setClean false) oo.heap oo.pts).heap, x < dims.prod := by
    intro x hx; rw [FMM.init_heap, hheap, hpts] at hx; exact hp x (by simpa using hx)
  constructor
  · obtain ⟨n, s, _, r1, r2⟩ := FMM.exists_done (step := Obj.FMMStep pop (oo.fmmCfg ((FSM.allState .frozen w0.grid).setClean false) d)) (done := FMM.Done)
      (s0 := FMM.init (oo.fmmCfg ((FSM.allState .frozen w0.grid).setClean false) d) ((FSM.allState .frozen w0.grid).setClean false) oo.heap oo.pts)
      _ (fun n s hs => by have := (frozen_run hf hs i1 i2 i3).2.2.2.2; exact (Nat.le.intro (by rw [Nat.add_comm]; exact this)))
      (fun s hs => by
        obtain ⟨x, hx, hpx⟩ := hpop s (fun h => hs (Or.inr h))
        exact ⟨_, hs, x, hx, hpx, rfl⟩)
    refine ⟨s.g, (hres _).2 ⟨_, oo, { oo with heap := s.heap }, hset, ?_⟩⟩
    unfold Obj.runs
    rw [o2]
    exact ⟨n, s, r1, r2, rfl, rfl⟩
  · intro G hG i hi hip
    obtain ⟨g1, oo', o', hs, hr⟩ := (hres G).1 hG
    rw [hset] at hs
    injection hs with hs
    injection hs with h1 h2
    subst h1 h2
    unfold Obj.runs at hr
    rw [o2] at hr
    obtain ⟨n, s, r1, _, rfl, _⟩ := hr
    rw [(frozen_run hf r1 i1 i2 i3).2.2.2.1, FMM.init_value, hpts, if_neg hip]
    exact hval i

/-! ## A second `setEnvironment()` without `reset()` -/

/-- FMM with a D-ary or Fibonacci heap always returns -/
theorem fmm_returns (pop : FMM.St F → Nat → Prop) (hpop : ∀ s : FMM.St F, s.heap ≠ [] → ∃ x ∈ s.heap, pop s x) {o : Obj F} {hh : Heur}
    (hk : o.kind = .fmm false hh) (hheap : o.heap = []) {dims : List Nat} {g : Grid F} (hin : Input dims g o.pts) : ∃ G o', o.runs pop g G o' := by
  obtain ⟨n, s, _, r1, r2⟩ := FMM.exists_done (step := Obj.FMMStep pop (o.fmmCfg g false)) (done := FMM.Done)
    (s0 := FMM.init (o.fmmCfg g false) g o.heap o.pts) (dims.prod + o.pts.length)
    (fun n s hs => by
      rw [hheap] at hs
      exact C13_FMM_linear _ rfl dims g o.pts hin n s (hs.mono (fun _ _ => by rintro ⟨h1, x, h2, _, h3⟩; exact ⟨h1, eikS, x, h2, h3⟩)))
    (fun s hs => by
      obtain ⟨x, hx, hpx⟩ := hpop s (fun h => hs (Or.inr h))
      exact ⟨_, hs, x, hx, hpx, rfl⟩)
  refine ⟨s.g, { o with heap := s.heap }, ?_⟩
  unfold Obj.runs
  rw [hk]
  exact ⟨n, s, r1, r2, rfl, rfl⟩

theorem fmm_keeps_frozen {pop : FMM.St F → Nat → Prop} {o o' : Obj F} {d : Bool} {hh : Heur} (hk : o.kind = .fmm d hh) {g G : Grid F}
    (h : o.runs pop g G o') {a : Nat} (ha : a ∉ o.pts) (hf : g.state a = .frozen) : G.value a = g.value a := by
  unfold Obj.runs at h
  rw [hk] at h
  obtain ⟨n, s, r1, _, rfl, _⟩ := h
  have := C12_frozen_final _ _ _ _ (r1.mono (fun _ _ => by rintro ⟨h1, x, h2, _, h3⟩; exact ⟨h1, eikS, x, h2, h3⟩)) a
    (by rw [FMM.init_state]; exact hf)
  have h2 : (FMM.init (o.fmmCfg g d) g o.heap o.pts).g.value a = g.value a := by rw [FMM.init_value, if_neg ha]
  unfold Grid.value at h2 ⊢
  rw [this]; exact h2

theorem fmm_freezes_start {pop : FMM.St F → Nat → Prop} {o o' : Obj F} {d : Bool} {hh : Heur} (hk : o.kind = .fmm d hh) (hheap : o.heap = []) {g G : Grid F}
    (h : o.runs pop g G o') {a : Nat} (ha : o.pts = [a]) : G.state a = .frozen ∧ G.value a = zero := by
  unfold Obj.runs at h
  rw [hk] at h
  obtain ⟨n, s, r1, r2, rfl, _⟩ := h
  have I := FMM.Steps.inv (I := fun s : FMM.St F => s.g.value a = zero ∧ (s.g.state a = .frozen ∨ (s.heap = [a] ∧ s.stop = false))) ?_ r1 ?_
  · rcases I.2 with h | ⟨h1, h2⟩
    · exact ⟨h, I.1⟩
    · rcases r2 with h | h
      · rw [h2] at h; cases h
      · rw [h1] at h; cases h
  · rintro s t ⟨h1, h2⟩ ⟨_, x, hx, _, rfl⟩
    by_cases hf : s.g.state a = .frozen
    · have := FMM.expand_frozen (cfg := o.fmmCfg g d) (eik := eikS) (s := s) (x := x) hf
      unfold Grid.value Grid.state at *
      rw [this]
      exact ⟨h1, Or.inl hf⟩
    · rcases h2 with h2 | ⟨h2, _⟩
      · exact absurd h2 hf
      · rw [h2] at hx
        obtain rfl := List.mem_singleton.1 hx
        have := FMM.expand_inv (I := fun t : FMM.St F => t.g.value x = zero ∧ t.g.state x = .frozen) (o.fmmCfg g d) eikS s x (fun _ _ h => h)
          (by simp [FMM.popped, h1, Grid.state_setState]) ?_
        · exact ⟨this.1, Or.inl this.2⟩
        · intro t j _ ht
          by_cases hj : x = j
          · subst hj
            unfold FMM.relax
            rw [if_pos (Or.inl ht.2)]
            exact ht
          · unfold Grid.value Grid.state at *
            rw [FMM.relax_cells_ne hj]; exact ht
  · refine ⟨?_, Or.inr ⟨?_, FMM.init_stop _ _ _ _⟩⟩
    · rw [FMM.init_value, ha, if_pos (by simp)]
    · rw [FMM.init_heap, ha, hheap]; rfl

/-- **C39 fails without care**: if an FMM solver that is already set up is given the environment again and run without `reset()`, the grid stays
marked as clean although it holds arrival times, and the following `reset()` cleans nothing: solving next from another start `b` leaves the time of the
old start `a` at 0 (for any floating-point semantics and heap). -/
theorem _root_.FMV.C39_refuted_stale_setup (pop : FMM.St F → Nat → Prop) (hpop : ∀ s : FMM.St F, s.heap ≠ [] → ∃ x ∈ s.heap, pop s x)
    (w : World F) (k : Nat) (hh : Heur) (hk : (w.obj k).kind = .fmm false hh) (hr : (w.obj k).ready = true) (hheap : (w.obj k).heap = [])
    (dims : List Nat) (hf : Fits dims (2^31+1)) (hsh : w.grid.shape = Shape.mk' dims) (a b : Nat) (ha : a < dims.prod) (hb : b < dims.prod)
    (hab : a ≠ b) (hob : w.grid.occ b = false) :
    (∃ G, Result pop [.setEnvironment k, .setPoints k [a] noGoal, .compute k, .reset k, .setPoints k [b] noGoal, .compute k] w G) ∧
    ∀ G, Result pop [.setEnvironment k, .setPoints k [a] noGoal, .compute k, .reset k, .setPoints k [b] noGoal, .compute k] w G →
      G.value a = zero := by
  have hke : ∀ g, (w.obj k).setEnvironment g = w.obj k := by intro g; unfold Obj.setEnvironment; rw [hk]
  have hcl : w.grid.cleanGrid.clean = true := by unfold Grid.cleanGrid; split; assumption; rfl
  have hmap : SameMap w.grid w.grid.cleanGrid := by
    unfold Grid.cleanGrid; split
    · exact SameMap.refl _
    · exact ⟨rfl, rfl, rfl, fun _ => rfl, fun _ => rfl⟩
  -- the first three calls
  have hthree : ∀ v, Calls pop [.setEnvironment k, .setPoints k [a] noGoal, .compute k] w v ↔
      ∃ g o, ((w.obj k).setPoints [a] noGoal).runs pop w.grid.cleanGrid g o ∧
        v = (((w.put k w.grid.cleanGrid (w.obj k)).put k w.grid.cleanGrid ((w.obj k).setPoints [a] noGoal)).put k g o) := by
    intro v
    constructor
    · intro h
      obtain ⟨v1, h1, h⟩ := calls_cons.1 h
      obtain ⟨v2, h2, h⟩ := calls_cons.1 h
      obtain ⟨v3, h3, h⟩ := calls_cons.1 h
      obtain rfl := calls_nil.1 h
      cases h1; cases h2
      cases h3 with
      | computeReady _ _ g o _ h5 =>
        rw [put_self, put_self, put_grid, put_grid, hke] at h5
        rw [put_self, put_grid, hke]
        exact ⟨g, o, h5, rfl⟩
      | computeSetup _ _ g1 o1 g o hr2 _ _ =>
        rw [put_self, put_self, hke] at hr2
        exact absurd (hr2.symm.trans hr) (by simp)
    · rintro ⟨g, o, h1, rfl⟩
      have d1 := Does.setEnvironment (pop := pop) w k
      rw [hke] at d1
      have d2 := Does.setPoints (pop := pop) (w.put k w.grid.cleanGrid (w.obj k)) k [a] noGoal
      rw [put_self, put_grid] at d2
      refine calls_cons.2 ⟨_, d1, calls_cons.2 ⟨_, d2, calls_cons.2 ⟨_, .computeReady _ k g o ?_ ?_, .nil _⟩⟩⟩
      · rw [put_self]; exact hr
      · rw [put_self, put_grid]; exact h1
  have hsplit : ∀ (cs cs' : List Call) (u v : World F), Calls pop (cs ++ cs') u v ↔ ∃ x, Calls pop cs u x ∧ Calls pop cs' x v := by
    intro cs
    induction cs with
    | nil => intro cs' u v; simp [calls_nil]
    | cons c cs ih =>
      intro cs' u v
      rw [List.cons_append, calls_cons]
      constructor
      · rintro ⟨x, h1, h2⟩
        obtain ⟨y, h3, h4⟩ := (ih _ _ _).1 h2
        exact ⟨y, calls_cons.2 ⟨x, h1, h3⟩, h4⟩
      · rintro ⟨y, h1, h2⟩
        obtain ⟨x, h3, h4⟩ := calls_cons.1 h1
        exact ⟨x, h3, (ih _ _ _).2 ⟨y, h4, h2⟩⟩
  -- what is known after them
  have hafter : ∀ g o, ((w.obj k).setPoints [a] noGoal).runs pop w.grid.cleanGrid g o →
      g.clean = true ∧ SameMap w.grid g ∧ o.kind = .fmm false hh ∧ g.state a = .frozen ∧ g.value a = zero := by
    intro g o h
    have K := Kept.runs h
    have hs := fmm_freezes_start (a := a) (by exact hk) (by exact hheap) h rfl
    refine ⟨K.clean.trans hcl, hmap.trans K.map, ?_, hs.1, hs.2⟩
    unfold Obj.runs at h
    rw [show ((w.obj k).setPoints [a] noGoal).kind = .fmm false hh from hk] at h
    obtain ⟨_, _, _, _, _, rfl⟩ := h
    rfl
  have hreset : ∀ (o : Obj F) (g : Grid F), o.kind = .fmm false hh → g.clean = true → o.reset g = (g, { o with ready := false, heap := [] }) := by
    intro o g h1 h2
    unfold Obj.reset; dsimp only; rw [h1]; dsimp only
    have : g.cleanGrid = g := by unfold Grid.cleanGrid; rw [if_pos h2]
    rw [this]
  have hiff : ∀ G, Result pop [.setEnvironment k, .setPoints k [a] noGoal, .compute k, .reset k, .setPoints k [b] noGoal, .compute k] w G ↔
      ∃ g o, ((w.obj k).setPoints [a] noGoal).runs pop w.grid.cleanGrid g o ∧ Solve pop (({ o with ready := false, heap := [] } : Obj F).setPoints [b] noGoal) g G := by
    intro G
    constructor
    · rintro ⟨v, h, rfl⟩
      obtain ⟨x, h1, h2⟩ := (hsplit [.setEnvironment k, .setPoints k [a] noGoal, .compute k] _ _ _).1 h
      obtain ⟨g, o, h3, rfl⟩ := (hthree x).1 h1
      obtain ⟨f1, f2, f3, f4, f5⟩ := hafter g o h3
      have := (result_reset (pop := pop) _ k [b] noGoal v.grid).1 ⟨v, h2, rfl⟩
      rw [put_self, put_grid, hreset o g f3 f1] at this
      exact ⟨g, o, h3, this⟩
    · rintro ⟨g, o, h3, hS⟩
      obtain ⟨f1, f2, f3, f4, f5⟩ := hafter g o h3
      have := (result_reset (pop := pop) (((w.put k w.grid.cleanGrid (w.obj k)).put k w.grid.cleanGrid ((w.obj k).setPoints [a] noGoal)).put k g o)
        k [b] noGoal G).2 (by rw [put_self, put_grid, hreset o g f3 f1]; exact hS)
      obtain ⟨v, h4, h5⟩ := this
      exact ⟨v, (hsplit [.setEnvironment k, .setPoints k [a] noGoal, .compute k] _ _ _).2 ⟨_, (hthree _).2 ⟨g, o, h3, rfl⟩, h4⟩, h5⟩
  constructor
  · obtain ⟨g, o, h3⟩ := fmm_returns pop hpop (o := (w.obj k).setPoints [a] noGoal) (hh := hh) hk hheap (dims := dims) (g := w.grid.cleanGrid)
      ⟨hf, hmap.shape.trans hsh, by intro i hi; obtain rfl := List.mem_singleton.1 hi; exact ha⟩
    obtain ⟨f1, f2, f3, f4, f5⟩ := hafter g o h3
    have hsan : (({ o with ready := false, heap := [] } : Obj F).setPoints [b] noGoal).sanityChecks g = 0 := by
      rw [sanity_iff]
      refine ⟨f1, by simp [Obj.setPoints], ?_, fun h => absurd rfl h, ?_⟩
      · intro p hp
        simp only [Obj.setPoints, List.cons.injEq, and_true] at hp
        rw [occ_congr f2, ← hp]; exact hob
      · have hN := hf.lt
        simp only [Obj.setPoints, List.mem_singleton]
        unfold noGoal; omega
    obtain ⟨oo, o1, o2, o3, o4, _⟩ := fmm_setup g (o := ({ o with ready := false, heap := [] } : Obj F).setPoints [b] noGoal) f3
    obtain ⟨G, o', h5⟩ := fmm_returns pop hpop (o := oo) o2 o3 (dims := dims) (g := g.setClean false)
      ⟨hf, f2.shape.trans hsh, by rw [o4]; intro i hi; obtain rfl := List.mem_singleton.1 hi; exact hb⟩
    refine ⟨G, (hiff G).2 ⟨g, o, h3, g.setClean false, oo, o', ?_, h5⟩⟩
    unfold Obj.setup; rw [if_pos hsan, o1]
  · intro G hG
    obtain ⟨g, o, h3, g1, o1, o', hs, h5⟩ := (hiff G).1 hG
    obtain ⟨f1, f2, f3, f4, f5⟩ := hafter g o h3
    obtain ⟨_, rfl, rfl⟩ := setup_spec hs
    obtain ⟨oo, e1, e2, e3, e4, _⟩ := fmm_setup g (o := ({ o with ready := false, heap := [] } : Obj F).setPoints [b] noGoal) f3
    rw [e1] at h5
    rw [fmm_keeps_frozen (a := a) e2 h5 (by rw [e4]; simpa [Obj.setPoints] using hab) f4]
    exact f5

/-! ## The times of a reset DDQM are right all the same -/

theorem fresh_Fresh (g : Grid F) : Fresh ((freshGrid g).setClean false) := ⟨fun _ => rfl, fun _ => rfl, fun _ => rfl⟩

/-- **C39** for DDQM, exact arithmetic, no goal: the grid computed after `reset()` differs in no cell by more than `2*N*COMP_MARGIN` from the grid a
new DDQM computes on a new grid, and both are infinite in the same cells. -/
theorem _root_.FMV.C39_reset_DDQM_agrees (lsm : Bool) (pop : FMM.St XR → Nat → Prop) (w0 w : World XR) (h0 : NewWorld w0)
    (hc : CarefulCalls lsm pop w0 w) (k : Nat) (hd : (w0.obj k).kind = .ddqm) {dims : List Nat} {h : ℝ} {v : Nat → ℝ} (pts : List Nat)
    (X : XInput dims w.grid h v pts) (goal : Nat) (hgo : dims.prod ≤ goal) (G G' : Grid XR)
    (hG : Result pop [.reset k, .setPoints k pts goal, .compute k] w G)
    (hG' : Result pop [.setEnvironment k, .setPoints k pts goal, .compute k] ⟨freshGrid w.grid, w0.obj⟩ G') (i : Nat) (hi : i < dims.prod) :
    toT (G.value i) ≤ toT (G'.value i) + ((dims.prod * (2 * XR.eps) : ℝ) : WithTop ℝ) ∧
    toT (G'.value i) ≤ toT (G.value i) + ((dims.prod * (2 * XR.eps) : ℝ) : WithTop ℝ) ∧
    (toT (G.value i) = ⊤ ↔ toT (G'.value i) = ⊤) := by
  have X' : XInput dims ((freshGrid w.grid).setClean false) h v pts := ⟨X.fits, X.two, X.shape, X.inside, X.hpos, X.leaf, X.speed⟩
  obtain ⟨_, n, s, r1, r2, rfl⟩ := (C39_reset_DDQM_partial lsm pop w0 w h0 hc k hd pts goal G).1 hG
  have F1 : FinalGrid dims ((freshGrid w.grid).setClean false) pts s.g := .ddqm hgo r1 r2
  have F2 : FinalGrid dims ((freshGrid w.grid).setClean false) pts G' := by
    obtain ⟨n1, n2, n3, n4, n5, _⟩ := new_facts (h0.objs k)
    rw [result_first ⟨freshGrid w.grid, w0.obj⟩ _ _ _ _ n1] at hG'
    obtain ⟨g1, o1, o', hs, hr⟩ := hG'
    obtain ⟨_, rfl, rfl⟩ := setup_spec hs
    have e1 : (w0.obj k).setEnvironment (freshGrid w.grid) = { w0.obj k with thStep := DDQM.thStepEnv (freshGrid w.grid), threshold := DDQM.thStepEnv (freshGrid w.grid) } := by
      unfold Obj.setEnvironment; split
      · rfl
      · next h => exact absurd hd h
    have e : ∀ (o : Obj XR) (g : Grid XR), o.kind = .ddqm → ({ o with ready := true } : Obj XR).setupKind (g.setClean false) =
        { o with ready := true } := by
      intro o g hk; unfold Obj.setupKind; dsimp only; rw [hk]
    change Obj.runs pop (({ (((w0.obj k).setEnvironment (freshGrid w.grid)).setPoints pts goal) with ready := true } : Obj XR).setupKind ((freshGrid w.grid).setClean false))
      ((freshGrid w.grid).setClean false) G' o' at hr
    rw [e1, e _ _ (by exact hd)] at hr
    unfold Obj.runs at hr
    simp only [Obj.setPoints, hd] at hr
    obtain ⟨n, s, r1, r2, rfl, _⟩ := hr
    rw [n4, n5] at r1
    refine .ddqm hgo (th := DDQM.thStepEnv (freshGrid w.grid)) (ths := DDQM.thStepEnv (freshGrid w.grid)) (n := n) ?_ r2
    have e2 : ({ DDQM.init ((freshGrid w.grid).setClean false) pts (DDQM.thStepEnv (freshGrid w.grid)) (DDQM.thStepEnv (freshGrid w.grid)) with
        q0 := [] ++ (DDQM.init ((freshGrid w.grid).setClean false) pts (DDQM.thStepEnv (freshGrid w.grid)) (DDQM.thStepEnv (freshGrid w.grid))).q0, q1 := [] } : DDQM.St XR) =
        DDQM.init ((freshGrid w.grid).setClean false) pts (DDQM.thStepEnv (freshGrid w.grid)) (DDQM.thStepEnv (freshGrid w.grid)) := by
      simp [DDQM.init]
    rw [e2] at r1
    exact r1
  exact C28_solvers_agree_partial X' (fresh_Fresh _) _ _ F1 F2 i hi

/-! ## Careful histories exist -/

/-- non-vacuity: `setEnvironment`, `setInitialPoints` and `compute` with FMM form a careful history, after which the solver is set up and the
grid is not clean; it can go on with `reset`. -/
theorem careful_exists (pop : FMM.St F → Nat → Prop) (hpop : ∀ s : FMM.St F, s.heap ≠ [] → ∃ x ∈ s.heap, pop s x) (w0 : World F) (h0 : NewWorld w0)
    (k : Nat) (hk : (w0.obj k).kind = .fmm false .none) (dims : List Nat) (pts : List Nat) (hin : Input dims w0.grid pts)
    (hv : ValidProblem w0.grid pts noGoal) : ∃ w, CarefulCalls false pop w0 w ∧ (w.obj k).ready = true ∧ w.grid.clean = false ∧
      ∃ w', CarefulCalls false pop w0 w' ∧ Does pop (.reset k) w w' := by
  obtain ⟨n1, n2, _, _, _, _, _, n8, _⟩ := new_facts (h0.objs k)
  have hcg : w0.grid.cleanGrid = w0.grid := by unfold Grid.cleanGrid; rw [if_pos hv.clean]
  have hke : (w0.obj k).setEnvironment w0.grid = w0.obj k := by unfold Obj.setEnvironment; rw [hk]
  have d1 := Does.setEnvironment (pop := pop) w0 k
  rw [hcg, hke] at d1
  have d2 := Does.setPoints (pop := pop) (w0.put k w0.grid (w0.obj k)) k pts noGoal
  rw [put_self, put_grid] at d2
  have hsan : ((w0.obj k).setPoints pts noGoal).sanityChecks w0.grid = 0 := (sanity_iff _ _).2 hv
  obtain ⟨oo, o1, o2, o3, o4, _⟩ := fmm_setup w0.grid (o := (w0.obj k).setPoints pts noGoal) hk
  have hready : oo.ready = true := by rw [← o1, setupKind_ready]
  obtain ⟨G, o', h5⟩ := fmm_returns pop hpop (o := oo) o2 (o3.trans n2) (dims := dims) (g := w0.grid.setClean false)
      ⟨hin.fits, hin.shape, by rw [o4]; exact hin.inside⟩
  have hns : ¬ IsStar ((w0.obj k).setPoints pts noGoal) := by
    rintro ⟨d, h, h1, h2⟩
    have : (w0.obj k).kind = .fmm d h := h1
    rw [hk] at this; injection this with _ h3; exact h2 h3.symm
  have d3 := Does.computeSetup (pop := pop) ((w0.put k w0.grid (w0.obj k)).put k w0.grid ((w0.obj k).setPoints pts noGoal)) k (w0.grid.setClean false) oo G o'
    (by rw [put_self]; exact n1) (by rw [put_self, put_grid]; unfold Obj.setup; rw [if_pos hsan, o1]) h5
  have c : CarefulCalls false pop w0 _ := .snoc (.compute k) (.snoc (.setPoints k pts noGoal) (.snoc (.setEnvironment k) (.nil w0) trivial d1) trivial d2)
    (by refine ⟨Or.inl (by rw [put_self]; exact n1), ?_⟩; rw [put_self]; intro h; exact absurd h hns) d3
  refine ⟨_, c, ?_, ?_, _, .snoc _ c ?_ (.reset _ k), .reset _ k⟩
  · rw [put_self]
    unfold Obj.runs at h5
    rw [o2] at h5
    obtain ⟨_, _, _, _, _, rfl⟩ := h5
    exact hready
  · rw [put_grid, (Kept.runs h5).clean]; rfl
  · rintro ⟨m, hm⟩
    rw [put_self] at hm
    unfold Obj.runs at h5
    rw [o2] at h5
    obtain ⟨_, _, _, _, _, rfl⟩ := h5
    dsimp only at hm
    cases hm

/-- a concrete instance of `careful_exists`: a 2 x 2 grid, an FMM for every index, start 0, exact arithmetic, correctly ordered heap -/
example : ∃ w0 w : World XR, NewWorld w0 ∧ CarefulCalls false FMM.IsTop w0 w ∧ w ≠ w0 := by
  let g : Grid XR := Grid.create [2,2] (XR.fin 1) (0,0)
  let w0 : World XR := ⟨g, fun _ => Obj.new (.fmm false .none) ⟨0, fun _ => XR.fin 0, [], [], XR.fin 0, XR.fin 0⟩⟩
  have hfree : ∀ j, g.occ j = false := by
    intro j
    show decide ((1:ℝ) < XR.eps) = false
    unfold XR.eps; simp; norm_num
  have h0 : NewWorld w0 := ⟨rfl, fun _ => ⟨_, _, rfl⟩⟩
  obtain ⟨w, h1, h2, _⟩ := careful_exists FMM.IsTop (fun s hs => by
      obtain ⟨x, hx, hmin⟩ := FMM.exists_min XR.ltLaws (fun y => (s.g.cells y).total) s.heap hs
      exact ⟨x, hx, hx, hmin⟩) w0 h0 0 rfl [2,2] [0]
    ⟨⟨by simp, by simp, by norm_num⟩, rfl, by simp⟩ ⟨rfl, by simp, fun p _ => hfree p, fun h => absurd rfl h, by decide⟩
  refine ⟨w0, w, h0, h1, ?_⟩
  rintro rfl
  cases h2

end Life
end FMV
