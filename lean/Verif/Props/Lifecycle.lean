import Verif.Spec.Lifecycle
import Verif.Lemmas.Kept
import Verif.Lemmas.UQ
import Verif.Model.XR
/-
C38, C39, C40: the life cycle of the solvers.
-/
namespace FMV
open Arith Spec
variable {F : Type} [Arith F]
namespace Life

/-! ## C38 -/

theorem sanity_iff (o : Obj F) (g : Grid F) : o.sanityChecks g = 0 ↔ ValidProblem g o.pts o.goal := by
  unfold Obj.sanityChecks
  constructor
  · intro h
    split at h
    · cases h
    split at h
    · cases h
    split at h
    · cases h
    split at h
    · cases h
    split at h
    · cases h
    next h1 h2 h3 h4 h5 =>
    refine ⟨by simpa using h1, h2, fun p hp => ?_, fun hg => ?_, ?_⟩
    · by_contra hc
      exact h3 ⟨by rw [hp]; rfl, by rw [hp]; simpa using hc⟩
    · by_contra hc
      exact h4 ⟨hg, by simpa using hc⟩
    · intro hm
      apply h5
      rw [List.any_eq_true]
      exact ⟨o.goal, hm, by simp⟩
  · rintro ⟨h1, h2, h3, h4, h5⟩
    rw [if_neg (by simp [h1]), if_neg h2, if_neg, if_neg, if_neg]
    · rw [List.any_eq_true]
      rintro ⟨p, hp, he⟩
      rw [beq_iff_eq] at he
      exact h5 (he ▸ hp)
    · rintro ⟨a, b⟩; rw [h4 a] at b; cases b
    · rintro ⟨a, b⟩
      obtain ⟨p, hp⟩ := List.length_eq_one_iff.1 a
      rw [hp] at b
      have := h3 p hp
      simp [this] at b

/-- **C38**: `setup()` returns iff the problem is valid; then the solver is ready, the map is unchanged and the grid is flagged unclean. -/
theorem _root_.FMV.C38_setup_accepts_valid (o : Obj F) (g : Grid F) :
    (∃ g' o', o.setup g = .ok (g', o')) ↔ ValidProblem g o.pts o.goal := by
  unfold Obj.setup
  rw [← sanity_iff]
  split
  · next h => exact ⟨fun _ => h, fun _ => ⟨_, _, rfl⟩⟩
  · next h => exact ⟨(by rintro ⟨_, _, hc⟩; cases hc), fun hc => absurd hc h⟩

/-- **C38**: otherwise the program exits, and the reason reported is the first violated condition (in the order 2: not clean, 3: no initial points, 4: single
initial point in an obstacle, 5: goal in an obstacle, 6: goal is an initial point). -/
theorem _root_.FMV.C38_exit_reason (o : Obj F) (g : Grid F) (e : Nat) (h : o.setup g = .error e) :
    (e = 2 ∧ g.clean = false) ∨
    (e = 3 ∧ g.clean = true ∧ o.pts = []) ∨
    (e = 4 ∧ g.clean = true ∧ ∃ p, o.pts = [p] ∧ g.occ p = true) ∨
    (e = 5 ∧ g.clean = true ∧ o.pts ≠ [] ∧ (∀ p, o.pts = [p] → g.occ p = false) ∧ o.goal ≠ noGoal ∧ g.occ o.goal = true) ∨
    (e = 6 ∧ g.clean = true ∧ o.pts ≠ [] ∧ (∀ p, o.pts = [p] → g.occ p = false) ∧ (o.goal ≠ noGoal → g.occ o.goal = false) ∧ o.goal ∈ o.pts) := by
  unfold Obj.setup at h
  split at h
  · cases h
  next hne =>
  injection h with h
  rw [← h]
  unfold Obj.sanityChecks at hne ⊢
  split
  · next h1 => exact Or.inl ⟨rfl, h1⟩
  next h1 =>
  have h1 : g.clean = true := by simpa using h1
  rw [if_neg (by simp [h1])] at hne
  split
  · next h2 => exact Or.inr (Or.inl ⟨rfl, h1, h2⟩)
  next h2 =>
  rw [if_neg h2] at hne
  split
  · next h3 =>
    obtain ⟨p, hp⟩ := List.length_eq_one_iff.1 h3.1
    exact Or.inr (Or.inr (Or.inl ⟨rfl, h1, p, hp, by have := h3.2; rw [hp] at this; exact this⟩))
  next h3 =>
  rw [if_neg h3] at hne
  have h3' : ∀ p, o.pts = [p] → g.occ p = false := by
    intro p hp
    by_contra hc
    exact h3 ⟨by rw [hp]; rfl, by rw [hp]; simpa using hc⟩
  split
  · next h4 => exact Or.inr (Or.inr (Or.inr (Or.inl ⟨rfl, h1, h2, h3', h4⟩)))
  next h4 =>
  rw [if_neg h4] at hne
  split
  · next h5 =>
    refine Or.inr (Or.inr (Or.inr (Or.inr ⟨rfl, h1, h2, h3', fun hg => ?_, ?_⟩)))
    · by_contra hc; exact h4 ⟨hg, by simpa using hc⟩
    · rw [List.any_eq_true] at h5
      obtain ⟨p, hp, he⟩ := h5
      rw [beq_iff_eq] at he
      exact he ▸ hp
  next h5 =>
  rw [if_neg h5] at hne
  exact absurd rfl hne

theorem setupKind_ready (o : Obj F) (g : Grid F) : (o.setupKind g).ready = o.ready := by
  unfold Obj.setupKind
  split
  · unfold Obj.setHeuristics
    split <;> dsimp only <;> split <;> rfl
  all_goals rfl

/-- **C38**: when `setup()` returns the solver is ready and the grid differs only in its clean flag, now false. -/
theorem _root_.FMV.C38_setup_effect (o o' : Obj F) (g g' : Grid F) (h : o.setup g = .ok (g', o')) : o'.ready = true ∧ g' = g.setClean false := by
  unfold Obj.setup at h
  split at h
  · injection h with h
    injection h with h1 h2
    rw [← h1, ← h2, setupKind_ready]
    exact ⟨rfl, rfl⟩
  · cases h

/-- **C38**: the first `compute()` of a solver that is not set up returns only on a valid problem. -/
theorem _root_.FMV.C38_first_compute_checks (pop : FMM.St F → Nat → Prop) (w w' : World F) (k : Nat) (hr : (w.obj k).ready = false)
    (h : Does pop (.compute k) w w') : ValidProblem w.grid (w.obj k).pts (w.obj k).goal := by
  cases h with
  | computeReady _ _ _ _ h1 h2 => rw [hr] at h1; cases h1
  | computeSetup _ _ _ _ _ _ h1 h2 h3 => exact (C38_setup_accepts_valid _ _).1 ⟨_, _, h2⟩

/-- non-vacuity: a 2 x 2 grid with unit speed, start 0 and goal 3 is a valid problem; with goal 0 it is not -/
example : ValidProblem (Grid.create [2,2] (XR.fin 1) (0,0)) [0] 3 ∧ ¬ ValidProblem (Grid.create [2,2] (XR.fin 1) (0,0)) [0] 0 := by
  have hfree : ∀ j, (Grid.create [2,2] (XR.fin 1) (0,0)).occ j = false := by
    intro j
    show decide ((1:ℝ) < XR.eps) = false
    unfold XR.eps; simp; norm_num
  exact ⟨⟨rfl, by simp, fun p _ => hfree p, fun _ => hfree 3, by decide⟩, fun h => h.apart (by simp)⟩

/-! ## Invariant of careful histories -/

theorem fresh_map (g : Grid F) : SameMap g (freshGrid g) := ⟨rfl, rfl, rfl, fun _ => rfl, fun _ => rfl⟩

theorem fresh_congr {g g' : Grid F} (h : SameMap g g') : (freshGrid g').cells = (freshGrid g).cells := by
  funext i
  simp only [freshGrid, h.occupancy, h.index]

/-- the parameters of an untidy queue are unchanged -/
structure SameQ (q q' : UQ F) : Prop where
  size : q'.size = q.size
  delta : q'.delta = q.delta
  inc : q'.incMax = q.incMax
  ub : q'.ub = q.ub

theorem SameQ.refl (q : UQ F) : SameQ q q := ⟨rfl, rfl, rfl, rfl⟩
theorem SameQ.trans {a b c : UQ F} (h : SameQ a b) (k : SameQ b c) : SameQ a c :=
  ⟨k.size.trans h.size, k.delta.trans h.delta, k.inc.trans h.inc, k.ub.trans h.ub⟩
theorem SameQ.push (q : UQ F) (e : Nat) (t : F) : SameQ q (q.push e t).1 := by unfold UQ.push; split <;> exact ⟨rfl, rfl, rfl, rfl⟩
theorem SameQ.increase (q : UQ F) (e b : Nat) (t : F) : SameQ q (q.increase e b t).1 := by
  unfold UQ.increase; dsimp only; split <;> exact ⟨rfl, rfl, rfl, rfl⟩
theorem SameQ.advance : ∀ (n : Nat) (q : UQ F), SameQ q (q.advance n)
  | 0, q => .refl q
  | n + 1, q => by
    unfold UQ.advance
    split
    · exact SameQ.trans (b := q.shift) ⟨rfl, rfl, rfl, rfl⟩ (SameQ.advance n q.shift)
    · exact .refl q
theorem SameQ.pop (q : UQ F) : SameQ q q.pop := by
  unfold UQ.pop; split
  · exact .refl q
  · exact (SameQ.advance q.size q).trans ⟨rfl, rfl, rfl, rfl⟩
theorem SameQ.clear (q : UQ F) {s : Nat} {inc : F} {ub : F → Nat} (h : SameQ (UQ.create s inc ub) q) : q.clear = UQ.create s inc ub := by
  have h1 := h.size
  have h2 := h.delta
  have h3 := h.inc
  have h4 := h.ub
  cases q
  simp only [UQ.create] at h1 h2 h3 h4
  subst h1 h2 h3 h4
  rfl

theorem SameQ.run (goal : Nat) (eik : Eik F) (g : Grid F) (q : UQ F) (pts : List Nat) (n : Nat) (s : UFMM.St F)
    (hs : FMM.Steps (UFMM.Step goal eik) n (UFMM.init g q pts) s) : SameQ q s.q := by
  refine FMM.Steps.inv (I := fun s : UFMM.St F => SameQ q s.q) ?_ hs ?_
  · rintro s t h ⟨_, x, _, rfl⟩
    unfold UFMM.expand
    dsimp only
    refine SameQ.trans ?_ (SameQ.pop _)
    refine foldl_inv (I := fun s : UFMM.St F => SameQ q s.q) _ _ _ (h.trans (SameQ.advance s.q.size s.q)) (fun s j _ h => ?_)
    unfold UFMM.relax; dsimp only
    split
    · exact h
    split
    · split
      · exact h.trans (SameQ.increase _ _ _ _)
      · exact h
    · exact h.trans (SameQ.push _ _ _)
  · exact foldl_inv (I := fun s : UFMM.St F => SameQ q s.q) _ _ _ (.refl q) (fun s j _ h => h.trans (SameQ.push _ _ _))

theorem maxSpeed_congr {g g' : Grid F} (h : SameMap g g') : g'.getMaxSpeed = g.getMaxSpeed := by
  unfold Grid.getMaxSpeed Grid.toList
  rw [List.foldl_map, List.foldl_map, h.shape]
  simp only [h.occupancy]

theorem avgSpeed_congr {g g' : Grid F} (h : SameMap g g') : g'.getAvgSpeed = g.getAvgSpeed := by
  unfold Grid.getAvgSpeed Grid.toList
  rw [List.foldl_map, List.foldl_map, h.shape]
  simp only [Cell.isOccupied, h.occupancy]
  rfl

theorem deltau_congr {g g' : Grid F} (h : SameMap g g') (dt : F) : GMM.deltau dt g' = GMM.deltau dt g := by
  unfold GMM.deltau; rw [maxSpeed_congr h]

theorem deltau_idem (dt : F) (g : Grid F) : GMM.deltau (GMM.deltau dt g) g = GMM.deltau dt g := by
  unfold GMM.deltau
  by_cases h : lt dt zero = true
  · rw [if_pos h]; split <;> rfl
  · rw [if_neg h, if_neg h]

/-- what a careful history may have done to an object -/
structure ObjOk (g0 : Grid F) (o0 o : Obj F) : Prop where
  kind : o.kind = o0.kind
  heur : o.heur = o0.heur
  pre : (o.pre = false ∧ o.dist = o0.dist) ∨ (o.pre = true ∧ o.dist = FMM.precomputeDistances g0.shape o0.dist)
  dt : o.deltau = o0.deltau ∨ o.deltau = GMM.deltau o0.deltau g0
  uq : SameQ o0.uq o.uq

/-- the invariant -/
structure LInv (lsm : Bool) (w0 w : World F) : Prop where
  map : SameMap w0.grid w.grid
  cells : w.grid.clean = true → w.grid.cells = (freshGrid w.grid).cells ∨ (lsm = true ∧ w.grid.cells = (FSM.allState .frozen (freshGrid w.grid)).cells)
  obj : ∀ k, ObjOk w0.grid (w0.obj k) (w.obj k)

theorem grid_ext {g g' : Grid F} (h1 : g.shape = g'.shape) (h2 : g.leaf = g'.leaf) (h3 : g.clean = g'.clean) (h4 : g.cells = g'.cells)
    (h5 : g.occupied = g'.occupied) (h6 : g.scratch = g'.scratch) : g = g' := by
  cases g; cases g'; simp_all

/-- cleaning a grid that satisfies the invariant gives the fresh grid (up to locks) -/
theorem clean_fresh {lsm : Bool} {g : Grid F}
    (h : g.clean = true → g.cells = (freshGrid g).cells ∨ (lsm = true ∧ g.cells = (FSM.allState .frozen (freshGrid g)).cells)) :
    g.cleanGrid = freshGrid g ∨ (lsm = true ∧ g.cleanGrid = FSM.allState .frozen (freshGrid g)) := by
  unfold Grid.cleanGrid
  split
  · next hc =>
    rcases h hc with h | ⟨hl, h⟩
    · exact Or.inl (grid_ext rfl rfl hc h rfl rfl)
    · exact Or.inr ⟨hl, grid_ext rfl rfl hc h rfl rfl⟩
  · exact Or.inl rfl

theorem allState_idem (st : FMState) (g : Grid F) : FSM.allState st (FSM.allState st g) = FSM.allState st g := by
  refine grid_ext rfl rfl rfl ?_ rfl rfl
  funext i
  show (if i < g.shape.ncells then { (if i < g.shape.ncells then _ else _ : Cell F) with state := st } else (if i < g.shape.ncells then _ else _ : Cell F)) = 
    (if i < g.shape.ncells then _ else _ : Cell F)
  split <;> rfl

theorem runs_obj {pop : FMM.St F → Nat → Prop} {o o' : Obj F} {g g' : Grid F} (h : o.runs pop g g' o') {g0 : Grid F} {o0 : Obj F}
    (ok : ObjOk g0 o0 o) : ObjOk g0 o0 o' := by
  unfold Obj.runs at h
  split at h <;> obtain ⟨n, s, hs, _, _, rfl⟩ := h
  case h_7 => exact ⟨ok.kind, ok.heur, ok.pre, ok.dt, ok.uq.trans (SameQ.run _ _ _ _ _ _ _ hs)⟩
  all_goals exact ⟨ok.kind, ok.heur, ok.pre, ok.dt, ok.uq⟩

theorem setupKind_obj {o : Obj F} {g g0 : Grid F} {o0 : Obj F} (hm : SameMap g0 g) (ok : ObjOk g0 o0 o) (hnew : ∃ k j, o0 = Obj.new k j)
    (hst : IsStar o → o.goal ≠ noGoal) : ObjOk g0 o0 (o.setupKind g) := by
  unfold Obj.setupKind
  split
  · next d h hk =>
    have hh : o.heur = h := by
      obtain ⟨k, j, rfl⟩ := hnew
      rw [ok.heur]
      have : (Obj.new k j).kind = k := rfl
      rw [ok.kind, this] at hk
      subst hk; rfl
    by_cases hn : h = .none
    · subst hn
      have e : o.setHeuristics g o.heur = o := by unfold Obj.setHeuristics; rw [if_neg (by rw [hh]; simp)]
      dsimp only
      rw [e, if_neg (by rw [hh]; simp)]
      exact ok
    · have hg := hst ⟨d, h, hk, hn⟩
      have e : o.setHeuristics g o.heur = { o with heur := o.heur, hcoord := g.shape.idx2coord o.goal, dist := if o.pre then o.dist else FMM.precomputeDistances g.shape o.dist, pre := true } := by
        unfold Obj.setHeuristics; rw [if_pos ⟨by rw [hh]; exact hn, hg⟩]
      dsimp only
      rw [e, if_neg (by rintro ⟨h1, _⟩; exact hg h1)]
      refine ⟨ok.kind, ok.heur, Or.inr ⟨rfl, ?_⟩, ok.dt, ok.uq⟩
      dsimp only
      rcases ok.pre with ⟨h1, h2⟩ | ⟨h1, h2⟩
      · rw [h1, h2, hm.shape]; rfl
      · rw [h1, h2]; rfl
  · exact ⟨ok.kind, ok.heur, ok.pre, ok.dt, ok.uq⟩
  · exact ⟨ok.kind, ok.heur, ok.pre, ok.dt, ok.uq⟩
  · refine ⟨ok.kind, ok.heur, ok.pre, Or.inr ?_, ok.uq⟩
    dsimp only
    rw [deltau_congr hm]
    rcases ok.dt with h | h <;> rw [h]
    exact deltau_idem _ _
  · exact ok

theorem setup_spec {o o' : Obj F} {g g' : Grid F} (h : o.setup g = .ok (g', o')) :
    o.sanityChecks g = 0 ∧ g' = g.setClean false ∧ o' = ({ o with ready := true } : Obj F).setupKind (g.setClean false) := by
  unfold Obj.setup at h
  split at h
  · next h0 =>
    injection h with h
    injection h with h1 h2
    exact ⟨h0, h1.symm, h2.symm⟩
  · cases h

theorem put_grid (w : World F) (k : Nat) (g : Grid F) (o : Obj F) : (w.put k g o).grid = g := rfl
theorem put_obj (w : World F) (k : Nat) (g : Grid F) (o : Obj F) (i : Nat) : (w.put k g o).obj i = if i = k then o else w.obj i := rfl

theorem LInv.put {lsm : Bool} {w0 w : World F} (I : LInv lsm w0 w) {k : Nat} {g : Grid F} {o : Obj F} (hm : SameMap w0.grid g)
    (hc : g.clean = true → g.cells = (freshGrid g).cells ∨ (lsm = true ∧ g.cells = (FSM.allState .frozen (freshGrid g)).cells))
    (ho : ObjOk w0.grid (w0.obj k) o) : LInv lsm w0 (w.put k g o) := by
  refine ⟨hm, hc, fun i => ?_⟩
  rw [put_obj]
  split
  · next h => rw [h]; exact ho
  · exact I.obj i

theorem LInv.clean {lsm : Bool} {w0 w : World F} (I : LInv lsm w0 w) : SameMap w0.grid w.grid.cleanGrid ∧
    (w.grid.cleanGrid.clean = true → w.grid.cleanGrid.cells = (freshGrid w.grid.cleanGrid).cells ∨
      (lsm = true ∧ w.grid.cleanGrid.cells = (FSM.allState .frozen (freshGrid w.grid.cleanGrid)).cells)) := by
  rcases clean_fresh I.cells with h | ⟨hl, h⟩
  · rw [h]
    exact ⟨I.map.trans (fresh_map _), fun _ => Or.inl rfl⟩
  · rw [h]
    have hm : SameMap w.grid (FSM.allState .frozen (freshGrid w.grid)) := (fresh_map _).trans (Kept.allState (Kept.refl _) _).map
    refine ⟨I.map.trans hm, fun _ => Or.inr ⟨hl, ?_⟩⟩
    show _ = fun i => if i < w.grid.shape.ncells then { (freshGrid (FSM.allState .frozen (freshGrid w.grid))).cells i with state := .frozen }
      else (freshGrid (FSM.allState .frozen (freshGrid w.grid))).cells i
    rw [fresh_congr hm]
    rfl

theorem LInv.step {lsm : Bool} {w0 w w' : World F} {pop : FMM.St F → Nat → Prop} (h0 : NewWorld w0) (I : LInv lsm w0 w) {c : Call}
    (hc : Careful lsm w c) (h : Does pop c w w') : LInv lsm w0 w' := by
  cases h with
  | setEnvironment _ k =>
    refine I.put I.clean.1 I.clean.2 ?_
    unfold Obj.setEnvironment
    split
    · exact ⟨(I.obj k).kind, (I.obj k).heur, (I.obj k).pre, (I.obj k).dt, (I.obj k).uq⟩
    · exact I.obj k
  | setPoints _ k pts goal => exact I.put I.map I.cells ⟨(I.obj k).kind, (I.obj k).heur, (I.obj k).pre, (I.obj k).dt, (I.obj k).uq⟩
  | setup _ k g o hs =>
    obtain ⟨_, rfl, rfl⟩ := setup_spec hs
    have ok : ObjOk w0.grid (w0.obj k) ({ w.obj k with ready := true } : Obj F) :=
      ⟨(I.obj k).kind, (I.obj k).heur, (I.obj k).pre, (I.obj k).dt, (I.obj k).uq⟩
    have hm : SameMap w0.grid (w.grid.setClean false) := I.map.trans ⟨rfl, rfl, rfl, fun _ => rfl, fun _ => rfl⟩
    exact I.put hm (fun h => by cases h) (setupKind_obj hm ok (h0.objs k) hc)
  | computeReady _ k g o hr hs =>
    have K := Kept.runs hs
    refine I.put (I.map.trans K.map) (fun h => ?_) (runs_obj hs (I.obj k))
    rcases hc.1 with h1 | h1
    · rw [hr] at h1; cases h1
    · rw [K.clean, h1] at h; cases h
  | computeSetup _ k g1 o1 g o hr hs hs2 =>
    obtain ⟨_, rfl, rfl⟩ := setup_spec hs
    have ok : ObjOk w0.grid (w0.obj k) ({ w.obj k with ready := true } : Obj F) :=
      ⟨(I.obj k).kind, (I.obj k).heur, (I.obj k).pre, (I.obj k).dt, (I.obj k).uq⟩
    have K := Kept.runs hs2
    have hm : SameMap w0.grid (w.grid.setClean false) := I.map.trans ⟨rfl, rfl, rfl, fun _ => rfl, fun _ => rfl⟩
    refine I.put (SameMap.trans hm K.map) (fun h => ?_) (runs_obj hs2 (setupKind_obj hm ok (h0.objs k) (fun h => hc.2 h hr)))
    rw [K.clean] at h; cases h
  | reset _ k =>
    have ok := I.obj k
    unfold Obj.reset
    split
    case h_3 m hk =>
      have hl : lsm = true := hc ⟨m, hk⟩
      have hm : SameMap w.grid.cleanGrid (FSM.allState .frozen w.grid.cleanGrid) := (Kept.allState (Kept.refl _) _).map
      refine I.put (I.clean.1.trans hm) (fun _ => Or.inr ⟨hl, ?_⟩) ⟨ok.kind, ok.heur, ok.pre, ok.dt, ok.uq⟩
      have hm' : SameMap w.grid (FSM.allState .frozen w.grid.cleanGrid) := by
        refine SameMap.trans ?_ hm
        rcases clean_fresh I.cells with h | ⟨_, h⟩ <;> rw [h]
        · exact fresh_map _
        · exact (fresh_map _).trans (Kept.allState (Kept.refl _) _).map
      have e : FSM.allState .frozen w.grid.cleanGrid = FSM.allState .frozen (freshGrid w.grid) := by
        rcases clean_fresh I.cells with h | ⟨_, h⟩ <;> rw [h]
        exact allState_idem _ _
      show (FSM.allState .frozen w.grid.cleanGrid).cells = fun i => if i < w.grid.cleanGrid.shape.ncells
        then { (freshGrid (FSM.allState .frozen w.grid.cleanGrid)).cells i with state := .frozen }
        else (freshGrid (FSM.allState .frozen w.grid.cleanGrid)).cells i
      rw [fresh_congr hm', e]
      have : w.grid.cleanGrid.shape = w.grid.shape := by unfold Grid.cleanGrid; split <;> rfl
      rw [this]
      rfl
    all_goals refine I.put I.clean.1 I.clean.2 ⟨ok.kind, ok.heur, ok.pre, ok.dt, ?_⟩
    all_goals first | exact ok.uq | exact ok.uq.trans ⟨rfl, rfl, rfl, rfl⟩

theorem LInv.start (lsm : Bool) {w0 : World F} (h0 : NewWorld w0) : LInv lsm w0 w0 := by
  refine ⟨SameMap.refl _, fun _ => Or.inl (congrArg Grid.cells h0.grid), fun k => ?_⟩
  obtain ⟨kind, j, h⟩ := h0.objs k
  rw [h]
  exact ⟨rfl, rfl, Or.inl ⟨rfl, rfl⟩, Or.inl rfl, .refl _⟩

theorem LInv.calls {lsm : Bool} {w0 w : World F} {pop : FMM.St F → Nat → Prop} (h0 : NewWorld w0) (h : CarefulCalls lsm pop w0 w) : LInv lsm w0 w := by
  induction h with
  | nil => exact LInv.start lsm h0
  | snoc c _ hc hd ih => exact ih.step h0 hc hd

/-! ## Solving a problem from given states of the object and the grid -/

/-- `compute()` of a solver that is not set up, on grid `g`, returns and leaves the grid `G` -/
def Solve (pop : FMM.St F → Nat → Prop) (o : Obj F) (g G : Grid F) : Prop :=
  ∃ g1 o1 o', o.setup g = .ok (g1, o1) ∧ o1.runs pop g1 G o'

theorem calls_nil {pop : FMM.St F → Nat → Prop} {w w' : World F} : Calls pop [] w w' ↔ w' = w := by
  constructor
  · generalize h : ([] : List Call) = l
    intro hc
    cases hc with
    | nil => rfl
    | snoc d _ _ => simp at h
  · rintro rfl; exact .nil _

theorem calls_cons {pop : FMM.St F → Nat → Prop} {c : Call} {cs : List Call} {w w' : World F} :
    Calls pop (c :: cs) w w' ↔ ∃ v, Does pop c w v ∧ Calls pop cs v w' := by
  constructor
  · generalize h : c :: cs = l
    intro hc
    induction hc generalizing c cs with
    | nil => cases h
    | snoc d hc hd ih =>
      rename_i cs' u u' u''
      cases cs' with
      | nil =>
        obtain rfl := calls_nil.1 hc
        simp only [List.nil_append, List.cons.injEq] at h
        obtain ⟨rfl, rfl⟩ := h
        exact ⟨_, hd, .nil _⟩
      | cons a as =>
        simp only [List.cons_append, List.cons.injEq] at h
        obtain ⟨rfl, rfl⟩ := h
        obtain ⟨v, h1, h2⟩ := ih rfl
        exact ⟨v, h1, .snoc d h2 hd⟩
  · rintro ⟨v, h1, h2⟩
    induction h2 with
    | nil => exact Calls.snoc (cs := []) c (.nil _) h1
    | snoc d _ hd ih => exact Calls.snoc (cs := c :: _) d (ih h1) hd

theorem put_self (w : World F) (k : Nat) (g : Grid F) (o : Obj F) : (w.put k g o).obj k = o := by simp [put_obj]

theorem result_reset {pop : FMM.St F → Nat → Prop} (w : World F) (k : Nat) (pts : List Nat) (goal : Nat) (G : Grid F) :
    Result pop [.reset k, .setPoints k pts goal, .compute k] w G ↔
      Solve pop (((w.obj k).reset w.grid).2.setPoints pts goal) ((w.obj k).reset w.grid).1 G := by
  have hr : ((w.obj k).reset w.grid).2.ready = false := by unfold Obj.reset; split <;> rfl
  constructor
  · rintro ⟨w', h, rfl⟩
    obtain ⟨v1, h1, h⟩ := calls_cons.1 h
    obtain ⟨v2, h2, h⟩ := calls_cons.1 h
    obtain ⟨v3, h3, h⟩ := calls_cons.1 h
    obtain rfl := calls_nil.1 h
    cases h1; cases h2
    cases h3 with
    | computeReady _ _ g o hr2 _ => rw [put_self, put_self] at hr2; change ((w.obj k).reset w.grid).2.ready = true at hr2; rw [hr] at hr2; cases hr2
    | computeSetup _ _ g1 o1 g o _ h4 h5 =>
      rw [put_self, put_self, put_grid, put_grid] at h4
      exact ⟨g1, o1, o, h4, h5⟩
  · rintro ⟨g1, o1, o', h1, h2⟩
    refine ⟨_, calls_cons.2 ⟨_, .reset w k, calls_cons.2 ⟨_, .setPoints _ k pts goal, calls_cons.2 ⟨_, .computeSetup _ k g1 o1 G o' ?_ ?_ h2, .nil _⟩⟩⟩, rfl⟩
    · rw [put_self, put_self]; exact hr
    · rw [put_self, put_self, put_grid, put_grid]; exact h1

theorem result_first {pop : FMM.St F → Nat → Prop} (w : World F) (k : Nat) (pts : List Nat) (goal : Nat) (G : Grid F) (hr0 : (w.obj k).ready = false) :
    Result pop [.setEnvironment k, .setPoints k pts goal, .compute k] w G ↔
      Solve pop (((w.obj k).setEnvironment w.grid.cleanGrid).setPoints pts goal) w.grid.cleanGrid G := by
  have hr : ((w.obj k).setEnvironment w.grid.cleanGrid).ready = false := by unfold Obj.setEnvironment; split <;> exact hr0
  constructor
  · rintro ⟨w', h, rfl⟩
    obtain ⟨v1, h1, h⟩ := calls_cons.1 h
    obtain ⟨v2, h2, h⟩ := calls_cons.1 h
    obtain ⟨v3, h3, h⟩ := calls_cons.1 h
    obtain rfl := calls_nil.1 h
    cases h1; cases h2
    cases h3 with
    | computeReady _ _ g o hr2 _ => rw [put_self, put_self] at hr2; change ((w.obj k).setEnvironment w.grid.cleanGrid).ready = true at hr2; rw [hr] at hr2; cases hr2
    | computeSetup _ _ g1 o1 g o _ h4 h5 =>
      rw [put_self, put_self, put_grid, put_grid] at h4
      exact ⟨g1, o1, o, h4, h5⟩
  · rintro ⟨g1, o1, o', h1, h2⟩
    refine ⟨_, calls_cons.2 ⟨_, .setEnvironment w k, calls_cons.2 ⟨_, .setPoints _ k pts goal, calls_cons.2 ⟨_, .computeSetup _ k g1 o1 G o' ?_ ?_ h2, .nil _⟩⟩⟩, rfl⟩
    · rw [put_self, put_self]; exact hr
    · rw [put_self, put_self, put_grid, put_grid]; exact h1

/-- the objects have the same problem and agree in everything their class uses; the grids are equal, or both become equal when all states are
overwritten and the class (LSM, DDQM) does that -/
structure Agree (o1 o2 : Obj F) (g1 g2 : Grid F) : Prop where
  kind : o1.kind = o2.kind
  pts : o1.pts = o2.pts
  goal : o1.goal = o2.goal
  grid : g1 = g2 ∨ (((∃ m, o2.kind = .lsm m) ∨ o2.kind = .ddqm) ∧ SameMap g1 g2 ∧ g1.clean = g2.clean ∧ FSM.allState .frozen g1 = FSM.allState .frozen g2)
  fmm : ∀ d h, o2.kind = .fmm d h → o1.heap = o2.heap ∧ o1.heur = o2.heur ∧
    (if o1.pre then o1.dist else FMM.precomputeDistances g1.shape o1.dist) = (if o2.pre then o2.dist else FMM.precomputeDistances g2.shape o2.dist)
  fsm : ((∃ m, o2.kind = .fsm m) ∨ ∃ m, o2.kind = .lsm m) → o1.sweeps = o2.sweeps
  ddqm : o2.kind = .ddqm → o1.q0 = o2.q0 ∧ o1.q1 = o2.q1 ∧ o1.threshold = o2.threshold ∧ o1.thStep = o2.thStep
  list : ((∃ E, o2.kind = .fim E) ∨ ∃ dt, o2.kind = .gmm dt) → o1.list = o2.list
  gmm : ∀ dt, o2.kind = .gmm dt → GMM.deltau o1.deltau g1 = GMM.deltau o2.deltau g2
  uq : ∀ a b c, o2.kind = .ufmm a b c → o1.uq = o2.uq

theorem SameMap.symm' {g g' : Grid F} (h : SameMap g g') : SameMap g' g :=
  ⟨h.shape.symm, h.leaf.symm, h.occupied.symm, fun i => (h.occupancy i).symm, fun i => (h.index i).symm⟩

theorem Agree.symm {o1 o2 : Obj F} {g1 g2 : Grid F} (A : Agree o1 o2 g1 g2) : Agree o2 o1 g2 g1 := by
  have hk := A.kind
  refine ⟨hk.symm, A.pts.symm, A.goal.symm, ?_, ?_, ?_, ?_, ?_, ?_, ?_⟩
  · rcases A.grid with h | ⟨h1, h2, h3, h4⟩
    · exact Or.inl h.symm
    · refine Or.inr ⟨?_, SameMap.symm' h2, h3.symm, h4.symm⟩
      rw [hk]; exact h1
  · intro d h hd
    obtain ⟨a, b, c⟩ := A.fmm d h (hk ▸ hd)
    exact ⟨a.symm, b.symm, c.symm⟩
  · intro h; rw [hk] at h; exact (A.fsm h).symm
  · intro h; rw [hk] at h
    obtain ⟨a, b, c, d⟩ := A.ddqm h
    exact ⟨a.symm, b.symm, c.symm, d.symm⟩
  · intro h; rw [hk] at h; exact (A.list h).symm
  · intro dt h; rw [hk] at h; exact (A.gmm dt h).symm
  · intro a b c h; rw [hk] at h; exact (A.uq a b c h).symm

theorem occ_congr {g g' : Grid F} (h : SameMap g g') (i : Nat) : g'.occ i = g.occ i := by
  unfold Grid.occ Cell.isOccupied; rw [h.occupancy]

theorem sanity_congr {o1 o2 : Obj F} {g1 g2 : Grid F} (hp : o1.pts = o2.pts) (hgo : o1.goal = o2.goal) (hm : SameMap g1 g2) (hc : g1.clean = g2.clean) :
    o1.sanityChecks g1 = o2.sanityChecks g2 := by
  unfold Obj.sanityChecks
  rw [hp, hgo, hc, occ_congr hm, occ_congr hm]

/-- the object of class FMM after `setup()` -/
theorem fmm_setup (g : Grid F) {o : Obj F} {d : Bool} {hh : Heur} (hk : o.kind = .fmm d hh) :
    ∃ oo : Obj F, ({ o with ready := true } : Obj F).setupKind (g.setClean false) = oo ∧
      oo.kind = .fmm d hh ∧ oo.heap = o.heap ∧ oo.pts = o.pts ∧
      oo.fmmCfg (g.setClean false) d =
        { dup := d, heur := if o.goal = noGoal then .none else o.heur,
          hdist := if o.heur = .none ∨ o.goal = noGoal then fun _ => zero else
            FMM.getPrecomputedDistance g.shape (if o.pre then o.dist else FMM.precomputeDistances g.shape o.dist) (g.shape.idx2coord o.goal)
          goal := o.goal } := by
  refine ⟨_, rfl, ?_⟩
  cases o
  dsimp only at hk
  subst hk
  rename_i goal _ _ heur _ _ _ _ _ _ _ _ _ _ _ _
  by_cases hn : heur = .none
  · simp [Obj.setupKind, Obj.setHeuristics, Obj.fmmCfg, hn]
  · by_cases hg : goal = noGoal
    · simp [Obj.setupKind, Obj.setHeuristics, Obj.fmmCfg, hn, hg]
    · simp [Obj.setupKind, Obj.setHeuristics, Obj.fmmCfg, hn, hg, Grid.setClean]

theorem Agree.solve {pop : FMM.St F → Nat → Prop} {o1 o2 : Obj F} {g1 g2 : Grid F} (A : Agree o1 o2 g1 g2) {G : Grid F} (h : Solve pop o1 g1 G) :
    Solve pop o2 g2 G := by
  obtain ⟨ga, oa, o', hs, hr⟩ := h
  obtain ⟨h0, rfl, rfl⟩ := setup_spec hs
  have hm : SameMap g1 g2 := by rcases A.grid with h | ⟨_, h, _⟩; · rw [h]; exact SameMap.refl _
                                · exact h
  have hcl : g1.clean = g2.clean := by rcases A.grid with h | ⟨_, _, h, _⟩; · rw [h]
                                       · exact h
  have h02 : o2.sanityChecks g2 = 0 := by rw [← sanity_congr A.pts A.goal hm hcl]; exact h0
  have hs2 : o2.setup g2 = .ok (g2.setClean false, ({ o2 with ready := true } : Obj F).setupKind (g2.setClean false)) := by
    unfold Obj.setup; rw [if_pos h02]
  obtain ⟨kd, hkd⟩ : ∃ kd, o2.kind = kd := ⟨_, rfl⟩
  have hk1 : o1.kind = kd := A.kind.trans hkd
  have eqg : (∀ m, kd ≠ .lsm m) → kd ≠ .ddqm → g1 = g2 := by
    intro n1 n2
    rcases A.grid with h | ⟨⟨m, h⟩ | h, _⟩
    · exact h
    · exact absurd (hkd.symm.trans h) (n1 m)
    · exact absurd (hkd.symm.trans h) n2
  have eqa : FSM.allState .frozen (g1.setClean false) = FSM.allState .frozen (g2.setClean false) := by
    rcases A.grid with h | ⟨_, _, _, h⟩
    · rw [h]
    · exact congrArg (fun g : Grid F => g.setClean false) h
  refine ⟨g2.setClean false, ({ o2 with ready := true } : Obj F).setupKind (g2.setClean false), ?_⟩
  suffices hh : ∃ o', (({ o2 with ready := true } : Obj F).setupKind (g2.setClean false)).runs pop (g2.setClean false) G o' from
    hh.imp fun _ h => ⟨hs2, h⟩
  cases kd with
  | fmm d hh =>
    obtain rfl := eqg (by simp) (by simp)
    obtain ⟨f1, f2, f3⟩ := A.fmm d hh hkd
    obtain ⟨oo, e1, k1, k2, k3, k4⟩ := fmm_setup g1 hk1
    obtain ⟨oo2, e2, l1, l2, l3, l4⟩ := fmm_setup g1 hkd
    rw [e1] at hr
    have hc : oo2.fmmCfg (g1.setClean false) d = oo.fmmCfg (g1.setClean false) d := by
      rw [k4, l4, A.goal, f2, f3]
    unfold Obj.runs at hr
    rw [k1] at hr
    obtain ⟨n, s, r1, r2, r3, _⟩ := hr
    rw [e2]
    unfold Obj.runs
    rw [l1]
    refine ⟨_, n, s, ?_, r2, r3, rfl⟩
    rw [hc, l2, l3, ← f1, ← A.pts, ← k2, ← k3]
    exact r1
  | fsm m =>
    obtain rfl := eqg (by simp) (by simp)
    have e : ∀ o : Obj F, o.kind = .fsm m → ({ o with ready := true } : Obj F).setupKind (g1.setClean false) =
        { o with ready := true, incs := FSM.incs0 g1.shape.dims } := by
      intro o hk; unfold Obj.setupKind; dsimp only; rw [hk]; rfl
    rw [e o1 hk1] at hr
    unfold Obj.runs at hr
    dsimp only at hr
    rw [hk1] at hr
    obtain ⟨n, s, r1, r2, r3, _⟩ := hr
    rw [e o2 hkd]
    unfold Obj.runs
    dsimp only
    rw [hkd]
    refine ⟨_, n, s, ?_, r2, r3, rfl⟩
    rw [← A.goal, ← A.pts, ← A.fsm (Or.inl ⟨m, hkd⟩)]
    exact r1
  | lsm m =>
    have hsh : g1.shape = g2.shape := hm.shape.symm
    have e : ∀ (o : Obj F) (g : Grid F), o.kind = .lsm m → ({ o with ready := true } : Obj F).setupKind (g.setClean false) =
        { o with ready := true, incs := FSM.incs0 g.shape.dims } := by
      intro o g hk; unfold Obj.setupKind; dsimp only; rw [hk]; rfl
    rw [e o1 g1 hk1] at hr
    unfold Obj.runs at hr
    dsimp only at hr
    rw [hk1] at hr
    obtain ⟨n, s, r1, r2, r3, _⟩ := hr
    rw [e o2 g2 hkd]
    unfold Obj.runs
    dsimp only
    rw [hkd]
    refine ⟨_, n, s, ?_, r2, r3, rfl⟩
    unfold FSM.initLSM at r1 ⊢
    rw [← A.goal, ← A.pts, ← A.fsm (Or.inr ⟨m, hkd⟩), ← eqa, ← hsh]
    exact r1
  | ddqm =>
    have e : ∀ (o : Obj F) (g : Grid F), o.kind = .ddqm → ({ o with ready := true } : Obj F).setupKind (g.setClean false) =
        { o with ready := true } := by
      intro o g hk; unfold Obj.setupKind; dsimp only; rw [hk]
    obtain ⟨d1, d2, d3, d4⟩ := A.ddqm hkd
    rw [e o1 g1 hk1] at hr
    unfold Obj.runs at hr
    dsimp only at hr
    rw [hk1] at hr
    obtain ⟨n, s, r1, r2, r3, _⟩ := hr
    rw [e o2 g2 hkd]
    unfold Obj.runs
    dsimp only
    rw [hkd]
    refine ⟨_, n, s, ?_, r2, r3, rfl⟩
    unfold DDQM.init at r1 ⊢
    rw [← A.goal, ← A.pts, ← d1, ← d2, ← d3, ← d4, ← eqa]
    exact r1
  | fim E =>
    obtain rfl := eqg (by simp) (by simp)
    have e : ∀ (o : Obj F) (g : Grid F), o.kind = .fim E → ({ o with ready := true } : Obj F).setupKind (g.setClean false) =
        { o with ready := true } := by
      intro o g hk; unfold Obj.setupKind; dsimp only; rw [hk]
    rw [e o1 g1 hk1] at hr
    unfold Obj.runs at hr
    dsimp only at hr
    rw [hk1] at hr
    obtain ⟨n, s, r1, r2, r3, _⟩ := hr
    rw [e o2 g1 hkd]
    unfold Obj.runs
    dsimp only
    rw [hkd]
    refine ⟨_, n, s, ?_, r2, r3, rfl⟩
    rw [← A.goal, ← A.pts, ← A.list (Or.inl ⟨E, hkd⟩)]
    exact r1
  | gmm dt =>
    obtain rfl := eqg (by simp) (by simp)
    have e : ∀ o : Obj F, o.kind = .gmm dt → ({ o with ready := true } : Obj F).setupKind (g1.setClean false) =
        { o with ready := true, deltau := GMM.deltau o.deltau g1 } := by
      intro o hk; unfold Obj.setupKind; dsimp only; rw [hk]; rfl
    rw [e o1 hk1] at hr
    unfold Obj.runs at hr
    dsimp only at hr
    rw [hk1] at hr
    obtain ⟨n, s, r1, r2, r3, _⟩ := hr
    rw [e o2 hkd]
    unfold Obj.runs
    dsimp only
    rw [hkd]
    refine ⟨_, n, s, ?_, r2, r3, rfl⟩
    rw [← A.goal, ← A.pts, ← A.list (Or.inr ⟨dt, hkd⟩), ← A.gmm dt hkd]
    exact r1
  | ufmm a b c =>
    obtain rfl := eqg (by simp) (by simp)
    have e : ∀ (o : Obj F) (g : Grid F), o.kind = .ufmm a b c → ({ o with ready := true } : Obj F).setupKind (g.setClean false) =
        { o with ready := true } := by
      intro o g hk; unfold Obj.setupKind; dsimp only; rw [hk]
    rw [e o1 g1 hk1] at hr
    unfold Obj.runs at hr
    dsimp only at hr
    rw [hk1] at hr
    obtain ⟨n, s, r1, r2, r3, _⟩ := hr
    rw [e o2 g1 hkd]
    unfold Obj.runs
    dsimp only
    rw [hkd]
    refine ⟨_, n, s, ?_, r2, r3, rfl⟩
    rw [← A.goal, ← A.pts, ← A.uq a b c hkd]
    exact r1

end Life
end FMV
