import Verif.Props.HeapFMM
import Verif.Props.WellPosed
import Mathlib.Tactic.FinCases
/-!
# C57: runs of FMM and FMM* with `FMDaryHeap`
-/
set_option linter.unusedSectionVars false
set_option linter.unusedVariables false
namespace FMV
open Spec Shape XR FMM
variable {dims : List Nat} {g : Grid XR} {h : ℝ} {v : Nat → ℝ} {pts : List Nat} {B : Type}

/-- **C57/C13/C16** for FMM with any narrow band that meets its contract (without goal): after at most (cells + initial points) iterations the loop has ended, and the
times it leaves are those of the exact solution up to twice the comparison margin per cell. -/
theorem C57_FMM_accurate (X : XInput dims g h v pts) (hfr : Fresh g) (ha : StartsApart dims g pts) (hnd : pts.Nodup) (U : Nat → WithTop ℝ)
    (hU : X.problem.IsSolution U) (cfg : Cfg XR) (hd : cfg.dup = false) (hcfg : cfg.heur = .none) (hgoal : dims.prod ≤ cfg.goal)
    (N : Band XR B) (b0 : B) (hN : RightBand N b0 Number dims.prod) (k : Nat) (hk : dims.prod + pts.length ≤ k) :
    BDone N (bRun N cfg eikS k (bInit N cfg g b0 pts)) ∧ ∀ i, i < dims.prod →
      U i ≤ toT ((bRun N cfg eikS k (bInit N cfg g b0 pts)).g.value i) ∧
      toT ((bRun N cfg eikS k (bInit N cfg g b0 pts)).g.value i) ≤ U i + ((dims.prod * (2 * eps) : ℝ) : WithTop ℝ) := by
  have hin : Input dims g pts := ⟨X.fits, X.shape, X.inside⟩
  obtain ⟨m, s, hs, hg, hdone, hor⟩ := C57_FMM_refines X hfr ha hnd cfg hd hcfg N b0 hN k
  have hds : Done s := by
    by_contra hnot
    obtain ⟨s', h1⟩ := progress XR.ltLaws cfg s hnot
    have := C13_FMM_linear cfg hd dims g pts hin (m + 1) s' (.tail (hs.mono (fun _ _ => StepMin.any)) h1.any)
    rcases hor with h2 | h2
    · exact hnot h2
    · omega
  refine ⟨hdone.2 hds, fun i hi => ?_⟩
  rw [hg]
  have hemp := C14_no_goal_ends_empty cfg dims g pts hin hgoal m s (hs.mono (fun _ _ => StepMin.any)) hds
  exact (C16_FMM_final X hfr ha U hU cfg hcfg m s hs hemp i hi).2

/-- **C57/C13/C16** for FMM as it is, with `FMDaryHeap`. -/
theorem C57_FMM_binary_heap_accurate (X : XInput dims g h v pts) (hfr : Fresh g) (ha : StartsApart dims g pts) (hnd : pts.Nodup)
    (U : Nat → WithTop ℝ) (hU : X.problem.IsSolution U) (cfg : Cfg XR) (hd : cfg.dup = false) (hcfg : cfg.heur = .none)
    (hgoal : dims.prod ≤ cfg.goal) {b0 : DHeap} (E : DHeap.Emptied dims.prod b0) (k : Nat) (hk : dims.prod + pts.length ≤ k) :
    BDone DHeap.band (bRun DHeap.band cfg eikS k (bInit DHeap.band cfg g b0 pts)) ∧ ∀ i, i < dims.prod →
      U i ≤ toT ((bRun DHeap.band cfg eikS k (bInit DHeap.band cfg g b0 pts)).g.value i) ∧
      toT ((bRun DHeap.band cfg eikS k (bInit DHeap.band cfg g b0 pts)).g.value i) ≤
        U i + ((dims.prod * (2 * eps) : ℝ) : WithTop ℝ) :=
  C57_FMM_accurate X hfr ha hnd U hU cfg hd hcfg hgoal DHeap.band b0 (C57_binary_heap_right XR.weakOrder dims.prod E) k hk

/-- non-vacuity: two initial points in opposite corners of a 3×3 grid, with a heap that was used and reset -/
example : ∃ (g : Grid XR) (X : XInput [3, 3] g 1 (fun _ => 1) [0, 8]), Fresh g ∧ StartsApart [3, 3] g [0, 8] ∧ [0, 8].Nodup ∧ (∃ U, X.problem.IsSolution U) ∧
    DHeap.Emptied [3, 3].prod ((DHeap.push g (DHeap.new 4) 0).clear.setMaxSize 9) := by
  refine ⟨Grid.create [3,3] (fin 1) (0,0), ⟨⟨by decide, by decide, by decide⟩, by decide, rfl, by decide, one_pos, rfl, fun _ _ _ => rfl⟩,
    ⟨fun _ => rfl, fun _ => rfl, fun _ => rfl⟩, ?_, by decide, ?_, DHeap.emptied_reset rfl 9⟩
  · intro i hi j hj _ hadj
    obtain ⟨k, h0, h1, h2, h3⟩ := hadj
    fin_cases hi <;> fin_cases hj <;> revert h1 h2 h3 <;> (intro h1 h2 h3)
    all_goals
      have h4 : k = 0 ∨ k = 1 := by
        have : k < 2 := h1
        omega
      rcases h4 with rfl | rfl <;> revert h2 <;> decide
  · exact (C17_unique_solution _ (XInput.wellPosed _)).imp (fun _ h => h.1)

/-- `C57_FMMstar_refines`, and the calls made on the narrow band respect its contract -/
theorem FMMstar_used {p : Nat} (X : XInput dims g h v [p]) (hfr : Fresh g) (hp : g.occ p = false) (cfg : Cfg XR)
    (hd : cfg.dup = false) (hdist : ∀ i, ∃ r : ℝ, cfg.hdist i = fin r) (N : Band XR B) (b0 : B)
    (hN : RightBand N b0 Number dims.prod) (k : Nat) :
    ∃ m s, Steps (StepMin cfg) m (FMM.init cfg g [] [p]) s ∧ (bRun N cfg eikS k (bInit N cfg g b0 [p])).g = s.g ∧
      (BDone N (bRun N cfg eikS k (bInit N cfg g b0 [p])) ↔ Done s) ∧ (Done s ∨ m = k) ∧
      ∃ l, Used N b0 Number dims.prod (bRun N cfg eikS k (bInit N cfg g b0 [p])).g (bRun N cfg eikS k (bInit N cfg g b0 [p])).b l := by
  have hH : FinHeur dims g [p] cfg := by
    intro i hi ho
    have ho : g.occ i = false := by
      rcases ho with h1 | h1
      · rw [List.mem_singleton.1 h1]; exact hp
      · exact h1
    obtain ⟨r, e⟩ := hdist i
    unfold heurOf
    cases cfg.heur with
    | none => exact ⟨0, rfl⟩
    | time =>
      refine ⟨r / v i, ?_⟩
      dsimp only
      rw [e, X.speed i hi ho]
      show XR.div (fin r) (fin (v i)) = _
      simp [XR.div, (X.vpos hi ho).ne']
    | distance => exact ⟨r, e⟩
  have R0 := Rel.init N b0 Number dims.prod cfg g X.inside (List.nodup_singleton p) (init_keys_number hfr X hH)
  -- after the first pop the initial point is FROZEN and the narrow band contains no OPEN cell
  have hinv : ∀ m s, Steps (StepMin cfg) m (FMM.init cfg g [] [p]) s →
      KInv dims g [p] cfg s ∧ (s.heap = [p] ∨ ∀ y ∈ s.heap, s.g.state y ≠ .opn) := by
    intro m s hs
    refine Steps.inv (I := fun s => KInv dims g [p] cfg s ∧ (s.heap = [p] ∨ ∀ y ∈ s.heap, s.g.state y ≠ .opn)) (r := StepMin cfg) ?_ hs ?_
    · rintro s t ⟨K, hor⟩ ⟨_, x, hx, rfl⟩
      have hsh : s.g.shape = Shape.mk' dims := K.map.shape.trans X.shape
      have hpop : ∀ y ∈ (popped s x).heap, (popped s x).g.state y ≠ .opn := by
        intro y hy
        simp only [FMM.popped, Grid.state_setState] at hy ⊢
        split
        · simp
        · next hne =>
          rcases hor with h1 | h1
          · have hxp : x = p := by have := hx.1; rw [h1] at this; simpa using this
            rw [h1, hxp] at hy; simp at hy
          · exact h1 y (List.mem_of_mem_erase hy)
      have := expand_inv (I := fun s : St XR => KInv dims g [p] cfg s ∧ ∀ y ∈ s.heap, s.g.state y ≠ .opn) cfg eikS s x
        (fun t b h => ⟨⟨h.1.map, h.1.good, ⟨h.1.hinv.same, h.1.hinv.lab, h.1.hinv.unl, h.1.hinv.hp⟩, h.1.hp, h.1.nar⟩, h.2⟩) ⟨K.popped hx.1, hpop⟩ ?_
      · exact ⟨this.1, .inr this.2⟩
      · rintro t j hj ⟨K', h'⟩
        have hjN : j < dims.prod := FMM.nbr_lt X.fits (K.hp x hx.1).1 (by rw [← hsh]; exact hj)
        refine ⟨K'.relax X hjN, ?_⟩
        intro y hy
        rw [relax_state]
        split
        · simp
        · next hnot =>
          rcases relax_heap_mem hy with h1 | ⟨rfl, ho⟩
          · exact h' y h1
          · intro hop; exact hnot ⟨rfl, hop, ho⟩
    · refine ⟨KInv.start X hfr cfg, .inl ?_⟩
      rw [init_heap]; rfl
  have hstep : ∀ m (c : BSt XR B) s, Steps (StepMin cfg) m (FMM.init cfg g [] [p]) s → Rel N b0 Number dims.prod c s → ¬ Done s →
      ∃ s', StepMin cfg s s' ∧ Rel N b0 Number dims.prod (bStep N cfg eikS c) s' := by
    intro m c s hs R hdone
    obtain ⟨KI, hor⟩ := hinv m s hs
    have hsh : s.g.shape = Shape.mk' dims := KI.map.shape.trans X.shape
    have st := R.step hN hd (eik := eikS) hdone (KI.number hH)
      (M := fun l s => KInv dims g [p] cfg s ∧ (∀ y ∈ s.heap, s.g.state y ≠ .opn) ∧ ∀ j ∈ l, j < dims.prod) ?_ ?_
    · exact ⟨_, ⟨hdone, _, st.1, rfl⟩, st.2⟩
    · rintro j rest t ⟨K, h', hl⟩
      have hjN := hl j (by simp)
      refine ⟨K.safe X hH hjN (fun h1 _ h2 => h' j h2 h1), K.relax X hjN, ?_, fun k hk => hl k (by simp [hk])⟩
      intro y hy
      rw [relax_state]
      split
      · simp
      · next hnot =>
        rcases relax_heap_mem hy with h1 | ⟨rfl, ho⟩
        · exact h' y h1
        · intro hop; exact hnot ⟨rfl, hop, ho⟩
    · intro x hx
      refine ⟨KI.popped hx.1, ?_, fun j hj => FMM.nbr_lt X.fits (KI.hp x hx.1).1 (by rw [← hsh]; exact hj)⟩
      intro y hy
      simp only [FMM.popped, Grid.state_setState] at hy ⊢
      split
      · simp
      · next hne =>
        rcases hor with h1 | h1
        · have hxp : x = p := by have := hx.1; rw [h1] at this; simpa using this
          rw [h1, hxp] at hy; simp at hy
        · exact h1 y (List.mem_of_mem_erase hy)
  obtain ⟨m, s, a, b, c⟩ := Rel.run hN hstep k _ 0 _ (.refl _) R0
  exact ⟨m, s, a, b.1, b.done hN, (by simpa using c), b.2.2.imp fun _ h => h.1⟩

/-- **C57** (FMM and FMM* from one free initial point, with any finite distances): whatever narrow band meets its contract, every iteration pops a cell with the smallest sum of
arrival time and heuristic value; the states of the loop are those of the loop whose narrow band is a bag. -/
theorem C57_FMMstar_refines {p : Nat} (X : XInput dims g h v [p]) (hfr : Fresh g) (hp : g.occ p = false) (cfg : Cfg XR)
    (hd : cfg.dup = false) (hdist : ∀ i, ∃ r : ℝ, cfg.hdist i = fin r) (N : Band XR B) (b0 : B)
    (hN : RightBand N b0 Number dims.prod) (k : Nat) :
    ∃ m s, Steps (StepMin cfg) m (FMM.init cfg g [] [p]) s ∧ (bRun N cfg eikS k (bInit N cfg g b0 [p])).g = s.g ∧
      (BDone N (bRun N cfg eikS k (bInit N cfg g b0 [p])) ↔ Done s) ∧ (Done s ∨ m = k) := by
  obtain ⟨m, s, a, b, c, d, _⟩ := FMMstar_used X hfr hp cfg hd hdist N b0 hN k
  exact ⟨m, s, a, b, c, d⟩

/-! ## memory: `handles_` -/

section memory
variable {F : Type} [Arith F]

namespace DHeap

/-- the handle of every NARROW cell refers to an element of the heap, and everything is in range -/
structure Mem (n : Nat) (st : Nat → FMState) (h : DHeap) : Prop where
  nodes : (h.q.map Entry.node).Nodup
  hand : ∀ e ∈ h.q, e.node < h.fresh ∧ e.cell < n
  nar : ∀ c, st c = .narrow → ∃ e ∈ h.q, e.cell = c ∧ e.node = h.handles c
  hsize : h.hsize = n
  bad : h.bad = false

theorem Mem.state {n : Nat} {st st' : Nat → FMState} {h : DHeap} (M : Mem n st h) (hs : ∀ c, st' c = .narrow → st c = .narrow) : Mem n st' h :=
  ⟨M.nodes, M.hand, fun c hc => M.nar c (hs c hc), M.hsize, M.bad⟩

theorem Mem.push {n : Nat} {st st' : Nat → FMState} {h : DHeap} (M : Mem n st h) (g : Grid F) {c : Nat} (hc : c < n)
    (hs : ∀ k, k ≠ c → st' k = .narrow → st k = .narrow) : Mem n st' (DHeap.push g h c) := by
  have hp := DHeap.push_perm g h c
  refine ⟨?_, ?_, ?_, M.hsize, ?_⟩
  · rw [(hp.map Entry.node).nodup_iff]
    refine List.nodup_cons.2 ⟨?_, M.nodes⟩
    intro hm
    obtain ⟨e, he, e1⟩ := List.mem_map.1 hm
    have := (M.hand e he).1
    rw [e1] at this
    exact absurd this (Nat.lt_irrefl _)
  · intro e he
    show e.node < h.fresh + 1 ∧ _
    rcases List.mem_cons.1 (hp.mem_iff.1 he) with rfl | he
    · exact ⟨Nat.lt_succ_self _, hc⟩
    · have := M.hand e he; exact ⟨by omega, this.2⟩
  · intro k hk
    show ∃ e ∈ (DHeap.push g h c).q, e.cell = k ∧ e.node = if k = c then h.fresh else h.handles k
    by_cases hkc : k = c
    · subst hkc
      rw [if_pos rfl]
      exact ⟨⟨k, h.fresh⟩, hp.mem_iff.2 (by simp), rfl, rfl⟩
    · rw [if_neg hkc]
      obtain ⟨e, he, h1⟩ := M.nar k (hs k hkc hk)
      exact ⟨e, hp.mem_iff.2 (by simp [he]), h1⟩
  · show (h.bad || !decide (c < h.hsize)) = false
    rw [M.bad, M.hsize, decide_eq_true hc]; rfl

theorem Mem.increase {n : Nat} {st : Nat → FMState} {h : DHeap} (M : Mem n st h) (g : Grid F) {c : Nat} (hc : st c = .narrow) :
    Mem n st (DHeap.increase g h c) := by
  obtain ⟨e, he, h1, h2⟩ := M.nar c hc
  cases hf : h.q.findIdx? (fun e' => e'.node == h.handles c) with
  | none =>
    rw [List.findIdx?_eq_none_iff] at hf
    have := hf e he
    rw [h2] at this; simp at this
  | some i =>
    have hf' := hf
    rw [List.findIdx?_eq_some_iff_getElem] at hf'
    obtain ⟨hi, h3, _⟩ := hf'
    have h3 : h.q[i].node = h.handles c := by simpa using h3
    have he' : h.q[i] = e := (List.inj_on_of_nodup_map M.nodes) (List.getElem_mem hi) he (by rw [h3, h2])
    have hset : h.q.set i ⟨c, h.handles c⟩ = h.q := by
      have : (⟨c, h.handles c⟩ : Entry) = h.q[i] := by rw [he']; cases e; simp_all
      rw [this]; exact List.set_getElem_self hi
    have hp : (DHeap.increase g h c).q.Perm h.q := by
      unfold DHeap.increase; rw [hf]; dsimp only; rw [hset]; exact Heap.siftUp_perm _ _ _ hi
    have hh : (DHeap.increase g h c).handles = h.handles := by unfold DHeap.increase; rw [hf]
    have hfr : (DHeap.increase g h c).fresh = h.fresh := by unfold DHeap.increase; rw [hf]
    refine ⟨?_, ?_, ?_, ?_, ?_⟩
    · rw [(hp.map Entry.node).nodup_iff]; exact M.nodes
    · intro e he; rw [hfr]; exact M.hand e (hp.mem_iff.1 he)
    · intro k hk
      obtain ⟨e, he, h1⟩ := M.nar k hk
      rw [hh]
      exact ⟨e, hp.mem_iff.2 he, h1⟩
    · unfold DHeap.increase; rw [hf]; exact M.hsize
    · unfold DHeap.increase; rw [hf]
      show (h.bad || !decide (c < h.hsize)) = false
      rw [M.bad, M.hsize, decide_eq_true (by rw [← h1]; exact (M.hand e he).2)]; rfl

theorem Mem.pop {n : Nat} {st : Nat → FMState} {h : DHeap} (M : Mem n st h) (g : Grid F) (hne : h.q ≠ []) :
    Mem n (fun k => if k = (DHeap.popMinIdx g h).1 then .frozen else st k) (DHeap.popMinIdx g h).2 ∧ (DHeap.popMinIdx g h).1 < n := by
  have hp := Heap.popQ_perm (d := dflt) (low := low g) h.q hne
  have hl : 0 < h.q.length := List.length_pos_iff.2 hne
  refine ⟨⟨?_, ?_, ?_, M.hsize, M.bad⟩, (M.hand _ (Heap.at'_mem (d := dflt) _ _ hl)).2⟩
  · exact (List.nodup_cons.1 ((hp.map Entry.node).nodup_iff.1 M.nodes)).2
  · intro e he; exact M.hand e (hp.mem_iff.2 (List.mem_cons_of_mem _ he))
  · intro c hc
    split at hc
    · cases hc
    · next hne' =>
      obtain ⟨e, he, h1, h2⟩ := M.nar c hc
      refine ⟨e, ?_, h1, h2⟩
      rcases List.mem_cons.1 (hp.mem_iff.1 he) with h3 | h3
      · exact absurd (by rw [← h1, h3]; rfl) hne'
      · exact h3

end DHeap

/-- the memory invariant of the loop -/
def FMM.MemInv (dims : List Nat) (c : BSt F DHeap) : Prop := c.g.shape = Shape.mk' dims ∧ DHeap.Mem dims.prod c.g.state c.b

theorem FMM.MemInv.relax {dims : List Nat} {c : BSt F DHeap} (M : FMM.MemInv dims c) (cfg : Cfg F) (eik : Eik F) {j : Nat}
    (hj : j < dims.prod) : FMM.MemInv dims (bRelax DHeap.band cfg eik c j) := by
  unfold bRelax
  split
  · exact M
  · next hnot =>
    dsimp only
    split
    · next hn =>
      split
      · refine ⟨by simpa using M.1, ?_⟩
        have := M.2.increase (((applyHeur cfg (c.g.setScratch (eik c.g j).2) j)).setValue j (eik c.g j).1) hn
        refine DHeap.Mem.state this ?_
        intro k hk; simpa using hk
      · refine ⟨by simpa using M.1, M.2.state ?_⟩
        intro k hk; simpa using hk
    · refine ⟨by simpa using M.1, M.2.push _ hj ?_⟩
      intro k hk hn
      simp only [Grid.state_setValue, Grid.state_setState, applyHeur_state, Grid.state_setScratch] at hn
      rwa [if_neg hk] at hn

/-- **C57/C48**: in every run of FMM or FMM* with `FMDaryHeap`, for any map, any initial points (also adjacent or repeated ones), any numbers and any local solver, no `push`
writes outside `handles_` and no `increase` goes through a handle whose element has left the heap. -/
theorem C57_handles_safe (cfg : Cfg F) (eik : Eik F) (dims : List Nat) (g : Grid F) (pts : List Nat) (hin : Input dims g pts)
    (hopen : ∀ i, g.state i = .opn) {b0 : DHeap} (E : DHeap.Emptied dims.prod b0) (k : Nat) :
    (bRun DHeap.band cfg eik k (bInit DHeap.band cfg g b0 pts)).b.bad = false := by
  have h0 : FMM.MemInv dims (bInit DHeap.band cfg g b0 pts) := by
    unfold bInit
    refine foldl_inv (I := fun c : BSt F DHeap => FMM.MemInv dims c ∧ ∀ i, c.g.state i = .opn) _ _ _ ⟨⟨hin.shape, ?_⟩, hopen⟩ ?_ |>.1
    · refine ⟨by rw [E.q]; exact List.nodup_nil, (by rw [E.q]; exact fun _ h => by cases h), ?_, E.hsize, E.bad⟩
      intro c hc
      change g.state c = _ at hc
      rw [hopen] at hc; cases hc
    · intro c i hi M
      have hst : ∀ k, (applyHeur cfg (c.g.setValue i Arith.zero) i).state k = c.g.state k := fun k => by simp
      refine ⟨⟨by simpa [bInitPoint] using M.1.1, M.1.2.push _ (hin.inside i hi) ?_⟩, ?_⟩
      · intro k _ hk
        change (applyHeur cfg (c.g.setValue i Arith.zero) i).state k = _ at hk
        rwa [hst] at hk
      · intro k
        show (applyHeur cfg (c.g.setValue i Arith.zero) i).state k = _
        rw [hst]; exact M.2 k
  have hrun : ∀ k (c : BSt F DHeap), FMM.MemInv dims c → FMM.MemInv dims (bRun DHeap.band cfg eik k c) := by
    intro k
    induction k with
    | zero => intro c M; exact M
    | succ k ih =>
      intro c M
      unfold bRun
      split
      · exact M
      · next hnd =>
        apply ih
        have hne : c.b.q ≠ [] := by
          intro h; apply hnd; right
          show c.b.q.isEmpty = true
          rw [h]; rfl
        obtain ⟨M1, hx⟩ := M.2.pop c.g hne
        have M2 : FMM.MemInv dims ({ c with g := c.g.setState (DHeap.popMinIdx c.g c.b).1 .frozen, b := (DHeap.popMinIdx c.g c.b).2 } : BSt F DHeap) := by
          refine ⟨M.1, ?_⟩
          have e : (c.g.setState (DHeap.popMinIdx c.g c.b).1 .frozen).state =
              fun k => if k = (DHeap.popMinIdx c.g c.b).1 then .frozen else c.g.state k := by
            funext k; rw [Grid.state_setState]
          show DHeap.Mem _ (c.g.setState (DHeap.popMinIdx c.g c.b).1 .frozen).state _
          rw [e]; exact M1
        have M3 := foldl_inv (I := fun c : BSt F DHeap => FMM.MemInv dims c) (bRelax DHeap.band cfg eik) (c.g.shape.nbrs (DHeap.popMinIdx c.g c.b).1) _ M2
          (fun c' j hj h => h.relax cfg eik (FMM.nbr_lt hin.fits hx (by rw [← M.1]; exact hj)))
        exact ⟨M3.1, M3.2⟩
  exact (hrun k _ h0).2.bad

/-- **C57/C48** (refutation): the size of `handles_` is set by `setup`, and `setEnvironment` does not ask for a new one (C38). If the grid given to a solver that has
already run has a cell that the old one did not have and it is among the initial points, the first thing `compute` does is a write outside `handles_`. -/
theorem C57_stale_handles (cfg : Cfg F) (g : Grid F) (pts : List Nat) (n : Nat) (b0 : DHeap) (hb : b0.hsize = n) (i : Nat) (hi : i ∈ pts)
    (hn : n ≤ i) : (bInit DHeap.band cfg g b0 pts).b.bad = true := by
  have mono : ∀ (c : BSt F DHeap) j, c.b.bad = true → (bInitPoint DHeap.band cfg c j).b.bad = true := by
    intro c j h
    show (c.b.bad || _) = true
    rw [h]; rfl
  have hs : ∀ (c : BSt F DHeap) j, (bInitPoint DHeap.band cfg c j).b.hsize = c.b.hsize := fun _ _ => rfl
  have keep : ∀ (l : List Nat) (c : BSt F DHeap), c.b.bad = true → (l.foldl (bInitPoint DHeap.band cfg) c).b.bad = true := by
    intro l
    induction l with
    | nil => intro c h; exact h
    | cons j l ih => intro c h; exact ih _ (mono c j h)
  have main : ∀ (l : List Nat) (c : BSt F DHeap), c.b.hsize = n → i ∈ l → (l.foldl (bInitPoint DHeap.band cfg) c).b.bad = true := by
    intro l
    induction l with
    | nil => intro c _ h; cases h
    | cons j l ih =>
      intro c hc h
      rcases List.mem_cons.1 h with rfl | h
      · rw [List.foldl_cons]
        apply keep
        show (c.b.bad || !decide (i < c.b.hsize)) = true
        rw [hc, decide_eq_false (by omega)]; simp
      · exact ih _ (by rw [hs]; exact hc) h
  exact main pts _ hb hi

/-- non-vacuity: a solver that has run on a 2×2 grid and is given a 3×3 grid with initial point 8 -/
example : ∃ (g : Grid XR), (bRun DHeap.band (⟨false, .none, fun _ => fin 0, noGoal⟩ : Cfg XR) eikS 4
    (bInit DHeap.band ⟨false, .none, fun _ => fin 0, noGoal⟩ (Grid.create [2, 2] (fin 1) (0, 0)) (DHeap.new 4) [0])).b.hsize = 4 ∧
    Input [3, 3] g [8] := by
  refine ⟨Grid.create [3, 3] (fin 1) (0, 0), ?_, ⟨⟨by decide, by decide, by decide⟩, rfl, by decide⟩⟩
  have hs : ∀ k (c : BSt XR DHeap), (bRun DHeap.band (⟨false, .none, fun _ => fin 0, noGoal⟩ : Cfg XR) eikS k c).b.hsize = c.b.hsize := by
    intro k
    induction k with
    | zero => intro c; rfl
    | succ k ih =>
      intro c
      unfold bRun
      split
      · rfl
      · rw [ih]
        have hr : ∀ (c : BSt XR DHeap) j, (bRelax DHeap.band (⟨false, .none, fun _ => fin 0, noGoal⟩ : Cfg XR) eikS c j).b.hsize = c.b.hsize := by
          intro c j
          unfold bRelax
          split
          · rfl
          · dsimp only
            split
            · split
              · show (DHeap.increase _ _ _).hsize = _
                unfold DHeap.increase
                split <;> rfl
              · rfl
            · rfl
        have hf : ∀ (l : List Nat) (c : BSt XR DHeap),
            (l.foldl (bRelax DHeap.band (⟨false, .none, fun _ => fin 0, noGoal⟩ : Cfg XR) eikS) c).b.hsize = c.b.hsize := by
          intro l
          induction l with
          | nil => intro c; rfl
          | cons j l ih => intro c; rw [List.foldl_cons, ih, hr]
        exact hf _ _
  rw [hs]; rfl

end memory
end FMV
