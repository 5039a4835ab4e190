import Verif.Lemmas.Reflect
import Verif.Props.HeapRun
import Verif.Props.WellPosed
import Verif.Props.Agree
import Mathlib.Tactic.FinCases
import Mathlib.Tactic.IntervalCases
/-!
# C58: SFMM with its real queue

`FMPriorityQueue::increase` pushes a second copy of a pointer whose key has already been changed in place, so the array of the queue is no longer a heap. Whatever
does not depend on the order of the elements remains true of SFMM; the order itself, and with it the accuracy, does not.
-/
set_option linter.unusedSectionVars false
set_option linter.unusedVariables false
namespace FMV
open Spec Shape XR FMM

namespace Heap
variable {α : Type} {d : α} {low : α → α → Bool}

theorem holeDown_perm (n : Nat) (f : Nat) : ∀ (i : Nat) (q : List α), q.length = n → i < n →
    (holeDown d low n f i q).1 < n ∧ (holeDown d low n f i q).2.length = n ∧
      ∀ v, ((holeDown d low n f i q).2.set (holeDown d low n f i q).1 v).Perm (q.set i v) := by
  have key : ∀ (i c : Nat) (q : List α), i < q.length → c < q.length → i ≠ c → ∀ v, ((q.set i (at' d q c)).set c v).Perm (q.set i v) := by
    intro i c q hi hc hne v
    have h := swap_perm (d := d) (q.set i v) i c (by simpa using hi) (by simpa using hc)
    unfold swap at h
    rw [at'_set _ _ _ _ hi, at'_set _ _ _ _ hi, if_neg (Ne.symm hne), if_pos rfl] at h
    simpa [List.set_set] using h
  induction f with
  | zero => intro i q hl hi; exact ⟨hi, hl, fun v => List.Perm.refl _⟩
  | succ f ih =>
    intro i q hl hi
    unfold holeDown
    split
    · next h1 =>
      dsimp only
      have hc : ∀ c, (c = 2 * i + 1 ∨ c = 2 * i + 2) → (holeDown d low n f c (q.set i (at' d q c))).1 < n ∧
          (holeDown d low n f c (q.set i (at' d q c))).2.length = n ∧
          ∀ v, ((holeDown d low n f c (q.set i (at' d q c))).2.set (holeDown d low n f c (q.set i (at' d q c))).1 v).Perm (q.set i v) := by
        intro c hc
        have hcn : c < n := by omega
        obtain ⟨a, b, e⟩ := ih c (q.set i (at' d q c)) (by simpa using hl) hcn
        refine ⟨a, b, fun v => (e v).trans (key i c q (by omega) (by omega) (by omega) v)⟩
      split
      · exact hc _ (.inl rfl)
      · exact hc _ (.inr rfl)
    · split
      · next h1 h2 =>
        refine ⟨by dsimp only; omega, by dsimp only; simpa using hl, fun v => key i (2 * i + 1) q (by omega) (by omega) (by omega) v⟩
      · exact ⟨hi, hl, fun v => List.Perm.refl _⟩

theorem stdPop_perm (q : List α) (hne : q ≠ []) : q.Perm (at' d q 0 :: stdPop d low q) := by
  have hl : 0 < q.length := List.length_pos_iff.2 hne
  unfold stdPop
  split
  · next h1 =>
    have : q.length = 1 := by omega
    obtain ⟨a, rfl⟩ := List.length_eq_one_iff.1 this
    exact List.Perm.refl _
  · next h1 =>
    dsimp only
    have hn : (q.take (q.length - 1)).length = q.length - 1 := by simp
    obtain ⟨a, b, e⟩ := holeDown_perm (d := d) (low := low) (q.length - 1) (q.length - 1) 0 (q.take (q.length - 1)) hn (by omega)
    have h2 := siftUp_perm (d := d) (low := low) (holeDown d low (q.length - 1) (q.length - 1) 0 (q.take (q.length - 1))).1
      (holeDown d low (q.length - 1) (q.length - 1) 0 (q.take (q.length - 1))).1
      ((holeDown d low (q.length - 1) (q.length - 1) 0 (q.take (q.length - 1))).2.set
        (holeDown d low (q.length - 1) (q.length - 1) 0 (q.take (q.length - 1))).1 (at' d q (q.length - 1))) (by rw [List.length_set, b]; exact a)
    refine List.Perm.symm (((h2.trans (e _)).cons _).trans ?_)
    have h3 := set_perm (d := d) (q.take (q.length - 1)) 0 (at' d q (q.length - 1)) (by omega)
    have e0 : at' d (q.take (q.length - 1)) 0 = at' d q 0 := by
      unfold at'; simp only [List.getD_eq_getElem?_getD]; rw [List.getElem?_take_of_lt (by omega)]
    rw [e0] at h3
    refine h3.trans ?_
    have h4 : q = q.take (q.length - 1) ++ [at' d q (q.length - 1)] := by
      conv_lhs => rw [← List.take_append_drop (q.length - 1) q]
      congr 1
      unfold at'
      have hlt : q.length - 1 < q.length := Nat.sub_lt hl Nat.one_pos
      rw [List.getD_eq_getElem _ _ hlt, List.drop_eq_getElem_cons hlt]
      have : q.drop (q.length - 1 + 1) = [] := List.drop_eq_nil_of_le (by omega)
      rw [this]
    conv_rhs => rw [h4]
    exact (List.perm_append_singleton _ _).symm

end Heap

/-! ## what holds in any order -/
section any
variable {F : Type} [Arith F]
namespace FMM

/-- the queue of SFMM and the bag contain the same elements -/
def PRel (c : BSt F (List Nat)) (s : St F) : Prop := c.g = s.g ∧ c.stop = s.stop ∧ c.b.Perm s.heap

theorem PRel.relax {cfg : Cfg F} (hd : cfg.dup = true) (eik : Eik F) {c : BSt F (List Nat)} {s : St F} (R : PRel c s) (j : Nat) :
    PRel (bRelax PQ.band cfg eik c j) (relax cfg eik s j) := by
  obtain ⟨hg, hs, hp⟩ := R
  unfold bRelax FMM.relax
  rw [hg]
  split
  · exact ⟨hg, hs, hp⟩
  · dsimp only
    split
    · split
      · refine ⟨rfl, hs, ?_⟩
        exact (Heap.pushQ_perm _ _).trans (hp.cons j)
      · exact ⟨rfl, hs, hp⟩
    · exact ⟨rfl, hs, (Heap.pushQ_perm _ _).trans (hp.cons j)⟩

theorem PRel.fold {cfg : Cfg F} (hd : cfg.dup = true) (eik : Eik F) (l : List Nat) : ∀ {c : BSt F (List Nat)} {s : St F}, PRel c s →
    PRel (l.foldl (bRelax PQ.band cfg eik) c) (l.foldl (FMM.relax cfg eik) s) := by
  induction l with
  | nil => intro c s R; exact R
  | cons j l ih => intro c s R; exact ih (R.relax hd eik j)

theorem PRel.init (cfg : Cfg F) (g : Grid F) (pts : List Nat) : PRel (bInit PQ.band cfg g [] pts) (FMM.init cfg g [] pts) := by
  unfold bInit FMM.init
  have : PRel (⟨g, [], false⟩ : BSt F (List Nat)) ⟨g, [], false⟩ := ⟨rfl, rfl, List.Perm.refl _⟩
  revert this
  generalize (⟨g, [], false⟩ : BSt F (List Nat)) = c
  generalize (⟨g, [], false⟩ : St F) = s
  induction pts generalizing c s with
  | nil => intro R; exact R
  | cons p pts ih =>
    intro R
    rw [List.foldl_cons, List.foldl_cons]
    refine ih _ _ ?_
    obtain ⟨hg, hs, hp⟩ := R
    unfold bInitPoint initPoint
    rw [hg]
    exact ⟨rfl, hs, (Heap.pushQ_perm _ _).trans (hp.cons p)⟩

theorem PRel.done {c : BSt F (List Nat)} {s : St F} (R : PRel c s) : BDone PQ.band c ↔ Done s := by
  unfold BDone Done
  rw [R.2.1]
  refine or_congr Iff.rfl ?_
  show c.b.isEmpty = true ↔ _
  rw [List.isEmpty_iff]
  exact ⟨fun h => by have := R.2.2; rw [h] at this; exact this.nil_eq.symm, fun h => by have := R.2.2; rw [h] at this; exact this.eq_nil⟩

theorem PRel.step {cfg : Cfg F} (hd : cfg.dup = true) (eik : Eik F) {c : BSt F (List Nat)} {s : St F} (R : PRel c s) (hn : ¬ Done s) :
    ∃ x ∈ s.heap, PRel (bStep PQ.band cfg eik c) (expand cfg eik s x) := by
  have hne : c.b ≠ [] := by
    intro h
    apply hn; right
    have := R.2.2; rw [h] at this; exact this.nil_eq.symm
  have hpop := Heap.stdPop_perm (d := 0) (low := Heap.cmp c.g) c.b hne
  obtain ⟨hg, hs, hp⟩ := R
  have hx : Heap.at' 0 c.b 0 ∈ s.heap := hp.mem_iff.1 (hpop.mem_iff.2 (by simp))
  refine ⟨_, hx, ?_⟩
  have hp1 : (Heap.stdPop 0 (Heap.cmp c.g) c.b).Perm (s.heap.erase (Heap.at' 0 c.b 0)) := by
    have := (hpop.symm.trans hp).erase (Heap.at' 0 c.b 0)
    rwa [List.erase_cons_head] at this
  have R1 : PRel (⟨c.g.setState (Heap.at' 0 c.b 0) .frozen, Heap.stdPop 0 (Heap.cmp c.g) c.b, c.stop⟩ : BSt F (List Nat))
      ⟨s.g.setState (Heap.at' 0 c.b 0) .frozen, s.heap.erase (Heap.at' 0 c.b 0), s.stop⟩ := ⟨by rw [hg], hs, hp1⟩
  have R2 := R1.fold hd eik (c.g.shape.nbrs (Heap.at' 0 c.b 0))
  unfold bStep expand
  dsimp only
  rw [← hg] at R2 ⊢
  refine ⟨R2.1, ?_, R2.2.2⟩
  show (if Heap.at' 0 c.b 0 = cfg.goal then true else (List.foldl (bRelax PQ.band cfg eik)
    (⟨c.g.setState (Heap.at' 0 c.b 0) .frozen, Heap.stdPop 0 (Heap.cmp c.g) c.b, c.stop⟩ : BSt F (List Nat)) (c.g.shape.nbrs (Heap.at' 0 c.b 0))).stop) = _
  rw [R2.2.1]

end FMM

/-- **C58** (any arithmetic, any map, any initial points, with or without heuristic): each state of SFMM with its real queue is a state of the loop that pops an arbitrary stored
element each time. All theorems about `StepLib` and `StepAny` therefore apply to SFMM as it is: C11, C12, C14, C18, C19, C20, C47 (termination), C48. -/
theorem C58_SFMM_refines (cfg : Cfg F) (hd : cfg.dup = true) (g : Grid F) (pts : List Nat) (k : Nat) :
    ∃ m s, Steps (StepLib cfg) m (FMM.init cfg g [] pts) s ∧ (bRun PQ.band cfg eikS k (bInit PQ.band cfg g [] pts)).g = s.g ∧
      (BDone PQ.band (bRun PQ.band cfg eikS k (bInit PQ.band cfg g [] pts)) ↔ Done s) ∧ (Done s ∨ m = k) := by
  have : ∀ k (c : BSt F (List Nat)) (m : Nat) (s : St F), Steps (StepLib cfg) m (FMM.init cfg g [] pts) s → PRel c s →
      ∃ m' s', Steps (StepLib cfg) m' (FMM.init cfg g [] pts) s' ∧ PRel (bRun PQ.band cfg eikS k c) s' ∧ (Done s' ∨ m' = m + k) := by
    intro k
    induction k with
    | zero => intro c m s hs R; exact ⟨m, s, hs, R, .inr rfl⟩
    | succ k ih =>
      intro c m s hs R
      unfold bRun
      by_cases h : Done s
      · rw [if_pos (R.done.2 h)]; exact ⟨m, s, hs, R, .inl h⟩
      · rw [if_neg (fun h' => h (R.done.1 h'))]
        obtain ⟨x, hx, R'⟩ := R.step hd eikS h
        obtain ⟨m', s', a, b, c⟩ := ih _ (m + 1) _ (.tail hs ⟨h, x, hx, rfl⟩) R'
        exact ⟨m', s', a, b, c.imp id (fun e => by omega)⟩
  obtain ⟨m, s, a, b, c⟩ := this k _ 0 _ (.refl _) (PRel.init cfg g pts)
  exact ⟨m, s, a, b.1, b.done, c.imp id (fun e => by omega)⟩

theorem FMM.bRun_add {B : Type} (N : Band F B) (cfg : Cfg F) (eik : Eik F) (a b : Nat) (s : BSt F B) :
    bRun N cfg eik (a + b) s = bRun N cfg eik b (bRun N cfg eik a s) := by
  induction a generalizing s with
  | zero => rw [Nat.zero_add]; rfl
  | succ a ih =>
    rw [Nat.succ_add]
    have e : ∀ n, bRun N cfg eik (n + 1) s = if BDone N s then s else bRun N cfg eik n (bStep N cfg eik s) := fun n => rfl
    rw [e, e]
    by_cases h : BDone N s
    · rw [if_pos h, if_pos h]
      cases b with
      | zero => rfl
      | succ b => rw [e, if_pos h]
    · rw [if_neg h, if_neg h, ih]

theorem FMM.bRun_done {B : Type} (N : Band F B) (cfg : Cfg F) (eik : Eik F) {s : BSt F B} (h : BDone N s) (b : Nat) : bRun N cfg eik b s = s := by
  cases b with
  | zero => rfl
  | succ b => unfold bRun; rw [if_pos h]

end any

section exact
variable {dims : List Nat} {g : Grid XR} {h : ℝ} {v : Nat → ℝ} {pts : List Nat}

/-- **C58/C47** (exact arithmetic): no order in which the queue may release its elements gives an infinite run of SFMM or SFMM*. -/
theorem C58_no_infinite_run (X : XInput dims g h v pts) (hfr : Fresh g) (cfg : Cfg XR) :
    ¬ ∃ f : Nat → St XR, f 0 = FMM.init cfg g [] pts ∧ ∀ n, StepLib cfg (f n) (f (n+1)) := by
  have hI : ∀ s t : St XR, KInv dims g pts cfg s → StepLib cfg s t → KInv dims g pts cfg t := by
    rintro s t K ⟨_, x, hx, rfl⟩
    have hsh : s.g.shape = Shape.mk' dims := K.map.shape.trans X.shape
    exact expand_inv (I := fun s : St XR => KInv dims g pts cfg s) cfg eikS s x
      (fun t b h => ⟨h.map, h.good, ⟨h.hinv.same, h.hinv.lab, h.hinv.unl, h.hinv.hp⟩, h.hp, h.nar⟩) (K.popped hx)
      (fun t j hj K' => K'.relax X (FMM.nbr_lt X.fits (K.hp x hx).1 (by rw [← hsh]; exact hj)))
  have hdec : ∀ s t : St XR, KInv dims g pts cfg s → StepLib cfg s t →
      muRel dims.prod (muF Ranked.exact dims.prod t) (muF Ranked.exact dims.prod s) := by
    rintro s t K ⟨_, x, hx, rfl⟩
    have hsh : s.g.shape = Shape.mk' dims := K.map.shape.trans X.shape
    refine expand_mu Ranked.exact (I := fun t : St XR => KInv dims g pts cfg t) ?_ ?_ (K.popped hx) hx
      (fun j hj => FMM.nbr_lt X.fits (K.hp x hx).1 (by rw [← hsh]; exact hj))
    · intro t j hj ht; exact ht.relax X hj
    · intro t j hj ht
      exact ⟨ht.good j, fun ho => X.eik_good ht.map ht.good hj (by rw [← SameMap.occ_eq ht.map]; exact ho)⟩
  rintro ⟨f, h0, hf⟩
  exact no_infinite_wf (muRel_wf dims.prod) (muF Ranked.exact dims.prod) (step := StepLib cfg) (I := fun s => KInv dims g pts cfg s)
    hI hdec ⟨f, by rw [h0]; exact KInv.start X hfr cfg, hf⟩

/-- **C58**: SFMM as it is, with its real queue (without goal): it ends, the cells it freezes are exactly those connected to an initial point, and no time is below the
exact one. -/
theorem C58_SFMM_sound_partial (X : XInput dims g h v pts) (hfr : Fresh g) (U : Nat → WithTop ℝ) (hU : X.problem.IsSolution U) (cfg : Cfg XR)
    (hd : cfg.dup = true) (hgoal : dims.prod ≤ cfg.goal) :
    ∃ n, ∀ k, n ≤ k → BDone PQ.band (bRun PQ.band cfg eikS k (bInit PQ.band cfg g [] pts)) ∧
      (∀ i, (bRun PQ.band cfg eikS k (bInit PQ.band cfg g [] pts)).g.state i = .frozen ↔ reach dims g pts i) ∧
      ∀ i, i < dims.prod → U i ≤ toT ((bRun PQ.band cfg eikS k (bInit PQ.band cfg g [] pts)).g.value i) := by
  have hin : Input dims g pts := ⟨X.fits, X.shape, X.inside⟩
  have hex : ∃ n, BDone PQ.band (bRun PQ.band cfg eikS n (bInit PQ.band cfg g [] pts)) := by
    by_contra hno
    push Not at hno
    -- the states of the bag loop are determined by those of the real one up to the order of the bag, so choose them step by step
    have hstep : ∀ (n : Nat) (s : St XR), PRel (bRun PQ.band cfg eikS n (bInit PQ.band cfg g [] pts)) s →
        ∃ s', StepLib cfg s s' ∧ PRel (bRun PQ.band cfg eikS (n+1) (bInit PQ.band cfg g [] pts)) s' := by
      intro n s R
      have hnd : ¬ Done s := fun h' => hno n (R.done.2 h')
      obtain ⟨x, hx, R'⟩ := R.step hd eikS hnd
      refine ⟨_, ⟨hnd, x, hx, rfl⟩, ?_⟩
      rw [bRun_add]
      have : bRun PQ.band cfg eikS 1 (bRun PQ.band cfg eikS n (bInit PQ.band cfg g [] pts)) =
          bStep PQ.band cfg eikS (bRun PQ.band cfg eikS n (bInit PQ.band cfg g [] pts)) := by
        show (if _ then _ else _) = _
        rw [if_neg (hno n)]; rfl
      rw [this]; exact R'
    let F : (n : Nat) → {s : St XR // PRel (bRun PQ.band cfg eikS n (bInit PQ.band cfg g [] pts)) s} := fun n =>
      Nat.rec ⟨FMM.init cfg g [] pts, PRel.init cfg g pts⟩ (fun n s => ⟨(hstep n s.1 s.2).choose, (hstep n s.1 s.2).choose_spec.2⟩) n
    exact C58_no_infinite_run X hfr cfg ⟨fun n => (F n).1, rfl, fun n => (hstep n (F n).1 (F n).2).choose_spec.1⟩
  obtain ⟨n, hn⟩ := hex
  refine ⟨n, fun k hk => ?_⟩
  obtain ⟨j, rfl⟩ := Nat.exists_eq_add_of_le hk
  rw [bRun_add, bRun_done _ _ _ hn]
  obtain ⟨m, s, hs, hg, hdone, _⟩ := C58_SFMM_refines cfg hd g pts n
  have hemp := C14_no_goal_ends_empty cfg dims g pts hin hgoal m s (hs.mono (fun _ _ => StepLib.any)) (hdone.1 hn)
  refine ⟨hn, fun i => ?_, fun i hi => ?_⟩
  · rw [hg]; exact C14_frozen_iff_reachable cfg dims g pts hin hfr.state m s (hs.mono (fun _ _ => StepLib.any)) hemp i
  · rw [hg]; exact (C18_FMM X hfr U hU cfg m s hs i hi).2

end exact

/-! ## a map on which SFMM is wrong -/
namespace SFMMWrong

/-- the speeds of the 3×3 map (leaf size 12810, so that crossing a cell takes 42, 61, 7, (obstacle), 70, 7, 105, 7, 7) -/
def speeds : List Rat := [305, 210, 1830, 0, 183, 1830, 122, 1830, 1830]

def mapQ : Grid XQ :=
  { shape := Shape.mk' [3, 3], leaf := .fin 12810, clean := true,
    cells := fun i => { (Cell.default : Cell XQ) with occupancy := .fin (speeds.getD i 1), index := i }, occupied := [3], scratch := (0, 0) }

/-- the map -/
noncomputable def map : Grid XR := mapQ.toXR

noncomputable def speed (i : Nat) : ℝ := ((speeds.getD i 1 : Rat) : ℝ)

theorem input : XInput [3, 3] map 12810 speed [5] :=
  ⟨⟨by decide, by decide, by decide⟩, by decide, rfl, by decide, by norm_num, by show XR.fin _ = XR.fin _; norm_num, fun i _ _ => rfl⟩

theorem fresh : Fresh map := ⟨fun _ => rfl, fun _ => rfl, fun _ => by show XR.fin _ = XR.fin _; norm_num⟩

theorem apart : StartsApart [3, 3] map [5] := by
  intro i hi j hj _ hadj
  obtain ⟨k, h0, h1, h2, h3⟩ := hadj
  fin_cases hi; fin_cases hj
  omega

/-- SFMM after `k` iterations -/
noncomputable def sfmm (k : Nat) : BSt XR (List Nat) := bRun PQ.band (Cfg.plain true noGoal) eikS k (bInit PQ.band (Cfg.plain true noGoal) map [] [5])

/-- FMM after `k` iterations -/
noncomputable def fmm (k : Nat) : BSt XR DHeap := bRun DHeap.band (Cfg.plain false noGoal) eikS k (bInit DHeap.band (Cfg.plain false noGoal) map (DHeap.new 9) [5])

def sfmmQ (k : Nat) : BSt XQ (List Nat) := bRun PQ.band (Cfg.plain true noGoal) eikS k (bInit PQ.band (Cfg.plain true noGoal) mapQ [] [5])
def fmmQ (k : Nat) : BSt XQ DHeap := bRun DHeap.band (Cfg.plain false noGoal) eikS k (bInit DHeap.band (Cfg.plain false noGoal) mapQ (DHeap.new 9) [5])

theorem sfmm_eq : sfmm 9 = (sfmmQ 9).toXR :=
  reflect pq_hom mapQ [] [5] 9 (by decide +kernel)

theorem sfmm_eq4 : sfmm 4 = (sfmmQ 4).toXR :=
  reflect pq_hom mapQ [] [5] 4 (by decide +kernel)

theorem fmm_eq : fmm 10 = (fmmQ 10).toXR :=
  reflect dheap_hom mapQ (DHeap.new 9) [5] 10 (by decide +kernel)

theorem sfmm_ends : BDone PQ.band (sfmm 9) := by
  rw [sfmm_eq]
  have : (sfmmQ 9).b = [] := by decide +kernel
  right
  show (sfmmQ 9).b.isEmpty = true
  rw [this]; rfl

theorem sfmm_value : (sfmm 9).g.value 1 = fin 68 := by
  rw [sfmm_eq]
  have : (sfmmQ 9).g.value 1 = .fin 68 := by decide +kernel
  show ((sfmmQ 9).g.value 1).toXR = _
  rw [this]; show XR.fin _ = XR.fin _; norm_num

theorem fmm_value : (fmm 10).g.value 1 = fin 67 := by
  rw [fmm_eq]
  have : (fmmQ 10).g.value 1 = .fin 67 := by decide +kernel
  show ((fmmQ 10).g.value 1).toXR = _
  rw [this]; show XR.fin _ = XR.fin _; norm_num

end SFMMWrong

open SFMMWrong in
/-- **C58** (refutation of C16 and C28 for SFMM as it is): there is a 3×3 map with one initial point on which SFMM ends with a time that is more than one unit above the exact
solution, while FMM is exact there up to the comparison margin. -/
theorem C58_SFMM_inaccurate :
    ∃ (g : Grid XR) (v : Nat → ℝ) (X : XInput [3, 3] g 12810 v [5]), Fresh g ∧ StartsApart [3, 3] g [5] ∧ g.occ 5 = false ∧
      ∀ k, 9 ≤ k → BDone PQ.band (bRun PQ.band (Cfg.plain true noGoal) eikS k (bInit PQ.band (Cfg.plain true noGoal) g [] [5])) ∧
        ∀ U, X.problem.IsSolution U →
          U 1 + ((1 : ℝ) : WithTop ℝ) ≤ toT ((bRun PQ.band (Cfg.plain true noGoal) eikS k (bInit PQ.band (Cfg.plain true noGoal) g [] [5])).g.value 1) := by
  refine ⟨map, speed, input, fresh, apart, ?_, fun k hk => ?_⟩
  · show XR.lt (XR.fin _) (XR.fin _) = false
    simp [speeds, XR.lt, eps]; norm_num
  obtain ⟨j, rfl⟩ := Nat.exists_eq_add_of_le hk
  have hends : BDone PQ.band (bRun PQ.band (Cfg.plain true noGoal) eikS 9 (bInit PQ.band (Cfg.plain true noGoal) map [] [5])) := sfmm_ends
  rw [bRun_add, bRun_done _ _ _ hends]
  refine ⟨sfmm_ends, fun U hU => ?_⟩
  have h1 := (C57_FMM_binary_heap_accurate input fresh apart (List.nodup_singleton 5) U hU (Cfg.plain false noGoal) rfl rfl (by decide) (DHeap.emptied_new _) 10 (by decide)).2 1 (by decide)
  have e : (bRun DHeap.band (Cfg.plain false noGoal) eikS 10 (bInit DHeap.band (Cfg.plain false noGoal) map (DHeap.new [3, 3].prod) [5])).g.value 1 = fin 67 := fmm_value
  have e2 : (bRun PQ.band (Cfg.plain true noGoal) eikS 9 (bInit PQ.band (Cfg.plain true noGoal) map [] [5])).g.value 1 = fin 68 := sfmm_value
  rw [e] at h1
  rw [e2]
  have h2 : U 1 ≤ ((67 : ℝ) : WithTop ℝ) := h1.1
  show U 1 + _ ≤ ((68 : ℝ) : WithTop ℝ)
  calc U 1 + ((1 : ℝ) : WithTop ℝ) ≤ ((67 : ℝ) : WithTop ℝ) + ((1 : ℝ) : WithTop ℝ) := by gcongr
    _ = ((68 : ℝ) : WithTop ℝ) := by rw [← WithTop.coe_add]; norm_num

open SFMMWrong in
/-- **C58** (refutation of C15 for SFMM as it is): in the same run the queue holds cell 4 with time 56 when it releases cell 1 with time 68. -/
theorem C58_SFMM_out_of_order :
    ∃ (g : Grid XR) (v : Nat → ℝ) (X : XInput [3, 3] g 12810 v [5]), Fresh g ∧ StartsApart [3, 3] g [5] ∧
      ∃ k, ∃ s : BSt XR (List Nat), s = bRun PQ.band (Cfg.plain true noGoal) eikS k (bInit PQ.band (Cfg.plain true noGoal) g [] [5]) ∧
        ¬ BDone PQ.band s ∧ (PQ.band.popMinIdx s.g s.b).1 = 1 ∧ s.g.value 1 = fin 68 ∧ 4 ∈ s.b ∧ s.g.value 4 = fin 56 := by
  refine ⟨map, speed, input, fresh, apart, 4, _, rfl, ?_⟩
  have e : bRun PQ.band (Cfg.plain true noGoal) eikS 4 (bInit PQ.band (Cfg.plain true noGoal) map [] [5]) = (sfmmQ 4).toXR := sfmm_eq4
  rw [e]
  have h1 : (sfmmQ 4).b = [1, 4, 6, 4] := by decide +kernel
  have h2 : (sfmmQ 4).g.value 1 = .fin 68 := by decide +kernel
  have h3 : (sfmmQ 4).g.value 4 = .fin 56 := by decide +kernel
  have h4 : (sfmmQ 4).stop = false := by decide +kernel
  refine ⟨?_, ?_, ?_, ?_, ?_⟩
  · rintro (h | h)
    · change (sfmmQ 4).stop = true at h; rw [h4] at h; cases h
    · change (sfmmQ 4).b.isEmpty = true at h; rw [h1] at h; cases h
  · show Heap.at' 0 (sfmmQ 4).b 0 = 1
    rw [h1]; rfl
  · show ((sfmmQ 4).g.value 1).toXR = _
    rw [h2]; show XR.fin _ = XR.fin _; norm_num
  · show 4 ∈ (sfmmQ 4).b
    rw [h1]; decide
  · show ((sfmmQ 4).g.value 4).toXR = _
    rw [h3]; show XR.fin _ = XR.fin _; norm_num

open SFMMWrong in
/-- **C28/C58** (refutation for SFMM as it is): on that map FMM and SFMM, both run to their end, differ by one unit of time in a cell. -/
theorem C28_SFMM_disagrees :
    ∃ (g : Grid XR) (v : Nat → ℝ) (X : XInput [3, 3] g 12810 v [5]), Fresh g ∧ StartsApart [3, 3] g [5] ∧
      (bRun DHeap.band (Cfg.plain false noGoal) eikS 10 (bInit DHeap.band (Cfg.plain false noGoal) g (DHeap.new 9) [5])).g.value 1 = fin 67 ∧
      BDone DHeap.band (bRun DHeap.band (Cfg.plain false noGoal) eikS 10 (bInit DHeap.band (Cfg.plain false noGoal) g (DHeap.new 9) [5])) ∧
      (bRun PQ.band (Cfg.plain true noGoal) eikS 9 (bInit PQ.band (Cfg.plain true noGoal) g [] [5])).g.value 1 = fin 68 ∧
      BDone PQ.band (bRun PQ.band (Cfg.plain true noGoal) eikS 9 (bInit PQ.band (Cfg.plain true noGoal) g [] [5])) := by
  obtain ⟨U, hU, _⟩ := C17_unique_solution input.problem input.wellPosed
  exact ⟨map, speed, input, fresh, apart, fmm_value,
    (C57_FMM_binary_heap_accurate input fresh apart (List.nodup_singleton 5) U hU (Cfg.plain false noGoal) rfl rfl (by decide) (DHeap.emptied_new _) 10
      (by decide)).1, sfmm_value, sfmm_ends⟩

/-- **C28/C57**: the grid left by FMM as it is, with its binary heap, is one of those `C28_solvers_agree_partial` is about. -/
theorem C28_FMM_real_heap {dims : List Nat} {g : Grid XR} {h : ℝ} {v : Nat → ℝ} {pts : List Nat} (X : XInput dims g h v pts) (hfr : Fresh g)
    (ha : StartsApart dims g pts) (hnd : pts.Nodup) (cfg : Cfg XR) (hd : cfg.dup = false) (hcfg : cfg.heur = .none) (hgoal : dims.prod ≤ cfg.goal)
    {b0 : DHeap} (E : DHeap.Emptied dims.prod b0) (k : Nat) (hk : dims.prod + pts.length ≤ k) :
    FinalGrid dims g pts (bRun DHeap.band cfg eikS k (bInit DHeap.band cfg g b0 pts)).g := by
  obtain ⟨U, hU, _⟩ := C17_unique_solution X.problem X.wellPosed
  have hdn := (C57_FMM_binary_heap_accurate X hfr ha hnd U hU cfg hd hcfg hgoal E k hk).1
  obtain ⟨m, s, hs, hg, hdone, _⟩ := C57_FMM_refines X hfr ha hnd cfg hd hcfg DHeap.band b0 (C57_binary_heap_right XR.weakOrder dims.prod E) k
  rw [hg]
  exact .fmm hcfg ha hs (C14_no_goal_ends_empty cfg dims g pts ⟨X.fits, X.shape, X.inside⟩ hgoal m s (hs.mono (fun _ _ => StepMin.any)) (hdone.1 hdn))

/-- The hypotheses of `C58_SFMM_sound_partial` are met by this map; its exact solution exists. -/
example : ∃ (g : Grid XR) (v : Nat → ℝ) (X : XInput [3, 3] g 12810 v [5]), Fresh g ∧ (∃ U, X.problem.IsSolution U) ∧
    [3, 3].prod ≤ (Cfg.plain true noGoal : Cfg XR).goal :=
  ⟨SFMMWrong.map, SFMMWrong.speed, SFMMWrong.input, SFMMWrong.fresh, (C17_unique_solution SFMMWrong.input.problem SFMMWrong.input.wellPosed).imp (fun _ h => h.1), by decide⟩

end FMV
