import Verif.Props.SFMM
/-!
# C58: what SFMM's queue does right

`std::priority_queue` is a correct heap: as long as the times of the stored cells do not change it releases them in order.  `FMPriorityQueue::increase` is the only thing that
breaks it, so SFMM is as accurate as FMM on every run in which no stored cell is improved.
-/
set_option linter.unusedSectionVars false
set_option linter.unusedVariables false
namespace FMV
open Spec Shape XR FMM

namespace Heap
variable {α : Type} {d : α} {low : α → α → Bool}

/-- the order holds except at the hole `i` -/
structure HoleInv (d : α) (low : α → α → Bool) (q : List α) (i : Nat) : Prop where
  rest : ∀ k, 0 < k → k < q.length → k ≠ i → (k - 1) / 2 ≠ i → low (at' d q ((k - 1) / 2)) (at' d q k) = false
  skip : 0 < i → ∀ k, 0 < k → k < q.length → (k - 1) / 2 = i → low (at' d q ((i - 1) / 2)) (at' d q k) = false

theorem HoleInv.down {P : α → Prop} (W : Weak low P) {q : List α} {i c : Nat} (hP : ∀ k, k < q.length → P (at' d q k)) (H : HoleInv d low q i) (hi : i < q.length) (hc : c < q.length)
    (hpar : (c - 1) / 2 = i) (hc0 : 0 < c)
    (hbest : ∀ k, 0 < k → k < q.length → (k - 1) / 2 = i → low (at' d q c) (at' d q k) = false) : HoleInv d low (q.set i (at' d q c)) c := by
  have hic : i < c := by omega
  constructor
  · intro k h0 hk hkc hpk
    rw [List.length_set] at hk
    rw [at'_set _ _ _ _ hi, at'_set _ _ _ _ hi]
    by_cases hki : k = i
    · subst hki
      rw [if_neg (by omega), if_pos rfl]
      exact H.skip h0 c hc0 hc hpar
    · rw [if_neg hki]
      by_cases h1 : (k - 1) / 2 = i
      · rw [if_pos h1]; exact hbest k h0 hk h1
      · rw [if_neg h1]; exact H.rest k h0 hk hki h1
  · intro _ k h0 hk hpk
    rw [List.length_set] at hk
    rw [at'_set _ _ _ _ hi, at'_set _ _ _ _ hi, hpar, if_pos rfl, if_neg (by omega)]
    have := H.rest k h0 hk (by omega) (by omega)
    rwa [hpk] at this

theorem holeDown_ordered {P : α → Prop} (W : Weak low P) (n : Nat) (f : Nat) : ∀ (i : Nat) (q : List α), q.length = n → i < n → n ≤ i + f →
    (∀ k, k < q.length → P (at' d q k)) → HoleInv d low q i →
    n ≤ 2 * (holeDown d low n f i q).1 + 1 ∧ HoleInv d low (holeDown d low n f i q).2 (holeDown d low n f i q).1 := by
  induction f with
  | zero => intro i q _ h1 h2; omega
  | succ f ih =>
    intro i q hl hi hf hP H
    unfold holeDown
    have hset : ∀ c, c < n → ∀ k, k < (q.set i (at' d q c)).length → P (at' d (q.set i (at' d q c)) k) := by
      intro c hc k hk
      rw [List.length_set] at hk
      rw [at'_set _ _ _ _ (by omega)]
      split
      · exact hP c (by omega)
      · exact hP k hk
    split
    · next h1 =>
      dsimp only
      have p1 := hP (2 * i + 1) (by omega)
      have p2 := hP (2 * i + 2) (by omega)
      split
      · next hlow =>
        refine ih _ _ (by simpa using hl) (by omega) (by omega) (hset _ (by omega)) (H.down W hP (by omega) (by omega) (by omega) (by omega) ?_)
        intro k h0 hk hpk
        have : k = 2 * i + 1 ∨ k = 2 * i + 2 := by omega
        rcases this with rfl | rfl
        · exact W.irrefl p1
        · exact W.asymm _ _ p2 p1 hlow
      · next hlow =>
        refine ih _ _ (by simpa using hl) (by omega) (by omega) (hset _ (by omega)) (H.down W hP (by omega) (by omega) (by omega) (by omega) ?_)
        intro k h0 hk hpk
        have : k = 2 * i + 1 ∨ k = 2 * i + 2 := by omega
        rcases this with rfl | rfl
        · simpa using hlow
        · exact W.irrefl p2
    · next h1 =>
      split
      · next h2 =>
        refine ⟨by dsimp only; omega, H.down W hP (by omega) (by omega) (by omega) (by omega) ?_⟩
        intro k h0 hk hpk
        have : k = 2 * i + 1 := by omega
        subst this
        exact W.irrefl (hP _ hk)
      · exact ⟨by dsimp only; omega, H⟩

/-- `std::pop_heap` keeps the heap order -/
theorem stdPop_ordered {P : α → Prop} (W : Weak low P) (q : List α) (hP : ∀ a ∈ q, P a) (H : Ordered d low q) : Ordered d low (stdPop d low q) := by
  unfold stdPop
  split
  · intro k _ hk; exact absurd hk (Nat.not_lt_zero _)
  · next h1 =>
    dsimp only
    have hn : (q.take (q.length - 1)).length = q.length - 1 := by simp
    have hat : ∀ k, k < q.length - 1 → at' d (q.take (q.length - 1)) k = at' d q k := by
      intro k hk
      unfold at'; simp only [List.getD_eq_getElem?_getD]; rw [List.getElem?_take_of_lt hk]
    have hPt : ∀ k, k < (q.take (q.length - 1)).length → P (at' d (q.take (q.length - 1)) k) := by
      intro k hk; rw [hn] at hk; rw [hat k hk]; exact hP _ (at'_mem _ _ (by omega))
    have H0 : HoleInv d low (q.take (q.length - 1)) 0 := by
      constructor
      · intro k h0 hk _ _
        rw [hn] at hk
        rw [hat _ (by omega), hat _ hk]
        exact H k h0 (by omega)
      · intro h; exact absurd h (Nat.lt_irrefl _)
    obtain ⟨a, b, e⟩ := holeDown_perm (d := d) (low := low) (q.length - 1) (q.length - 1) 0 (q.take (q.length - 1)) hn (by omega)
    obtain ⟨hleaf, HI⟩ := holeDown_ordered W (q.length - 1) (q.length - 1) 0 (q.take (q.length - 1)) hn (by omega) (by omega) hPt H0
    revert a b e hleaf HI
    generalize holeDown d low (q.length - 1) (q.length - 1) 0 (q.take (q.length - 1)) = r
    intro a b e hleaf HI
    refine siftUp_ordered W _ _ _ (by rw [List.length_set, b]; exact a) (Nat.le_refl _) ?_ ⟨?_, ?_⟩
    · intro x hx
      have := (e (at' d q (q.length - 1))).mem_iff.1 hx
      rcases List.mem_or_eq_of_mem_set this with h2 | h2
      · exact hP x (List.mem_of_mem_take h2)
      · rw [h2]; exact hP _ (at'_mem _ _ (by omega))
    · intro k h0 hk hkj
      rw [List.length_set, b] at hk
      rw [at'_set _ _ _ _ (by omega), at'_set _ _ _ _ (by omega), if_neg hkj, if_neg (by omega)]
      exact HI.rest k h0 (by omega) hkj (by omega)
    · intro _ k h0 hk hpk
      rw [List.length_set, b] at hk
      omega

end Heap

/-- `Stored W g q l`: after some history of calls of `push` and `popMinIdx` on an empty `FMPriorityQueue`, in which the keys of the stored cells did not change, the queue
is `q`, the map is `g`, and the cells pushed and not yet popped are `l` (a cell may be stored several times). -/
inductive Spec.Stored {F : Type} [Arith F] (W : F → Prop) : Grid F → List Nat → List Nat → Prop
  | new (g) : Spec.Stored W g [] []
  | change {g q l} (g') : Spec.Stored W g q l → (∀ c ∈ l, key g' c = key g c) → Spec.Stored W g' q l
  | push {g q l} (c) : Spec.Stored W g q l → (∀ y ∈ c :: l, W (key g y)) → Spec.Stored W g (PQ.band.push g q c) (c :: l)
  | pop {g q l} : Spec.Stored W g q l → l ≠ [] → (∀ y ∈ l, W (key g y)) → Spec.Stored W g (PQ.band.popMinIdx g q).2 (l.erase (PQ.band.popMinIdx g q).1)

section queue
variable {F : Type} [Arith F]
namespace PQ

theorem weak {W : F → Prop} (L : WeakOrder W) (g : Grid F) : Heap.Weak (Heap.cmp g) (fun c => W (key g c)) where
  asymm a b ha hb h := L.asymm _ _ hb ha h
  trans a b c ha hb hc h1 h2 := L.trans _ _ _ ha hb hc h1 h2

theorem ordered_congr {g g' : Grid F} {q : List Nat} (H : Heap.Ordered 0 (Heap.cmp g) q) (hk : ∀ c ∈ q, key g' c = key g c) :
    Heap.Ordered 0 (Heap.cmp g') q := by
  intro k h0 hk'
  have h1 := hk _ (Heap.at'_mem (d := 0) q k hk')
  have h2 := hk _ (Heap.at'_mem (d := 0) q ((k - 1) / 2) (by omega))
  have := H k h0 hk'
  unfold Heap.cmp at *
  show Arith.lt (key g' _) (key g' _) = false
  rw [h1, h2]; exact this

/-- the smallest stored element is in front -/
theorem front {W : F → Prop} (L : WeakOrder W) {g : Grid F} {q : List Nat} (H : Heap.Ordered 0 (Heap.cmp g) q) (hW : ∀ c ∈ q, W (key g c)) (hne : q ≠ []) :
    IsMin g q (Heap.at' 0 q 0) := by
  refine ⟨Heap.at'_mem _ _ (List.length_pos_iff.2 hne), fun y hy => ?_⟩
  obtain ⟨k, hk, e⟩ := Heap.mem_at' (d := 0) hy
  have := H.top (weak L g) hW k hk
  rw [e] at this
  exact this

theorem pop_perm {g : Grid F} {q l : List Nat} (hp : q.Perm l) (hne : l ≠ []) :
    (Heap.stdPop 0 (Heap.cmp g) q).Perm (l.erase (Heap.at' 0 q 0)) := by
  have hq : q ≠ [] := fun h => hne (by rw [h] at hp; exact hp.nil_eq.symm)
  have := ((Heap.stdPop_perm (d := 0) (low := Heap.cmp g) q hq).symm.trans hp).erase (Heap.at' 0 q 0)
  rwa [List.erase_cons_head] at this

theorem stored {W : F → Prop} (L : WeakOrder W) {g : Grid F} {q l : List Nat} (u : Spec.Stored W g q l) :
    Heap.Ordered 0 (Heap.cmp g) q ∧ q.Perm l := by
  induction u with
  | new g => exact ⟨fun k _ hk => absurd hk (Nat.not_lt_zero _), List.Perm.refl _⟩
  | change g' _ hk ih => exact ⟨ordered_congr ih.1 (fun c hc => hk c (ih.2.mem_iff.1 hc)), ih.2⟩
  | push c _ hW ih =>
    exact ⟨Heap.pushQ_ordered (weak L _) _ _ (fun e he => hW e (List.mem_cons_of_mem _ (ih.2.mem_iff.1 he))) (hW c (by simp)) ih.1,
      (Heap.pushQ_perm _ _).trans (ih.2.cons c)⟩
  | pop _ hne hW ih =>
    exact ⟨Heap.stdPop_ordered (weak L _) _ (fun e he => hW e (ih.2.mem_iff.1 he)) ih.1, pop_perm ih.2 hne⟩

end PQ

/-- **C58**: while the keys of the stored cells do not change, `FMPriorityQueue` pops a cell with the smallest key it stores, and is empty exactly when nothing is stored. -/
theorem C58_queue_in_order {W : F → Prop} (L : WeakOrder W) (g : Grid F) (q l : List Nat) (u : Stored W g q l) :
    (PQ.band.empty (F := F) q = true ↔ l = []) ∧ (l ≠ [] → (∀ y ∈ l, W (key g y)) → IsMin g l (PQ.band.popMinIdx g q).1) := by
  obtain ⟨o, hp⟩ := PQ.stored L u
  have hnil : q = [] ↔ l = [] := by
    constructor
    · intro h0; rw [h0] at hp; exact hp.nil_eq.symm
    · intro h0; rw [h0] at hp; simpa using hp
  refine ⟨?_, fun hne hW => ?_⟩
  · show q.isEmpty = true ↔ _
    rw [List.isEmpty_iff, hnil]
  · have := PQ.front L o (fun c hc => hW c (hp.mem_iff.1 hc)) (fun h => hne (hnil.1 h))
    exact ⟨hp.mem_iff.1 this.1, fun y hy => this.2 y (hp.mem_iff.2 hy)⟩

/-! ## runs without improvements -/

namespace PQ

/-- the queue with an `increase` that builds the heap again (not part of the library; used to compare) -/
def fixed : Band F (List Nat) where
  push g q c := Heap.pushQ 0 (Heap.cmp g) q c
  increase g q _ := q.foldl (fun r x => Heap.pushQ 0 (Heap.cmp g) r x) []
  popMinIdx g q := (Heap.at' 0 q 0, Heap.stdPop 0 (Heap.cmp g) q)
  empty q := q.isEmpty

theorem rebuild {W : F → Prop} (L : WeakOrder W) (g : Grid F) (q : List Nat) : ∀ r : List Nat, (∀ c ∈ r ++ q, W (key g c)) → Heap.Ordered 0 (Heap.cmp g) r →
    Heap.Ordered 0 (Heap.cmp g) (q.foldl (fun r x => Heap.pushQ 0 (Heap.cmp g) r x) r) ∧ (q.foldl (fun r x => Heap.pushQ 0 (Heap.cmp g) r x) r).Perm (q ++ r) := by
  induction q with
  | nil => intro r _ H; exact ⟨H, List.Perm.refl _⟩
  | cons x q ih =>
    intro r hW H
    have hp := Heap.pushQ_perm (d := 0) (low := Heap.cmp g) r x
    have := ih (Heap.pushQ 0 (Heap.cmp g) r x) ?_ (Heap.pushQ_ordered (weak L g) _ _ (fun e he => hW e (by simp [he])) (hW x (by simp)) H)
    · refine ⟨this.1, this.2.trans ?_⟩
      refine (hp.append_left q).trans ?_
      exact List.perm_middle
    · intro c hc
      apply hW
      rcases List.mem_append.1 hc with h | h
      · rcases List.mem_cons.1 (hp.mem_iff.1 h) with rfl | h <;> simp [*]
      · simp [h]

theorem fixed_used {W : F → Prop} (L : WeakOrder W) {n : Nat} {g : Grid F} {q l : List Nat} (u : Used (fixed (F := F)) [] W n g q l) :
    Heap.Ordered 0 (Heap.cmp g) q ∧ q.Perm l := by
  induction u with
  | new g => exact ⟨fun k _ hk => absurd hk (Nat.not_lt_zero _), List.Perm.refl _⟩
  | change g' _ hk ih => exact ⟨ordered_congr ih.1 (fun c hc => hk c (ih.2.mem_iff.1 hc)), ih.2⟩
  | push c _ hc hn hW ih =>
    exact ⟨Heap.pushQ_ordered (weak L _) _ _ (fun e he => hW e (List.mem_cons_of_mem _ (ih.2.mem_iff.1 he))) (hW c (by simp)) ih.1,
      (Heap.pushQ_perm _ _).trans (ih.2.cons c)⟩
  | @lower g b l g' c _ hc hs hl hW ih =>
    have := rebuild L g' b [] (fun e he => (hW e (ih.2.mem_iff.1 (by simpa using he))).2) (fun k _ hk => absurd hk (Nat.not_lt_zero _))
    refine ⟨this.1, this.2.trans ?_⟩
    rw [List.append_nil]; exact ih.2
  | pop _ hne hW ih =>
    exact ⟨Heap.stdPop_ordered (weak L _) _ (fun e he => hW e (ih.2.mem_iff.1 he)) ih.1, pop_perm ih.2 hne⟩

theorem fixed_right {W : F → Prop} (L : WeakOrder W) (n : Nat) : RightBand (fixed (F := F)) [] W n := by
  intro g q l u
  obtain ⟨o, hp⟩ := fixed_used L u
  have hnil : q = [] ↔ l = [] := by
    constructor
    · intro h0; rw [h0] at hp; exact hp.nil_eq.symm
    · intro h0; rw [h0] at hp; simpa using hp
  refine ⟨?_, fun hne hW => ?_⟩
  · show q.isEmpty = true ↔ _
    rw [List.isEmpty_iff, hnil]
  · have := front L o (fun c hc => hW c (hp.mem_iff.1 hc)) (fun h => hne (hnil.1 h))
    exact ⟨hp.mem_iff.1 this.1, fun y hy => this.2 y (hp.mem_iff.2 hy)⟩

/-- NARROW cells are stored -/
def Nar (c : BSt F (List Nat)) : Prop := ∀ y, c.g.state y = .narrow → y ∈ c.b

theorem relax_mono (cfg : Cfg F) (eik : Eik F) (c : BSt F (List Nat)) (j : Nat) :
    (bRelax band cfg eik c j).b = c.b ∨ (bRelax band cfg eik c j).b.Perm (j :: c.b) := by
  unfold bRelax
  split
  · exact .inl rfl
  · dsimp only
    split
    · split
      · exact .inr (Heap.pushQ_perm _ _)
      · exact .inl rfl
    · exact .inr (Heap.pushQ_perm _ _)

theorem Nar.relax {cfg : Cfg F} {eik : Eik F} {c : BSt F (List Nat)} (h : Nar c) (j : Nat) : Nar (bRelax band cfg eik c j) := by
  have hm := relax_mono cfg eik c j
  intro y hy
  have hsub : ∀ z ∈ c.b, z ∈ (bRelax band cfg eik c j).b := by
    intro z hz
    rcases hm with e | e
    · rw [e]; exact hz
    · exact e.mem_iff.2 (by simp [hz])
  by_cases hyj : y = j
  · subst hyj
    unfold bRelax at hy ⊢
    split
    · next h1 => rw [if_pos h1] at hy; exact h y hy
    · next h1 =>
      rw [if_neg h1] at hy
      dsimp only at hy ⊢
      split
      · next h2 =>
        have := h y h2
        split
        · exact (Heap.pushQ_perm _ _).mem_iff.2 (by simp)
        · exact this
      · exact (Heap.pushQ_perm _ _).mem_iff.2 (by simp)
  · apply hsub
    apply h
    unfold bRelax at hy
    split at hy
    · exact hy
    · dsimp only at hy
      split at hy
      · split at hy
        · simpa [applyHeur_state, Grid.state_setValue, Grid.state_setState, hyj] using hy
        · simpa [applyHeur_state, Grid.state_setValue, Grid.state_setState, hyj] using hy
      · simpa [applyHeur_state, Grid.state_setValue, Grid.state_setState, hyj] using hy

theorem fold_nodup (cfg : Cfg F) (eik : Eik F) (l : List Nat) : ∀ c : BSt F (List Nat), (l.foldl (bRelax band cfg eik) c).b.Nodup → c.b.Nodup := by
  induction l with
  | nil => intro c h; exact h
  | cons j l ih =>
    intro c h
    have := ih _ h
    rcases relax_mono cfg eik c j with e | e
    · rwa [e] at this
    · exact (List.nodup_cons.1 (e.nodup_iff.1 this)).2

theorem relax_same {cfg : Cfg F} {eik : Eik F} {c : BSt F (List Nat)} (hN : Nar c) (j : Nat) (hnd : (bRelax band cfg eik c j).b.Nodup) :
    bRelax fixed cfg eik c j = bRelax band cfg eik c j := by
  unfold bRelax at hnd ⊢
  split
  · rfl
  · next h1 =>
    rw [if_neg h1] at hnd
    dsimp only at hnd ⊢
    split
    · next h2 =>
      rw [if_pos h2] at hnd
      split
      · next h3 =>
        rw [if_pos h3] at hnd
        exact absurd (hN j h2) (List.nodup_cons.1 ((Heap.pushQ_perm _ _).nodup_iff.1 hnd)).1
      · rfl
    · rfl

theorem fold_same {cfg : Cfg F} {eik : Eik F} (l : List Nat) : ∀ c : BSt F (List Nat), Nar c → (l.foldl (bRelax band cfg eik) c).b.Nodup →
    l.foldl (bRelax fixed cfg eik) c = l.foldl (bRelax band cfg eik) c ∧ Nar (l.foldl (bRelax band cfg eik) c) := by
  induction l with
  | nil => intro c h _; exact ⟨rfl, h⟩
  | cons j l ih =>
    intro c h hnd
    rw [List.foldl_cons] at hnd
    rw [List.foldl_cons, List.foldl_cons, relax_same h j (fold_nodup cfg eik l _ hnd)]
    exact ih _ (h.relax j) hnd

theorem step_same {cfg : Cfg F} {eik : Eik F} {c : BSt F (List Nat)} (hN : Nar c) (hne : c.b ≠ []) (hnd : (bStep band cfg eik c).b.Nodup) :
    bStep fixed cfg eik c = bStep band cfg eik c ∧ Nar (bStep band cfg eik c) := by
  have hp := Heap.stdPop_perm (d := 0) (low := Heap.cmp c.g) c.b hne
  have h1 : Nar (⟨c.g.setState (Heap.at' 0 c.b 0) .frozen, Heap.stdPop 0 (Heap.cmp c.g) c.b, c.stop⟩ : BSt F (List Nat)) := by
    intro y hy
    simp only [Grid.state_setState] at hy
    split at hy
    · cases hy
    · next hne' =>
      rcases List.mem_cons.1 (hp.mem_iff.1 (hN y hy)) with h | h
      · exact absurd h hne'
      · exact h
  have := fold_same (cfg := cfg) (eik := eik) (c.g.shape.nbrs (Heap.at' 0 c.b 0)) _ h1 hnd
  refine ⟨?_, this.2⟩
  exact congrArg (fun s2 : BSt F (List Nat) => ({ s2 with stop := if Heap.at' 0 c.b 0 = cfg.goal then true else s2.stop } : BSt F (List Nat))) this.1

theorem run_same {cfg : Cfg F} {eik : Eik F} {c : BSt F (List Nat)} (hN : Nar c) (k : Nat) (hnd : ∀ m, m ≤ k → (bRun band cfg eik m c).b.Nodup) :
    bRun fixed cfg eik k c = bRun band cfg eik k c := by
  induction k generalizing c with
  | zero => rfl
  | succ k ih =>
    by_cases hd : BDone band c
    · have hd' : BDone fixed c := hd
      unfold bRun; rw [if_pos hd, if_pos hd']
    · have hd' : ¬ BDone fixed c := hd
      have hne : c.b ≠ [] := fun h => hd (.inr (by show c.b.isEmpty = true; rw [h]; rfl))
      have e1 : ∀ m, bRun band cfg eik (m + 1) c = bRun band cfg eik m (bStep band cfg eik c) := by intro m; rw [bRun, if_neg hd]
      have h1 := hnd 1 (by omega)
      rw [e1] at h1
      obtain ⟨s1, s2⟩ := step_same hN hne h1
      rw [e1, bRun, if_neg hd', s1]
      exact ih s2 (fun m hm => by rw [← e1]; exact hnd (m + 1) (by omega))

theorem init_same (cfg : Cfg F) (g : Grid F) (b : List Nat) (pts : List Nat) : bInit fixed cfg g b pts = bInit band cfg g b pts := rfl

end PQ

theorem FMM.bRun_dup {B : Type} (N : Band F B) (cfg : Cfg F) (eik : Eik F) (d : Bool) (k : Nat) (c : BSt F B) :
    bRun N { cfg with dup := d } eik k c = bRun N cfg eik k c := by
  induction k generalizing c with
  | zero => rfl
  | succ k ih =>
    unfold bRun
    rw [ih]
    rfl

end queue

/-- the keys in the queue of SFMM are numbers -/
theorem PQ.run_number {dims : List Nat} {g : Grid XR} {h : ℝ} {v : Nat → ℝ} {pts : List Nat} (X : XInput dims g h v pts) (hfr : Fresh g) (cfg : Cfg XR) (hcfg : cfg.heur = .none)
    (k : Nat) : ∀ y ∈ (bRun PQ.band { cfg with dup := true } eikS k (bInit PQ.band { cfg with dup := true } g [] pts)).b,
      Number (key (bRun PQ.band { cfg with dup := true } eikS k (bInit PQ.band { cfg with dup := true } g [] pts)).g y) := by
  have main : ∀ (k : Nat) (c : BSt XR (List Nat)) (s : St XR), PRel c s → KInv dims g pts { cfg with dup := true } s →
      ∃ s', PRel (bRun PQ.band { cfg with dup := true } eikS k c) s' ∧ KInv dims g pts { cfg with dup := true } s' := by
    intro k
    induction k with
    | zero => intro c s R K; exact ⟨s, R, K⟩
    | succ k ih =>
      intro c s R K
      unfold bRun
      by_cases hd : Done s
      · rw [if_pos (R.done.2 hd)]; exact ⟨s, R, K⟩
      · rw [if_neg (fun h' => hd (R.done.1 h'))]
        obtain ⟨x, hx, R'⟩ := R.step (cfg := { cfg with dup := true }) rfl eikS hd
        refine ih _ _ R' ?_
        have hsh : s.g.shape = Shape.mk' dims := K.map.shape.trans X.shape
        exact expand_inv (I := fun s : St XR => KInv dims g pts { cfg with dup := true } s) _ eikS s x
          (fun t b h => ⟨h.map, h.good, ⟨h.hinv.same, h.hinv.lab, h.hinv.unl, h.hinv.hp⟩, h.hp, h.nar⟩) (K.popped hx)
          (fun t j hj K' => K'.relax X (FMM.nbr_lt X.fits (K.hp x hx).1 (by rw [← hsh]; exact hj)))
  obtain ⟨s, R, K⟩ := main k _ _ (PRel.init { cfg with dup := true } g pts) (KInv.start X hfr _)
  intro y hy
  rw [R.1]
  exact K.number (finHeur_none (cfg := { cfg with dup := true }) hcfg) y (R.2.2.mem_iff.1 hy)

/-- **C58** (exact arithmetic, no goal): on every map on which SFMM never improves the time of a stored cell, so that no cell is ever twice in its queue, SFMM pops the cells in
order, ends after as many iterations as FMM would, and is as accurate as FMM. (`C58_SFMM_inaccurate` shows that the condition cannot be dropped.) -/
theorem C58_SFMM_accurate_partial {dims : List Nat} {g : Grid XR} {h : ℝ} {v : Nat → ℝ} {pts : List Nat} (X : XInput dims g h v pts) (hfr : Fresh g)
    (ha : StartsApart dims g pts) (hnd : pts.Nodup) (U : Nat → WithTop ℝ) (hU : X.problem.IsSolution U) (cfg : Cfg XR) (hcfg : cfg.heur = .none)
    (hgoal : dims.prod ≤ cfg.goal) (honce : ∀ m, (bRun PQ.band cfg eikS m (bInit PQ.band cfg g [] pts)).b.Nodup) (k : Nat) :
    (¬ BDone PQ.band (bRun PQ.band cfg eikS k (bInit PQ.band cfg g [] pts)) →
      IsMin (bRun PQ.band cfg eikS k (bInit PQ.band cfg g [] pts)).g (bRun PQ.band cfg eikS k (bInit PQ.band cfg g [] pts)).b
        (PQ.band.popMinIdx (bRun PQ.band cfg eikS k (bInit PQ.band cfg g [] pts)).g (bRun PQ.band cfg eikS k (bInit PQ.band cfg g [] pts)).b).1) ∧
    (dims.prod + pts.length ≤ k → BDone PQ.band (bRun PQ.band cfg eikS k (bInit PQ.band cfg g [] pts)) ∧ ∀ i, i < dims.prod →
      U i ≤ toT ((bRun PQ.band cfg eikS k (bInit PQ.band cfg g [] pts)).g.value i) ∧
      toT ((bRun PQ.band cfg eikS k (bInit PQ.band cfg g [] pts)).g.value i) ≤ U i + ((dims.prod * (2 * eps) : ℝ) : WithTop ℝ)) := by
  have hNar : PQ.Nar (bInit PQ.band cfg g [] pts) := by
    intro y hy
    have R := PRel.init cfg g pts
    rw [R.1, init_state, hfr.state] at hy
    cases hy
  have e : ∀ k, bRun PQ.fixed { cfg with dup := false } eikS k (bInit PQ.fixed { cfg with dup := false } g [] pts) =
      bRun PQ.band cfg eikS k (bInit PQ.band cfg g [] pts) := by
    intro k
    rw [bRun_dup]
    exact PQ.run_same hNar k (fun m _ => honce m)
  have hR := PQ.fixed_right XR.weakOrder dims.prod
  refine ⟨fun hd => ?_, fun hk => ?_⟩
  · obtain ⟨m, s, hs, hg, hdone, hor, l, u⟩ := FMM_used X hfr ha hnd { cfg with dup := false } rfl hcfg PQ.fixed [] hR k
    rw [e] at u
    have hnum := PQ.run_number X hfr cfg hcfg k
    rw [bRun_dup] at hnum
    refine PQ.front XR.weakOrder (PQ.fixed_used XR.weakOrder u).1 hnum ?_
    intro h0
    exact hd (.inr (by show List.isEmpty _ = true; rw [h0]; rfl))
  · have := C57_FMM_accurate X hfr ha hnd U hU { cfg with dup := false } rfl hcfg hgoal PQ.fixed [] hR k hk
    rw [e] at this
    exact this

/-! non-vacuity: a 3×3 map with the obstacles 4 and 8, from corner 0 -/
namespace SFMMOnce

def mapQ : Grid XQ :=
  { shape := Shape.mk' [3, 3], leaf := .fin 1, clean := true,
    cells := fun i => { (Cell.default : Cell XQ) with occupancy := .fin (if i = 4 ∨ i = 8 then 0 else 1), index := i }, occupied := [4, 8], scratch := (0, 0) }

noncomputable def map : Grid XR := mapQ.toXR

theorem input : XInput [3, 3] map 1 (fun i => ((if i = 4 ∨ i = 8 then 0 else 1 : Rat) : ℝ)) [0] :=
  ⟨⟨by decide, by decide, by decide⟩, by decide, rfl, by decide, by norm_num, by show XR.fin _ = XR.fin _; norm_num, fun i _ _ => rfl⟩

theorem fresh : Fresh map := ⟨fun _ => rfl, fun _ => rfl, fun _ => by show XR.fin _ = XR.fin _; norm_num⟩

def runQ (k : Nat) : BSt XQ (List Nat) := bRun PQ.band (Cfg.plain true noGoal) eikS k (bInit PQ.band (Cfg.plain true noGoal) mapQ [] [0])

theorem once (m : Nat) : (bRun PQ.band (Cfg.plain true noGoal) eikS m (bInit PQ.band (Cfg.plain true noGoal) map [] [0])).b.Nodup := by
  have key : ∀ m, m ≤ 7 → (bRun PQ.band (Cfg.plain true noGoal) eikS m (bInit PQ.band (Cfg.plain true noGoal) map [] [0])).b = (runQ m).b := by
    intro m hm
    have : bRun PQ.band (Cfg.plain true noGoal) eikS m (bInit PQ.band (Cfg.plain true noGoal) mapQ.toXR [] [0]) = (runQ m).toXR := by
      refine reflect pq_hom mapQ [] [0] m ?_
      interval_cases m <;> decide +kernel
    show (bRun PQ.band (Cfg.plain true noGoal) eikS m (bInit PQ.band (Cfg.plain true noGoal) mapQ.toXR [] [0])).b = _
    rw [this]; rfl
  rcases Nat.le_total m 7 with h | h
  · rw [key m h]
    interval_cases m <;> decide +kernel
  · obtain ⟨j, rfl⟩ := Nat.exists_eq_add_of_le h
    have hd : BDone PQ.band (bRun PQ.band (Cfg.plain true noGoal) eikS 7 (bInit PQ.band (Cfg.plain true noGoal) map [] [0])) := by
      right
      show List.isEmpty _ = true
      rw [key 7 (Nat.le_refl _)]
      decide +kernel
    rw [bRun_add, bRun_done _ _ _ hd, key 7 (Nat.le_refl _)]
    decide +kernel

example : ∃ (g : Grid XR) (v : Nat → ℝ) (X : XInput [3, 3] g 1 v [0]), Fresh g ∧ (∃ U, X.problem.IsSolution U) ∧
    ∀ m, (bRun PQ.band (Cfg.plain true noGoal) eikS m (bInit PQ.band (Cfg.plain true noGoal) g [] [0])).b.Nodup :=
  ⟨map, _, input, fresh, (C17_unique_solution input.problem input.wellPosed).imp (fun _ h => h.1), once⟩

end SFMMOnce

end FMV
