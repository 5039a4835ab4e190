import Verif.Lemmas.Heap
import Verif.Spec.Band
import Verif.Model.XR
/-!
# C57: the binary heap of FMM
-/
namespace FMV
open Arith Spec
variable {F : Type} [Arith F]

namespace DHeap

/-- the invariant of `FMDaryHeap` when its client reports every key change -/
structure Ok (n : Nat) (g : Grid F) (h : DHeap) : Prop where
  ord : Heap.Ordered dflt (low g) h.q
  cells : (h.q.map Entry.cell).Nodup
  nodes : (h.q.map Entry.node).Nodup
  hand : ∀ e ∈ h.q, h.handles e.cell = e.node ∧ e.node < h.fresh ∧ e.cell < n
  hsize : h.hsize = n
  bad : h.bad = false

theorem weak {W : F → Prop} (L : WeakOrder W) (g : Grid F) : Heap.Weak (low g) (fun e => W (key g e.cell)) where
  asymm a b ha hb h := L.asymm _ _ hb ha h
  trans a b c ha hb hc h1 h2 := L.trans _ _ _ ha hb hc h1 h2

theorem Ok.ordW {W : F → Prop} {n : Nat} {g : Grid F} {h : DHeap} (o : Ok n g h) (hW : ∀ c ∈ h.q.map Entry.cell, W (key g c)) :
    ∀ e ∈ h.q, W (key g e.cell) := fun e he => hW _ (List.mem_map_of_mem he)

theorem ordered_congr {g g' : Grid F} {q : List Entry} (H : Heap.Ordered dflt (low g) q)
    (hk : ∀ e ∈ q, key g' e.cell = key g e.cell) : Heap.Ordered dflt (low g') q := by
  intro k h0 hk'
  have h1 := hk _ (Heap.at'_mem (d := dflt) q k hk')
  have h2 := hk _ (Heap.at'_mem (d := dflt) q ((k - 1) / 2) (by omega))
  have := H k h0 hk'
  unfold low Heap.cmp at *
  show lt (key g' _) (key g' _) = false
  rw [h1, h2]; exact this

/-- an empty heap with room for the handles of `n` cells: a new one, or one that has been used, cleared and given that size (what `reset` and `setup` do) -/
structure Emptied (n : Nat) (h : DHeap) : Prop where
  q : h.q = []
  hsize : h.hsize = n
  bad : h.bad = false

theorem emptied_new (n : Nat) : Emptied n (new n) := ⟨rfl, rfl, rfl⟩

/-- `reset` clears the heap (fm/fmm.hpp:179-183) and the next `setup` gives `handles_` the size of the grid (fm/fmm.hpp:81) -/
theorem emptied_reset {h : DHeap} (hb : h.bad = false) (n : Nat) : Emptied n (h.clear.setMaxSize n) := ⟨rfl, rfl, hb⟩

theorem ok_new {n : Nat} {h : DHeap} (E : Emptied n h) (g : Grid F) : Ok n g h := by
  refine ⟨?_, ?_, ?_, ?_, E.hsize, E.bad⟩ <;> rw [E.q]
  · exact fun k _ hk => absurd hk (Nat.not_lt_zero k)
  · exact List.nodup_nil
  · exact List.nodup_nil
  · exact fun _ h => by cases h

theorem Ok.frame {n : Nat} {g g' : Grid F} {h : DHeap} (o : Ok n g h) (hk : ∀ c ∈ h.q.map Entry.cell, key g' c = key g c) : Ok n g' h :=
  ⟨ordered_congr o.ord (fun e he => hk _ (List.mem_map_of_mem he)), o.cells, o.nodes, o.hand, o.hsize, o.bad⟩

theorem push_perm (g : Grid F) (h : DHeap) (c : Nat) : (push g h c).q.Perm (⟨c, h.fresh⟩ :: h.q) := Heap.pushQ_perm _ _

theorem Ok.push {W : F → Prop} (L : WeakOrder W) {n : Nat} {g : Grid F} {h : DHeap} (o : Ok n g h) {c : Nat} (hc : c ∉ h.q.map Entry.cell)
    (hn : c < n) (hW : ∀ y ∈ c :: h.q.map Entry.cell, W (key g y)) : Ok n g (push g h c) := by
  have hp := push_perm g h c
  refine ⟨?_, ?_, ?_, ?_, o.hsize, ?_⟩
  · exact Heap.pushQ_ordered (weak L g) _ _ (fun e he => hW _ (List.mem_cons_of_mem _ (List.mem_map_of_mem he))) (hW _ (by simp)) o.ord
  · rw [(hp.map Entry.cell).nodup_iff]
    exact List.nodup_cons.2 ⟨hc, o.cells⟩
  · rw [(hp.map Entry.node).nodup_iff]
    refine List.nodup_cons.2 ⟨?_, o.nodes⟩
    intro hm
    obtain ⟨e, he, e1⟩ := List.mem_map.1 hm
    have := (o.hand e he).2.1
    rw [e1] at this
    exact absurd this (Nat.lt_irrefl _)
  · intro e he
    show (if e.cell = c then h.fresh else h.handles e.cell) = e.node ∧ e.node < h.fresh + 1 ∧ e.cell < n
    rcases List.mem_cons.1 (hp.mem_iff.1 he) with rfl | he
    · rw [if_pos rfl]; exact ⟨rfl, Nat.lt_succ_self _, hn⟩
    · have hne : e.cell ≠ c := fun h1 => hc (h1 ▸ List.mem_map_of_mem he)
      rw [if_neg hne]
      have := o.hand e he
      exact ⟨this.1, by omega, this.2.2⟩
  · show (h.bad || !decide (c < h.hsize)) = false
    rw [o.bad, o.hsize, decide_eq_true hn]; rfl

/-- the position the handle of a stored cell refers to -/
theorem Ok.find {n : Nat} {g : Grid F} {h : DHeap} (o : Ok n g h) {c : Nat} (hc : c ∈ h.q.map Entry.cell) :
    ∃ i, h.q.findIdx? (fun e => e.node == h.handles c) = some i ∧ i < h.q.length ∧ Heap.at' dflt h.q i = ⟨c, h.handles c⟩ := by
  obtain ⟨e, he, rfl⟩ := List.mem_map.1 hc
  have hn := (o.hand e he).1
  cases hf : h.q.findIdx? (fun e' => e'.node == h.handles e.cell) with
  | none =>
    rw [List.findIdx?_eq_none_iff] at hf
    have := hf e he
    rw [hn] at this; simp at this
  | some i =>
    rw [List.findIdx?_eq_some_iff_getElem] at hf
    obtain ⟨hi, h1, _⟩ := hf
    refine ⟨i, rfl, hi, ?_⟩
    have h1 : h.q[i].node = h.handles e.cell := by simpa using h1
    have : h.q[i] = e := by
      have : h.q[i].node = e.node := by rw [h1, hn]
      exact (List.inj_on_of_nodup_map o.nodes) (List.getElem_mem hi) he this
    unfold Heap.at'
    rw [List.getD_eq_getElem _ _ hi, this, hn]

theorem Ok.increase {W : F → Prop} (L : WeakOrder W) {n : Nat} {g g' : Grid F} {h : DHeap} (o : Ok n g h) {c : Nat}
    (hc : c ∈ h.q.map Entry.cell) (hsame : ∀ y ∈ h.q.map Entry.cell, y ≠ c → key g' y = key g y)
    (hlow : lt (key g c) (key g' c) = false) (hW : ∀ y ∈ h.q.map Entry.cell, W (key g y) ∧ W (key g' y)) :
    Ok n g' (increase g' h c) ∧ (DHeap.increase g' h c).q.Perm h.q := by
  obtain ⟨i, hf, hi, hat⟩ := o.find hc
  have hmem : (⟨c, h.handles c⟩ : Entry) ∈ h.q := hat ▸ Heap.at'_mem _ _ hi
  have hset : h.q.set i ⟨c, h.handles c⟩ = h.q := by
    rw [← hat]; unfold Heap.at'; rw [List.getD_eq_getElem _ _ hi]; exact List.set_getElem_self hi
  have hq : (DHeap.increase g' h c).q = Heap.siftUp dflt (low g') i i h.q := by
    unfold DHeap.increase; rw [hf]; dsimp only; rw [hset]
  have hhand : (DHeap.increase g' h c).handles = h.handles := by unfold DHeap.increase; rw [hf]
  have hfresh : (DHeap.increase g' h c).fresh = h.fresh := by unfold DHeap.increase; rw [hf]
  have hp : (DHeap.increase g' h c).q.Perm h.q := by rw [hq]; exact Heap.siftUp_perm _ _ _ hi
  have hcn : c < n := (o.hand _ hmem).2.2
  refine ⟨⟨?_, ?_, ?_, ?_, ?_, ?_⟩, hp⟩
  · rw [hq]
    refine Heap.siftUp_ordered (weak L g') _ _ _ hi (Nat.le_refl _) (fun e he => (hW _ (List.mem_map_of_mem he)).2) ?_
    have inj : ∀ k, k < h.q.length → k ≠ i → (Heap.at' dflt h.q k).cell ≠ c := by
      intro k hk hne h1
      apply hne
      have h2 : Heap.at' dflt h.q k = Heap.at' dflt h.q i :=
        (List.inj_on_of_nodup_map o.cells) (Heap.at'_mem _ _ hk) (Heap.at'_mem _ _ hi) (by rw [h1, hat])
      have hnd : h.q.Nodup := List.Nodup.of_map _ o.cells
      unfold Heap.at' at h2
      rw [List.getD_eq_getElem _ _ hk, List.getD_eq_getElem _ _ hi] at h2
      exact (List.Nodup.getElem_inj_iff hnd).1 h2
    have hk' : ∀ k, k < h.q.length → k ≠ i → key g' (Heap.at' dflt h.q k).cell = key g (Heap.at' dflt h.q k).cell :=
      fun k hk hne => hsame _ (List.mem_map_of_mem (Heap.at'_mem _ _ hk)) (inj k hk hne)
    have hWk : ∀ k, k < h.q.length → W (key g (Heap.at' dflt h.q k).cell) ∧ W (key g' (Heap.at' dflt h.q k).cell) :=
      fun k hk => hW _ (List.mem_map_of_mem (Heap.at'_mem _ _ hk))
    have hci : (Heap.at' dflt h.q i).cell = c := by rw [hat]
    refine ⟨?_, ?_⟩
    · intro k h0 hk hki
      have := o.ord k h0 hk
      unfold low Heap.cmp at *
      show lt (key g' _) (key g' _) = false
      rw [hk' k hk hki]
      by_cases hpi : (k - 1) / 2 = i
      · rw [hpi, hci]
        rw [hpi, hci] at this
        have w := hWk k hk
        have wi := hWk i hi
        rw [hci] at wi
        exact L.trans (key g' c) (key g c) _ wi.2 wi.1 w.1 hlow this
      · rw [hk' _ (by omega) hpi]; exact this
    · intro h0 k hk0 hk hkp
      have h1 := o.ord i h0 hi
      have h2 := o.ord k hk0 hk
      rw [hkp] at h2
      unfold low Heap.cmp at *
      show lt (key g' _) (key g' _) = false
      rw [hk' k hk (by omega), hk' _ (by omega) (by omega)]
      exact L.trans _ _ _ (hWk _ (by omega)).1 (hWk i hi).1 (hWk k hk).1 h1 h2
  · rw [(hp.map Entry.cell).nodup_iff]; exact o.cells
  · rw [(hp.map Entry.node).nodup_iff]; exact o.nodes
  · intro e he
    rw [hhand, hfresh]
    exact o.hand e (hp.mem_iff.1 he)
  · unfold DHeap.increase; rw [hf]; exact o.hsize
  · unfold DHeap.increase; rw [hf]
    show (h.bad || !decide (c < h.hsize)) = false
    rw [o.bad, o.hsize, decide_eq_true hcn]; rfl

theorem Ok.pop {W : F → Prop} (L : WeakOrder W) {n : Nat} {g : Grid F} {h : DHeap} (o : Ok n g h) (hne : h.q ≠ [])
    (hW : ∀ y ∈ h.q.map Entry.cell, W (key g y)) :
    Ok n g (popMinIdx g h).2 ∧ (h.q.map Entry.cell).Perm ((popMinIdx g h).1 :: (popMinIdx g h).2.q.map Entry.cell) ∧
      IsMin g (h.q.map Entry.cell) (popMinIdx g h).1 := by
  have hl : 0 < h.q.length := List.length_pos_iff.2 hne
  have hp := Heap.popQ_perm (d := dflt) (low := low g) h.q hne
  have hpc : (h.q.map Entry.cell).Perm ((popMinIdx g h).1 :: (popMinIdx g h).2.q.map Entry.cell) := hp.map Entry.cell
  refine ⟨⟨?_, ?_, ?_, ?_, o.hsize, o.bad⟩, hpc, ?_⟩
  · exact Heap.popQ_ordered (weak L g) _ (o.ordW hW) o.ord
  · exact (List.nodup_cons.1 (hpc.nodup_iff.1 o.cells)).2
  · exact (List.nodup_cons.1 ((hp.map Entry.node).nodup_iff.1 o.nodes)).2
  · intro e he
    exact o.hand e (hp.mem_iff.2 (List.mem_cons_of_mem _ he))
  · refine ⟨List.mem_map_of_mem (Heap.at'_mem _ _ hl), ?_⟩
    intro y hy
    obtain ⟨e, he, rfl⟩ := List.mem_map.1 hy
    obtain ⟨k, hk, e1⟩ := Heap.mem_at' (d := dflt) he
    have := o.ord.top (weak L g) (o.ordW hW) k hk
    rw [e1] at this
    exact this

/-- what a history of correct uses leaves -/
theorem used {W : F → Prop} (L : WeakOrder W) {n : Nat} {h0 : DHeap} (E : Emptied n h0) {g : Grid F} {h : DHeap} {l : List Nat}
    (u : Used (band (F := F)) h0 W n g h l) : Ok n g h ∧ (h.q.map Entry.cell).Perm l := by
  induction u with
  | new g => exact ⟨ok_new E g, by rw [E.q]; exact List.Perm.refl _⟩
  | change g' _ hk ih => exact ⟨ih.1.frame (fun c hc => hk c (ih.2.mem_iff.1 hc)), ih.2⟩
  | push c _ hc hn hW ih =>
    refine ⟨ih.1.push L (fun h => hc (ih.2.mem_iff.1 h)) hn ?_, ((push_perm _ _ c).map Entry.cell).trans (ih.2.cons c)⟩
    intro y hy
    exact hW y ((ih.2.cons c).mem_iff.1 hy)
  | lower g' c _ hc hs hl hW ih =>
    have := ih.1.increase L (g' := g') (ih.2.mem_iff.2 hc) (fun y hy => hs y (ih.2.mem_iff.1 hy)) hl (fun y hy => hW y (ih.2.mem_iff.1 hy))
    exact ⟨this.1, (this.2.map Entry.cell).trans ih.2⟩
  | @pop g h l _ hne hW ih =>
    have hq : h.q ≠ [] := fun h0 => hne (by have := ih.2; rw [h0] at this; exact this.nil_eq.symm)
    have := ih.1.pop L hq (fun y hy => hW y (ih.2.mem_iff.1 hy))
    refine ⟨this.1, ?_⟩
    have hp := (ih.2.symm.trans this.2.1).erase (popMinIdx g h).1
    rw [List.erase_cons_head] at hp
    exact hp.symm

end DHeap

/-- **C57**: in every history of calls in which every lowered key is reported, the binary heap of FMM (`FMDaryHeap`) pops a cell with the smallest key it stores and is
empty exactly when nothing is stored, for any numbers whose `<` is a strict weak order. -/
theorem C57_binary_heap_right {W : F → Prop} (L : WeakOrder W) (n : Nat) {h0 : DHeap} (E : DHeap.Emptied n h0) :
    RightBand (DHeap.band (F := F)) h0 W n := by
  intro g h l u
  obtain ⟨o, hp⟩ := DHeap.used L E u
  have hnil : h.q = [] ↔ l = [] := by
    constructor
    · intro h0; rw [h0] at hp; exact hp.nil_eq.symm
    · intro h0; rw [h0] at hp; simpa using hp
  refine ⟨?_, ?_⟩
  · show h.q.isEmpty = true ↔ _
    rw [List.isEmpty_iff, hnil]
  · intro hne hW
    have := (o.pop L (fun h0 => hne (hnil.1 h0)) (fun y hy => hW y (hp.mem_iff.1 hy))).2.2
    exact ⟨hp.mem_iff.1 this.1, fun y hy => this.2 y (hp.mem_iff.2 hy)⟩

/-- **C57** (memory): in every such history no call uses an entry that `handles_` does not have, or a handle whose element has left the heap. -/
theorem C57_binary_heap_handles {W : F → Prop} (L : WeakOrder W) (n : Nat) {h0 : DHeap} (E : DHeap.Emptied n h0) (g : Grid F) (h : DHeap)
    (l : List Nat) (u : Used (DHeap.band (F := F)) h0 W n g h l) : h.bad = false := (DHeap.used L E u).1.bad

/-- numbers that are not NaN are weakly ordered -/
theorem XR.weakOrder : WeakOrder (fun x : XR => x ≠ .nan) where
  asymm a b _ _ h := XR.ltLaws.asymm h
  trans a b c ha hb hc h1 h2 := by
    cases a <;> cases b <;> cases c <;> simp_all [Arith.lt, XR.lt]
    linarith

/-- non-vacuity: a history with two pushes and a pop -/
example (g : Grid XR) (h0 : key g 0 = .fin 2) (h1 : key g 1 = .fin 1) :
    ∃ h l, Used (DHeap.band (F := XR)) (DHeap.new 2) (fun x => x ≠ .nan) 2 g h l ∧ l = [1, 0] ∧ (DHeap.popMinIdx g h).1 = 1 := by
  have u1 := Used.push (N := DHeap.band) (W := fun x : XR => x ≠ .nan) (n := 2) 0 (Used.new (b0 := DHeap.new 2) g) (by simp) (by decide) (by simp [h0])
  have u2 := Used.push 1 u1 (by simp) (by decide) (by simp [h0, h1])
  have hm := (C57_binary_heap_right XR.weakOrder 2 (DHeap.emptied_new 2) _ _ _ u2).2 (by simp) (by simp [h0, h1])
  refine ⟨_, _, u2, rfl, ?_⟩
  have hmem := hm.1
  rcases List.mem_cons.1 hmem with h | h
  · exact h
  · rw [List.mem_singleton] at h
    have := hm.2 1 (by simp)
    have e : key g (DHeap.band.popMinIdx g (DHeap.band.push g (DHeap.band.push g (DHeap.new 2) 0) 1)).1 = .fin 2 := by rw [h]; exact h0
    rw [e, h1] at this
    simp [Arith.lt, XR.lt] at this

end FMV
