import Verif.Lemmas.FibPop
import Verif.Props.HeapRun
/-!
# C57: the Fibonacci heap of FMM
-/
set_option linter.unusedSectionVars false
set_option linter.unusedVariables false
namespace FMV
open Arith Spec
variable {F : Type} [Arith F]

namespace FHeap
open Fib (Live)

/-- the invariant of `FMFibHeap` when its client reports every key change; `l` are the stored cells -/
structure Inv (n : Nat) (g : Grid F) (h : FHeap) (l : List Nat) : Prop where
  ok : Fib.Ok (Fib.low g h.s) h.s
  freshL : ∀ x, Live h.s x → x < h.fresh
  kids : ∀ x, h.fresh ≤ x → h.s.children x = []
  hand : ∀ x, Live h.s x → h.handles (h.s.cell x) = x
  back : ∀ c ∈ l, Live h.s (h.handles c) ∧ h.s.cell (h.handles c) = c
  mem : ∀ x, Live h.s x → h.s.cell x ∈ l
  nd : l.Nodup
  lt : ∀ c ∈ l, c < n
  count : h.s.count = l.length
  hsize : h.hsize = n
  bad : h.bad = false

theorem weak {W : F → Prop} (L : WeakOrder W) (g : Grid F) (s : Fib) : Heap.Weak (Fib.low g s) (fun x => W (key g (s.cell x))) where
  asymm a b ha hb h := L.asymm _ _ hb ha h
  trans a b c ha hb hc h1 h2 := L.trans _ _ _ ha hb hc h1 h2

/-- an empty heap with room for the handles of `n` cells: a new one, or one that has been used, cleared and given that size (what `reset` and `setup` do) -/
structure Emptied (n : Nat) (h : FHeap) : Prop where
  roots : h.s.roots = []
  parent : ∀ x, h.s.parent x = none
  children : ∀ x, h.s.children x = []
  top : h.s.top = none
  count : h.s.count = 0
  hsize : h.hsize = n
  bad : h.bad = false

theorem emptied_new (n : Nat) : Emptied n (new n) := ⟨rfl, fun _ => rfl, fun _ => rfl, rfl, rfl, rfl, rfl⟩

/-- `reset` clears the heap (fm/fmm.hpp:179-183) and the next `setup` gives `handles_` the size of the grid (fm/fmm.hpp:81) -/
theorem emptied_reset {h : FHeap} (hb : h.bad = false) (n : Nat) : Emptied n (h.clear.setMaxSize n) :=
  ⟨rfl, fun _ => rfl, fun _ => rfl, rfl, rfl, rfl, hb⟩

theorem inv_new {n : Nat} {h : FHeap} (E : Emptied n h) (g : Grid F) : Inv n g h [] := by
  have hl : ∀ x, ¬ Live h.s x := by
    intro x hx
    rcases hx with h1 | h1
    · rw [E.roots] at h1; cases h1
    · exact h1 (E.parent x)
  refine ⟨⟨⟨?_, ?_, ?_, ?_, fun x hx => absurd hx (hl x)⟩, ?_, .inl ⟨E.roots, E.top⟩⟩, fun x hx => absurd hx (hl x), fun x _ => E.children x, fun x hx => absurd hx (hl x),
    (fun c hc => by cases hc), fun x hx => absurd hx (hl x), List.nodup_nil, (fun c hc => by cases hc), E.count, E.hsize, E.bad⟩
  · intro c p; rw [E.children, E.parent]; simp
  · intro p; rw [E.children]; exact List.nodup_nil
  · rw [E.roots]; exact List.nodup_nil
  · intro r _; exact E.parent r
  · intro x p hx; rw [E.parent] at hx; cases hx

/-- only the order of stored nodes matters -/
theorem ok_congr {lo lo' : Nat → Nat → Bool} {s : Fib} (o : Fib.Ok lo s) (h : ∀ x y, Live s x → Live s y → lo' x y = lo x y) : Fib.Ok lo' s := by
  refine ⟨o.wf, ?_, ?_⟩
  · intro x p hx
    rw [h _ _ (o.wf.parent_live hx) (.inr (by rw [hx]; simp))]; exact o.ord x p hx
  · rcases o.top with h1 | ⟨t, h1, h2, h3⟩
    · exact .inl h1
    · exact .inr ⟨t, h1, h2, fun x hx => by rw [h _ _ (.inl h2) hx]; exact h3 x hx⟩

theorem Inv.frame {n : Nat} {g g' : Grid F} {h : FHeap} {l : List Nat} (I : Inv n g h l) (hk : ∀ c ∈ l, key g' c = key g c) : Inv n g' h l := by
  refine { I with ok := ok_congr I.ok ?_ }
  intro x y hx hy
  show Arith.lt (key g' _) (key g' _) = Arith.lt (key g _) (key g _)
  rw [hk _ (I.mem x hx), hk _ (I.mem y hy)]

theorem Inv.push {W : F → Prop} (L : WeakOrder W) {n : Nat} {g : Grid F} {h : FHeap} {l : List Nat} (I : Inv n g h l) {c : Nat} (hc : c ∉ l) (hn : c < n)
    (hW : ∀ y ∈ c :: l, W (key g y)) : Inv n g (push g h c) (c :: l) := by
  have hx : ¬ Live h.s h.fresh := fun h1 => absurd (I.freshL _ h1) (Nat.lt_irrefl _)
  have hcell : ∀ y, Live h.s y → Fib.set h.s.cell h.fresh c y = h.s.cell y := fun y hy => Fib.set_ne _ _ (Nat.ne_of_lt (I.freshL y hy))
  obtain ⟨p1, p2, p3, p4⟩ := Fib.push_ok (g := g) (s := h.s) (x := h.fresh) (c := c) (lo := Fib.low g h.s)
    (lo' := fun a b => Heap.cmp g (Fib.set h.s.cell h.fresh c a) (Fib.set h.s.cell h.fresh c b)) (P' := fun x => W (key g (Fib.set h.s.cell h.fresh c x)))
    ⟨fun a b ha hb h => L.asymm _ _ hb ha h, fun a b c ha hb hc h1 h2 => L.trans _ _ _ ha hb hc h1 h2⟩ (fun _ _ => rfl) I.ok hx (I.kids _ (Nat.le_refl _))
    (by
      rintro y (hy | rfl)
      · rw [hcell y hy]; exact hW _ (List.mem_cons_of_mem _ (I.mem y hy))
      · rw [Fib.set_self]; exact hW _ List.mem_cons_self)
    (fun a b ha hb => by rw [Fib.set_ne _ _ ha, Fib.set_ne _ _ hb]; rfl)
  have hcellne : ∀ y, Live h.s y → h.s.cell y ≠ c := fun y hy e => hc (e ▸ I.mem y hy)
  have hch : (FHeap.push g h c).s.children = h.s.children := by
    funext y
    show Fib.set h.s.children h.fresh [] y = _
    by_cases hy : y = h.fresh
    · subst hy; rw [Fib.set_self, I.kids _ (Nat.le_refl _)]
    · rw [Fib.set_ne _ _ hy]
  have hs : (FHeap.push g h c).s = Fib.push g h.s h.fresh c := rfl
  refine ⟨?_, ?_, ?_, ?_, ?_, ?_, List.nodup_cons.2 ⟨hc, I.nd⟩, ?_, ?_, I.hsize, ?_⟩
  · have : Fib.low g (FHeap.push g h c).s = fun a b => Heap.cmp g (Fib.set h.s.cell h.fresh c a) (Fib.set h.s.cell h.fresh c b) := by
      funext a b; show Heap.cmp g ((Fib.push g h.s h.fresh c).cell a) ((Fib.push g h.s h.fresh c).cell b) = _; rw [p3]
    rw [this]; exact p1
  · intro x hx'
    show x < h.fresh + 1
    rcases (p2 x).1 hx' with h1 | rfl
    · have := I.freshL x h1; omega
    · omega
  · intro x hx'
    rw [hch]
    exact I.kids x (by change h.fresh + 1 ≤ x at hx'; omega)
  · intro x hx'
    show (if (Fib.push g h.s h.fresh c).cell x = c then h.fresh else h.handles ((Fib.push g h.s h.fresh c).cell x)) = x
    rw [p3]
    rcases (p2 x).1 hx' with h1 | rfl
    · rw [hcell x h1, if_neg (hcellne x h1)]; exact I.hand x h1
    · rw [Fib.set_self, if_pos rfl]
  · intro c' hc'
    show Live (Fib.push g h.s h.fresh c) (if c' = c then h.fresh else h.handles c') ∧ (Fib.push g h.s h.fresh c).cell (if c' = c then h.fresh else h.handles c') = c'
    rw [p3, p2]
    by_cases he : c' = c
    · rw [if_pos he, Fib.set_self]; exact ⟨.inr rfl, he.symm⟩
    · rw [if_neg he]
      obtain ⟨b1, b2⟩ := I.back c' ((List.mem_cons.1 hc').resolve_left he)
      rw [hcell _ b1]
      exact ⟨.inl b1, b2⟩
  · intro x hx'
    show (Fib.push g h.s h.fresh c).cell x ∈ _
    rw [p3]
    rcases (p2 x).1 hx' with h1 | rfl
    · rw [hcell x h1]; exact List.mem_cons_of_mem _ (I.mem x h1)
    · rw [Fib.set_self]; exact List.mem_cons_self
  · intro c' hc'
    rcases List.mem_cons.1 hc' with rfl | h1
    · exact hn
    · exact I.lt c' h1
  · show (Fib.push g h.s h.fresh c).count = _
    rw [p4, I.count]; rfl
  · show (h.bad || !decide (c < h.hsize)) = false
    rw [I.bad, I.hsize, decide_eq_true hn]; rfl

/-- the nodes that may have children are those created so far -/
theorem kids_of_live {s : Fib} (w : Fib.Wf s) {b : Nat} (hl : ∀ x, Live s x → x < b) : ∀ x, b ≤ x → s.children x = [] := by
  intro x hx
  rw [List.eq_nil_iff_forall_not_mem]
  intro c hc
  have := hl x (w.parent_live ((w.kids c x).1 hc))
  omega

theorem Inv.lower {W : F → Prop} (L : WeakOrder W) {n : Nat} {g g' : Grid F} {h : FHeap} {l : List Nat} (I : Inv n g h l) {c : Nat} (hc : c ∈ l)
    (hsame : ∀ y ∈ l, y ≠ c → key g' y = key g y) (hlow : Arith.lt (key g c) (key g' c) = false) (hW : ∀ y ∈ l, W (key g y) ∧ W (key g' y)) :
    Inv n g' (increase g' h c) l := by
  obtain ⟨b1, b2⟩ := I.back c hc
  have hset : Fib.set h.s.cell (h.handles c) c = h.s.cell := by
    funext y
    by_cases hy : y = h.handles c
    · subst hy; rw [Fib.set_self, b2]
    · rw [Fib.set_ne _ _ hy]
  have e : FHeap.increase g' h c = { h with s := Fib.increase g' h.fresh h.s (h.handles c), bad := h.bad || !decide (c < h.hsize) } := by
    unfold FHeap.increase
    rw [if_pos (Fib.live_iff.2 b1), hset]
  rw [e]
  have hne : ∀ y, Live h.s y → y ≠ h.handles c → h.s.cell y ≠ c := fun y hy hyne ec => hyne (by rw [← ec]; exact (I.hand y hy).symm)
  have hk : ∀ y, Live h.s y → y ≠ h.handles c → key g' (h.s.cell y) = key g (h.s.cell y) := fun y hy hyne => hsame _ (I.mem y hy) (hne y hy hyne)
  -- the order before, changed on nodes outside the heap
  let lo : Nat → Nat → Bool := fun a b => if Fib.live h.s a && Fib.live h.s b then Fib.low g h.s a b else Fib.low g' h.s a b
  have hok : Fib.Ok lo h.s := ok_congr I.ok (fun x y hx hy => by
    show (if _ then _ else _) = _
    rw [Fib.live_iff.2 hx, Fib.live_iff.2 hy]; rfl)
  obtain ⟨i1, i2, i3, i4, i5, i6⟩ := Fib.increase_ok (g := g') (weak L g' h.s) rfl hok.wf hok.ord hok.top (fun x hx => (hW _ (I.mem x hx)).2) b1
    (by
      intro y z hy hz
      show _ = (if _ then _ else _)
      by_cases hl : (Fib.live h.s y && Fib.live h.s z) = true
      · rw [if_pos hl]
        rw [Bool.and_eq_true] at hl
        show Arith.lt (key g' _) (key g' _) = Arith.lt (key g _) (key g _)
        rw [hk _ (Fib.live_iff.1 hl.1) hy, hk _ (Fib.live_iff.1 hl.2) hz]
      · rw [if_neg hl])
    (by
      intro y hy hyne hlt
      change (if _ then _ else _) = _ at hlt
      rw [Fib.live_iff.2 b1, Fib.live_iff.2 hy] at hlt
      change Arith.lt (key g (h.s.cell y)) (key g (h.s.cell (h.handles c))) = false at hlt
      show Arith.lt (key g' (h.s.cell y)) (key g' (h.s.cell (h.handles c))) = false
      rw [hk y hy hyne, b2]
      rw [b2] at hlt
      exact L.trans _ _ _ (hW c hc).2 (hW c hc).1 (hW _ (I.mem y hy)).1 hlow hlt) h.fresh
  have hfr : ∀ x, Live (Fib.increase g' h.fresh h.s (h.handles c)) x → x < h.fresh := fun x hx => I.freshL x ((i4 x).1 hx)
  refine ⟨?_, hfr, kids_of_live i1 hfr, ?_, ?_, ?_, I.nd, I.lt, i6.trans I.count, I.hsize, ?_⟩
  · have : Fib.low g' (Fib.increase g' h.fresh h.s (h.handles c)) = Fib.low g' h.s := by unfold Fib.low; rw [i5]
    show Fib.Ok (Fib.low g' (Fib.increase g' h.fresh h.s (h.handles c))) _
    rw [this]; exact ⟨i1, i2, i3⟩
  · intro x hx
    show h.handles ((Fib.increase g' h.fresh h.s (h.handles c)).cell x) = x
    rw [i5]; exact I.hand x ((i4 x).1 hx)
  · intro c' hc'
    show Live (Fib.increase g' h.fresh h.s (h.handles c)) _ ∧ (Fib.increase g' h.fresh h.s (h.handles c)).cell _ = _
    rw [i5, i4]; exact I.back c' hc'
  · intro x hx
    show (Fib.increase g' h.fresh h.s (h.handles c)).cell x ∈ l
    rw [i5]; exact I.mem x ((i4 x).1 hx)
  · show (h.bad || !decide (c < h.hsize)) = false
    rw [I.bad, I.hsize, decide_eq_true (I.lt c hc)]; rfl

theorem Inv.top {n : Nat} {g : Grid F} {h : FHeap} {l : List Nat} (I : Inv n g h l) (hne : l ≠ []) :
    ∃ t, h.s.top = some t ∧ Live h.s t ∧ ∀ x, Live h.s x → Fib.low g h.s t x = false := by
  rcases I.ok.top with ⟨h1, -⟩ | ⟨t, h1, h2, h3⟩
  · exfalso
    obtain ⟨c, hc⟩ := List.exists_mem_of_ne_nil _ hne
    have : ∀ y, ¬ Fib.Anch h.s y := by
      intro y hy
      induction hy with
      | root hr => rw [h1] at hr; cases hr
      | child _ _ ih => exact ih
    exact this _ (I.ok.wf.anch _ (I.back c hc).1)
  · exact ⟨t, h1, .inl h2, h3⟩

theorem Inv.min {n : Nat} {g : Grid F} {h : FHeap} {l : List Nat} (I : Inv n g h l) (hne : l ≠ []) : IsMin g l (popMinIdx g h).1 := by
  obtain ⟨t, h1, h2, h3⟩ := I.top hne
  have e : (popMinIdx g h).1 = h.s.cell t := by unfold popMinIdx; rw [h1]
  rw [e]
  refine ⟨I.mem t h2, fun y hy => ?_⟩
  obtain ⟨b1, b2⟩ := I.back y hy
  have := h3 _ b1
  change Arith.lt (key g (h.s.cell (h.handles y))) (key g (h.s.cell t)) = false at this
  rwa [b2] at this

theorem Inv.pop {W : F → Prop} (L : WeakOrder W) {n : Nat} {g : Grid F} {h : FHeap} {l : List Nat} (I : Inv n g h l) (hne : l ≠ []) (hW : ∀ y ∈ l, W (key g y)) :
    Inv n g (popMinIdx g h).2 (l.erase (popMinIdx g h).1) := by
  obtain ⟨t, h1, h2, h3⟩ := I.top hne
  have e : popMinIdx g h = (h.s.cell t, { h with s := Fib.pop g h.fresh h.s }) := by unfold popMinIdx; rw [h1]
  have htl := I.mem t h2
  have hlen : (l.erase (h.s.cell t)).length = l.length - 1 := List.length_erase_of_mem htl
  have hcount : h.s.count - 1 ≠ 0 ↔ ∃ x, Live h.s x ∧ x ≠ t := by
    rw [I.count, ← hlen]
    constructor
    · intro h0
      obtain ⟨c, hc⟩ := List.exists_mem_of_length_pos (Nat.pos_of_ne_zero h0)
      obtain ⟨b1, b2⟩ := I.back c (List.mem_of_mem_erase hc)
      refine ⟨h.handles c, b1, ?_⟩
      rintro rfl
      rw [b2] at hc
      exact List.Nodup.not_mem_erase I.nd hc
    · rintro ⟨x, hx, hxt⟩
      have hcne : h.s.cell x ≠ h.s.cell t := fun ec => hxt (by rw [← I.hand x hx, ← I.hand t h2, ec])
      have := (List.mem_erase_of_ne hcne).2 (I.mem x hx)
      exact (List.length_pos_of_mem this).ne'
  obtain ⟨q1, q2, q3, q4⟩ := Fib.pop_ok (weak L g h.s) rfl (fun x hx => hW _ (I.mem x hx)) I.ok h1 hcount h.fresh
  rw [e]
  dsimp only
  have hfr : ∀ x, Live (Fib.pop g h.fresh h.s) x → x < h.fresh := fun x hx => I.freshL x ((q2 x).1 hx).1
  refine ⟨?_, hfr, kids_of_live q1.wf hfr, ?_, ?_, ?_, I.nd.erase _, fun c hc => I.lt c (List.mem_of_mem_erase hc), ?_, I.hsize, I.bad⟩
  · have : Fib.low g (Fib.pop g h.fresh h.s) = Fib.low g h.s := by unfold Fib.low; rw [q3]
    show Fib.Ok (Fib.low g (Fib.pop g h.fresh h.s)) _
    rw [this]; exact q1
  · intro x hx
    show h.handles ((Fib.pop g h.fresh h.s).cell x) = x
    rw [q3]; exact I.hand x ((q2 x).1 hx).1
  · intro c hc
    show Live (Fib.pop g h.fresh h.s) _ ∧ (Fib.pop g h.fresh h.s).cell _ = _
    obtain ⟨b1, b2⟩ := I.back c (List.mem_of_mem_erase hc)
    rw [q3, q2]
    refine ⟨⟨b1, ?_⟩, b2⟩
    intro hct
    rw [hct] at b2
    rw [← b2] at hc
    exact List.Nodup.not_mem_erase I.nd hc
  · intro x hx
    obtain ⟨hx1, hx2⟩ := (q2 x).1 hx
    show (Fib.pop g h.fresh h.s).cell x ∈ _
    rw [q3]
    have hcne : h.s.cell x ≠ h.s.cell t := fun ec => hx2 (by rw [← I.hand x hx1, ← I.hand t h2, ec])
    exact (List.mem_erase_of_ne hcne).2 (I.mem x hx1)
  · show (Fib.pop g h.fresh h.s).count = _
    rw [q4, hlen, I.count]

/-- what a history of correct uses leaves -/
theorem used {W : F → Prop} (L : WeakOrder W) {n : Nat} {h0 : FHeap} (E : Emptied n h0) {g : Grid F} {h : FHeap} {l : List Nat}
    (u : Used (band (F := F)) h0 W n g h l) : Inv n g h l := by
  induction u with
  | new g => exact inv_new E g
  | change g' _ hk ih => exact ih.frame hk
  | push c _ hc hn hW ih => exact ih.push L hc hn hW
  | lower g' c _ hc hs hl hW ih => exact ih.lower L hc hs hl hW
  | pop _ hne hW ih => exact ih.pop L hne hW

end FHeap

/-- **C57**: in every history of calls in which every lowered key is reported, the Fibonacci heap of FMM (`FMFibHeap`) pops a cell with the smallest key it stores and is
empty exactly when nothing is stored, for any numbers whose `<` is a strict weak order. -/
theorem C57_fib_heap_right {W : F → Prop} (L : WeakOrder W) (n : Nat) {h0 : FHeap} (E : FHeap.Emptied n h0) :
    RightBand (FHeap.band (F := F)) h0 W n := by
  intro g h l u
  have I := FHeap.used L E u
  refine ⟨?_, fun hne _ => I.min hne⟩
  show (h.s.count == 0) = true ↔ _
  rw [I.count, beq_iff_eq, List.length_eq_zero_iff]

/-- **C57** (memory): in every such history no call uses an entry that `handles_` does not have, or a handle whose element has left the heap. -/
theorem C57_fib_heap_handles {W : F → Prop} (L : WeakOrder W) (n : Nat) {h0 : FHeap} (E : FHeap.Emptied n h0) (g : Grid F) (h : FHeap)
    (l : List Nat) (u : Used (FHeap.band (F := F)) h0 W n g h l) : h.bad = false := (FHeap.used L E u).bad

/-- non-vacuity: a history with two pushes and a pop -/
example (g : Grid XR) (h0 : key g 0 = .fin 2) (h1 : key g 1 = .fin 1) :
    ∃ h l, Used (FHeap.band (F := XR)) (FHeap.new 2) (fun x => x ≠ .nan) 2 g h l ∧ l = [1, 0] ∧ (FHeap.popMinIdx g h).1 = 1 := by
  have u1 := Used.push (N := FHeap.band) (W := fun x : XR => x ≠ .nan) (n := 2) 0 (Used.new (b0 := FHeap.new 2) g) (by simp) (by decide) (by simp [h0])
  have u2 := Used.push 1 u1 (by simp) (by decide) (by simp [h0, h1])
  have hm := (C57_fib_heap_right XR.weakOrder 2 (FHeap.emptied_new 2) _ _ _ u2).2 (by simp) (by simp [h0, h1])
  refine ⟨_, _, u2, rfl, ?_⟩
  rcases List.mem_cons.1 hm.1 with h | h
  · exact h
  · rw [List.mem_singleton] at h
    have := hm.2 1 (by simp)
    have e : key g (FHeap.band.popMinIdx g (FHeap.band.push g (FHeap.band.push g (FHeap.new 2) 0) 1)).1 = .fin 2 := by rw [h]; exact h0
    rw [e, h1] at this
    simp [Arith.lt, XR.lt] at this

section
open Shape XR FMM
variable {dims : List Nat} {g : Grid XR} {h : ℝ} {v : Nat → ℝ} {pts : List Nat}

/-- **C57/C13/C16** for FMM with `FMFibHeap`. -/
theorem C57_FMM_fib_heap_accurate (X : XInput dims g h v pts) (hfr : Fresh g) (ha : StartsApart dims g pts) (hnd : pts.Nodup)
    (U : Nat → WithTop ℝ) (hU : X.problem.IsSolution U) (cfg : Cfg XR) (hd : cfg.dup = false) (hcfg : cfg.heur = .none)
    (hgoal : dims.prod ≤ cfg.goal) {b0 : FHeap} (E : FHeap.Emptied dims.prod b0) (k : Nat) (hk : dims.prod + pts.length ≤ k) :
    BDone FHeap.band (bRun FHeap.band cfg eikS k (bInit FHeap.band cfg g b0 pts)) ∧ ∀ i, i < dims.prod →
      U i ≤ toT ((bRun FHeap.band cfg eikS k (bInit FHeap.band cfg g b0 pts)).g.value i) ∧
      toT ((bRun FHeap.band cfg eikS k (bInit FHeap.band cfg g b0 pts)).g.value i) ≤
        U i + ((dims.prod * (2 * eps) : ℝ) : WithTop ℝ) :=
  C57_FMM_accurate X hfr ha hnd U hU cfg hd hcfg hgoal FHeap.band b0 (C57_fib_heap_right XR.weakOrder dims.prod E) k hk

/-- **C57/C48** for FMM with `FMFibHeap`: in every run no `push` writes outside `handles_` and no `increase` goes through a handle whose node has left the heap. -/
theorem C57_fib_handles_safe (X : XInput dims g h v pts) (hfr : Fresh g) (ha : StartsApart dims g pts) (hnd : pts.Nodup) (cfg : Cfg XR)
    (hd : cfg.dup = false) (hcfg : cfg.heur = .none) {b0 : FHeap} (E : FHeap.Emptied dims.prod b0) (k : Nat) :
    (bRun FHeap.band cfg eikS k (bInit FHeap.band cfg g b0 pts)).b.bad = false := by
  obtain ⟨_, _, _, _, _, _, l, u⟩ := FMM_used X hfr ha hnd cfg hd hcfg FHeap.band b0 (C57_fib_heap_right XR.weakOrder dims.prod E) k
  exact C57_fib_heap_handles XR.weakOrder dims.prod E _ _ l u

/-- **C57/C48** for FMM* with `FMFibHeap`, from one initial point and with any finite distances. -/
theorem C57_fib_handles_safe_star {p : Nat} (X : XInput dims g h v [p]) (hfr : Fresh g) (hp : g.occ p = false) (cfg : Cfg XR)
    (hd : cfg.dup = false) (hdist : ∀ i, ∃ r : ℝ, cfg.hdist i = XR.fin r) {b0 : FHeap} (E : FHeap.Emptied dims.prod b0) (k : Nat) :
    (bRun FHeap.band cfg eikS k (bInit FHeap.band cfg g b0 [p])).b.bad = false := by
  obtain ⟨_, _, _, _, _, _, l, u⟩ := FMMstar_used X hfr hp cfg hd hdist FHeap.band b0 (C57_fib_heap_right XR.weakOrder dims.prod E) k
  exact C57_fib_heap_handles XR.weakOrder dims.prod E _ _ l u

/-- non-vacuity: two initial points in opposite corners of a 3×3 grid, with a Fibonacci heap that was used and reset -/
example : ∃ (g : Grid XR) (X : XInput [3, 3] g 1 (fun _ => 1) [0, 8]), Fresh g ∧ StartsApart [3, 3] g [0, 8] ∧ [0, 8].Nodup ∧ (∃ U, X.problem.IsSolution U) ∧
    FHeap.Emptied [3, 3].prod ((FHeap.push g (FHeap.new 4) 0).clear.setMaxSize 9) := by
  refine ⟨Grid.create [3,3] (fin 1) (0,0), ⟨⟨by decide, by decide, by decide⟩, by decide, rfl, by decide, one_pos, rfl, fun _ _ _ => rfl⟩,
    ⟨fun _ => rfl, fun _ => rfl, fun _ => rfl⟩, ?_, by decide, ?_, FHeap.emptied_reset rfl 9⟩
  · intro i hi j hj _ hadj
    obtain ⟨k, h0, h1, h2, h3⟩ := hadj
    fin_cases hi <;> fin_cases hj <;> revert h1 h2 h3 <;> (intro h1 h2 h3)
    all_goals
      have h4 : k = 0 ∨ k = 1 := by
        have : k < 2 := h1
        omega
      rcases h4 with rfl | rfl <;> revert h2 <;> decide
  · exact (C17_unique_solution _ (XInput.wellPosed _)).imp (fun _ h => h.1)
end

end FMV
