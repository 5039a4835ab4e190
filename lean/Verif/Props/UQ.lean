import Verif.Lemmas.UQ
import Verif.Spec.Queue
import Verif.Model.XR
import Mathlib.Tactic.Linarith
import Mathlib.Tactic.FieldSimp
import Mathlib.Tactic.Positivity
/-!
# The untidy queue: C30, C31
-/
set_option linter.unusedSectionVars false
set_option linter.unusedVariables false
namespace FMV
open Spec
variable {F : Type} [Arith F]
namespace UQ

/-- bookkeeping invariant -/
structure HInv (n : Nat) (c : Client F) (M : Finset Nat) (born : Nat → Nat) (now : Nat) : Prop where
  size : c.q.size = n
  i0 : c.q.i0 < n
  nb : c.q.nb = M.card
  cnt : ∀ b, b < n → ∀ e, (c.q.tab b).count e = if e ∈ M ∧ b = c.bucket e then 1 else 0
  lt : ∀ e ∈ M, c.bucket e < n
  sorted : ∀ b, b < n → (c.q.tab b).Pairwise (fun a d => born d < born a)
  old : ∀ e ∈ M, born e < now

theorem HInv.content {n : Nat} {c : Client F} {M : Finset Nat} {born now} (I : HInv n c M born now) : c.q.content = M.val := by
  apply Multiset.ext.2
  intro e
  rw [count_content, I.size]
  have : ∀ b ∈ Finset.range n, (c.q.tab b).count e = if b = c.bucket e ∧ e ∈ M then 1 else 0 := by
    intro b hb
    rw [I.cnt b (Finset.mem_range.1 hb) e]
    simp [and_comm]
  rw [Finset.sum_congr rfl this]
  by_cases he : e ∈ M
  · simp only [he, and_true]
    rw [Finset.sum_ite_eq' (Finset.range n) (c.bucket e) (fun _ => 1), if_pos (Finset.mem_range.2 (I.lt e he)),
      Multiset.count_eq_one_of_mem M.nodup he]
  · simp only [he, and_false, if_false]
    rw [Finset.sum_const_zero, Multiset.count_eq_zero_of_notMem he]

theorem HInv.wf {n : Nat} (hn : 0 < n) {c : Client F} {M : Finset Nat} {born now} (I : HInv n c M born now) : WF c.q :=
  ⟨by rw [I.size]; exact hn, by rw [I.size]; exact I.i0, by rw [I.content, I.nb]; rfl⟩

theorem HInv.mem {n : Nat} {c : Client F} {M : Finset Nat} {born now} (I : HInv n c M born now) {b e : Nat} (hb : b < n) :
    e ∈ c.q.tab b ↔ e ∈ M ∧ b = c.bucket e := by
  rw [← List.count_pos_iff, I.cnt b hb e]
  split <;> simp_all

/-- the element shown -/
theorem HInv.shown {n : Nat} (hn : 0 < n) {c : Client F} {M : Finset Nat} {born now} (I : HInv n c M born now) (hne : M ≠ ∅) :
    ∃ x ∈ M, c.shown = some x ∧ c.top.q.Shows x ∧ ∀ y ∈ M, c.bucket y = c.bucket x → born x ≤ born y := by
  have W := I.wf hn
  have hc : c.q.content ≠ 0 := by
    rw [I.content]
    simpa using hne
  obtain ⟨x, h1, h2⟩ := top_some W hc
  have hx : x ∈ M := by rw [I.content] at h2; exact h2
  refine ⟨x, hx, h1, h1, ?_⟩
  intro y hy hb
  have hS : c.q.settle.Shows x := h1
  have hi : c.q.settle.i0 < n := by have := (settle_wf W).i0; rw [(settle_keeps c.q).2.1, I.size] at this; exact this
  have htab : (c.q.tab c.q.settle.i0).getLast? = some x := by
    have := hS; unfold Shows at this; rw [(settle_keeps c.q).1] at this; exact this
  have hl : c.q.tab c.q.settle.i0 = (c.q.tab c.q.settle.i0).dropLast ++ [x] := (List.dropLast_append_getLast? x htab).symm
  have hxb : x ∈ c.q.tab c.q.settle.i0 := by rw [hl]; simp
  have hbx := ((I.mem hi).1 hxb).2
  have hyb : y ∈ c.q.tab c.q.settle.i0 := (I.mem hi).2 ⟨hy, by rw [hb]; exact hbx⟩
  rw [hl, List.mem_append] at hyb
  rcases hyb with hyb | hyb
  · have hs := I.sorted _ hi
    rw [hl, List.pairwise_append] at hs
    exact (hs.2.2 y hyb x (by simp)).le
  · have : y = x := by simpa using hyb
    rw [this]

theorem HInv.push {n : Nat} (hn : 0 < n) {c : Client F} {M : Finset Nat} {born now} (I : HInv n c M born now) {e : Nat} (he : e ∉ M) (t : F) :
    HInv n (c.push e t) (insert e M) (fun k => if k = e then now else born k) (now + 1) := by
  have W := I.wf hn
  have hb : (c.q.push e t).2 < n := by have := push_bucket_lt W e t; rw [I.size] at this; exact this
  have hW := push_wf W e t
  have hne : ∀ b, b < n → e ∉ c.q.tab b := fun b hb h => he ((I.mem hb).1 h).1
  refine ⟨by show (c.q.push e t).1.size = n; rw [push_size, I.size], ?_, ?_, ?_, ?_, ?_, ?_⟩
  · have := hW.i0; rw [push_size, I.size] at this; exact this
  · show (c.q.push e t).1.nb = _
    rw [hW.nb, push_content W, I.content, Multiset.card_cons, Finset.card_insert_of_notMem he]; rfl
  · intro b hbn k
    show ((c.q.push e t).1.tab b).count k = if k ∈ insert e M ∧ b = (if k = e then (c.q.push e t).2 else c.bucket k) then 1 else 0
    rw [push_tab]
    by_cases hk : k = e
    · subst hk
      have h0 : (c.q.tab b).count k = 0 := List.count_eq_zero_of_not_mem (hne b hbn)
      by_cases h2 : b = (c.q.push k t).2
      · rw [if_pos h2, List.count_cons_self, h0]; simp [h2]
      · rw [if_neg h2, h0]; simp [h2]
    · have hek : ¬ e = k := fun h => hk h.symm
      have : ((if b = (c.q.push e t).2 then e :: c.q.tab b else c.q.tab b)).count k = (c.q.tab b).count k := by
        split
        · rw [List.count_cons_of_ne hek]
        · rfl
      rw [this, I.cnt b hbn k]
      simp [hk]
  · intro k hk
    show (if k = e then (c.q.push e t).2 else c.bucket k) < n
    split
    · exact hb
    · next h => exact I.lt k ((Finset.mem_insert.1 hk).resolve_left h)
  · intro b hbn
    show ((c.q.push e t).1.tab b).Pairwise _
    have base : (c.q.tab b).Pairwise (fun a d => (if d = e then now else born d) < (if a = e then now else born a)) := by
      apply List.Pairwise.imp_of_mem ?_ (I.sorted b hbn)
      intro a d ha hd h
      rw [if_neg (by rintro rfl; exact hne b hbn hd), if_neg (by rintro rfl; exact hne b hbn ha)]
      exact h
    rw [push_tab]
    split
    · rw [List.pairwise_cons]
      refine ⟨?_, base⟩
      intro d hd
      rw [if_pos rfl, if_neg (by rintro rfl; exact hne b hbn hd)]
      exact I.old d ((I.mem hbn).1 hd).1
    · exact base
  · intro k hk
    show (if k = e then now else born k) < now + 1
    split
    · omega
    · next h => have := I.old k ((Finset.mem_insert.1 hk).resolve_left h); omega

theorem HInv.increase {n : Nat} (hn : 0 < n) {c : Client F} {M : Finset Nat} {born now} (I : HInv n c M born now) {e : Nat} (he : e ∈ M) (t : F) :
    HInv n (c.increase e t) M (fun k => if k = e ∧ (c.increase e t).bucket e ≠ c.bucket e then now else born k) (now + 1) := by
  have W := I.wf hn
  have hbe := I.lt e he
  have hbt : c.q.bucketOf t < n := by have := bucketOf_lt W.pos t; rw [I.size] at this; exact this
  have hcnt : (c.q.tab (c.bucket e)).count e = 1 := by rw [I.cnt _ hbe]; simp [he]
  obtain ⟨hc, hW⟩ := increase_content W (e := e) (b := c.bucket e) (t := t) (by rw [I.size]; exact hbe) (Or.inr hcnt)
  have hnew : (c.increase e t).bucket e = c.q.bucketOf t := by
    show (if e = e then _ else _) = _
    rw [if_pos rfl, increase_bucket]
  rw [hnew]
  refine ⟨by show (c.q.increase _ _ _).1.size = n; rw [increase_size, I.size], ?_, ?_, ?_, ?_, ?_, ?_⟩
  · show (c.q.increase _ _ _).1.i0 < n; rw [increase_i0]; exact I.i0
  · show (c.q.increase _ _ _).1.nb = _; rw [increase_nb]; exact I.nb
  · intro b hbn k
    show ((c.q.increase e (c.bucket e) t).1.tab b).count k =
      if k ∈ M ∧ b = (if k = e then (c.q.increase e (c.bucket e) t).2 else c.bucket k) then 1 else 0
    rw [increase_tab, increase_bucket]
    by_cases hsame : c.q.bucketOf t = c.bucket e
    · rw [if_pos hsame, I.cnt b hbn k]
      by_cases hk : k = e
      · subst hk; rw [if_pos rfl, hsame]
      · rw [if_neg hk]
    · rw [if_neg hsame]
      by_cases hk : k = e
      · subst hk
        rw [if_pos rfl]
        by_cases h1 : b = c.q.bucketOf t
        · have h0 : (c.q.tab b).count k = 0 := by
            rw [I.cnt b hbn k, if_neg (fun h => hsame (h1.symm.trans h.2))]
          have hr : (if k ∈ M ∧ b = c.q.bucketOf t then 1 else 0) = 1 := if_pos ⟨he, h1⟩
          rw [hr, if_pos h1, List.count_cons_self, h0]
        · have hr : (if k ∈ M ∧ b = c.q.bucketOf t then 1 else 0) = 0 := if_neg (fun h => h1 h.2)
          rw [hr, if_neg h1]
          split
          · exact List.count_eq_zero_of_not_mem (by simp)
          · next h2 => rw [I.cnt b hbn k, if_neg (fun h => h2 h.2)]
      · rw [if_neg hk]
        have hek : ¬ e = k := fun h => hk h.symm
        rw [← I.cnt b hbn k]
        split
        · rw [List.count_cons_of_ne hek]
        · split
          · rw [List.count_filter (by simp [hk])]
          · rfl
  · intro k hk
    show (if k = e then (c.q.increase e (c.bucket e) t).2 else c.bucket k) < n
    split
    · rw [increase_bucket]; exact hbt
    · exact I.lt k hk
  · intro b hbn
    show ((c.q.increase e (c.bucket e) t).1.tab b).Pairwise _
    rw [increase_tab]
    by_cases hsame : c.q.bucketOf t = c.bucket e
    · rw [if_pos hsame]
      simp only [hsame, ne_eq, not_true_eq_false, and_false, if_false]
      exact I.sorted b hbn
    · rw [if_neg hsame]
      simp only [ne_eq, hsame, not_false_eq_true, and_true]
      have hfree : ∀ l : List Nat, e ∉ l → l.Pairwise (fun a d => born d < born a) →
          l.Pairwise (fun a d => (if d = e then now else born d) < (if a = e then now else born a)) := by
        intro l hl hs
        apply List.Pairwise.imp_of_mem ?_ hs
        intro a d ha hd h
        rw [if_neg (by rintro rfl; exact hl hd), if_neg (by rintro rfl; exact hl ha)]
        exact h
      by_cases h1 : b = c.q.bucketOf t
      · rw [if_pos h1, List.pairwise_cons]
        have hnot : e ∉ c.q.tab b := by
          intro h; exact hsame (h1.symm.trans ((I.mem hbn).1 h).2)
        refine ⟨?_, hfree _ hnot (I.sorted b hbn)⟩
        intro d hd
        rw [if_pos rfl, if_neg (by rintro rfl; exact hnot hd)]
        exact I.old d ((I.mem hbn).1 hd).1
      · rw [if_neg h1]
        split
        · exact hfree _ (by simp) ((I.sorted b hbn).filter _)
        · next h2 =>
          refine hfree _ ?_ (I.sorted b hbn)
          intro h; exact h2 ((I.mem hbn).1 h).2
  · intro k hk
    have := I.old k hk
    split
    · omega
    · omega

theorem HInv.top {n : Nat} (hn : 0 < n) {c : Client F} {M : Finset Nat} {born now} (I : HInv n c M born now) :
    HInv n c.top M born (now + 1) := by
  have W := settle_wf (I.wf hn)
  have k := settle_keeps c.q
  refine ⟨by show c.q.settle.size = n; rw [k.2.1, I.size], ?_, by show c.q.settle.nb = _; rw [k.2.2.1, I.nb], ?_, I.lt, ?_, ?_⟩
  · show c.q.settle.i0 < n; have := W.i0; rw [k.2.1, I.size] at this; exact this
  · intro b hb e; show (c.q.settle.tab b).count e = _; rw [k.1]; exact I.cnt b hb e
  · intro b hb; show (c.q.settle.tab b).Pairwise _; rw [k.1]; exact I.sorted b hb
  · intro e he; have := I.old e he; omega

theorem HInv.pop {n : Nat} (hn : 0 < n) {c : Client F} {M : Finset Nat} {born now} (I : HInv n c M born now) {x : Nat}
    (hx : c.shown = some x) (hne : M ≠ ∅) : HInv n c.pop (M.erase x) born (now + 1) := by
  have hcard : M.card ≠ 0 := by simpa using hne
  obtain ⟨x', hx', hs, hS, _⟩ := I.shown hn hne
  have : x' = x := by rw [hs] at hx; exact Option.some.inj hx
  subst this
  have It := I.top hn
  have W := It.wf hn
  have k := settle_keeps c.q
  have hp : c.pop.q = { c.q.settle with nb := c.q.settle.nb - 1, tab := fun k => if k = c.q.settle.i0 then (c.q.settle.tab k).dropLast else c.q.settle.tab k } := by
    show c.q.pop = _
    unfold UQ.pop; rw [if_neg (by rw [I.nb]; exact hcard)]
  have hi : c.q.settle.i0 < n := It.i0
  have htab : ∀ b, b < n → c.q.tab b = if b = c.q.settle.i0 then c.pop.q.tab b ++ [x'] else c.pop.q.tab b := by
    intro b hb
    rw [hp]; dsimp only
    split
    · next e =>
      rw [e]
      have hS' : (c.q.settle.tab c.q.settle.i0).getLast? = some x' := hS
      rw [List.dropLast_append_getLast? x' hS', k.1]
    · rw [k.1]
  refine ⟨by rw [hp]; exact It.size, by rw [hp]; exact hi, ?_, ?_, ?_, ?_, ?_⟩
  · rw [hp]; dsimp only; rw [k.2.2.1, I.nb, Finset.card_erase_of_mem hx']
  · intro b hb e
    have hcnt := I.cnt b hb e
    rw [htab b hb] at hcnt
    have hxb : x' ∈ c.q.tab c.q.settle.i0 := by rw [htab _ hi, if_pos rfl]; simp
    have hbx := ((I.mem hi).1 hxb).2
    show (c.pop.q.tab b).count e = if e ∈ M.erase x' ∧ b = c.bucket e then 1 else 0
    by_cases he : e = x'
    · subst he
      by_cases hb' : b = c.q.settle.i0
      · rw [if_pos hb', List.count_append, List.count_singleton_self, if_pos ⟨hx', hb'.trans hbx⟩] at hcnt
        simp
        omega
      · rw [if_neg hb', if_neg (fun h => hb' (h.2.trans hbx.symm))] at hcnt
        rw [hcnt]; simp
    · have : (if b = c.q.settle.i0 then c.pop.q.tab b ++ [x'] else c.pop.q.tab b).count e = (c.pop.q.tab b).count e := by
        split
        · rw [List.count_append, List.count_eq_zero_of_not_mem (a := e) (l := [x']) (by simpa using he)]; rfl
        · rfl
      rw [← this, hcnt]
      simp [he]
  · intro e he; exact I.lt e (Finset.mem_of_mem_erase he)
  · intro b hb
    have := I.sorted b hb
    rw [htab b hb] at this
    split at this
    · exact (List.pairwise_append.1 this).1
    · exact this
  · intro e he; have := I.old e (Finset.mem_of_mem_erase he); omega

theorem Hist.inv {n : Nat} (hn : 0 < n) {inc : F} {ub : F → Nat} {b0 : Nat → Nat} {c : Client F} {M : Finset Nat} {born now}
    (h : Hist n inc ub b0 c M born now) : HInv n c M born now := by
  induction h with
  | create => exact ⟨rfl, hn, rfl, fun _ _ _ => by simp [UQ.create], by simp, fun _ _ => by simp [UQ.create], by simp⟩
  | push e t _ he ih => exact ih.push hn he t
  | increase e t _ he ih => exact ih.increase hn he t
  | top _ _ ih => exact ih.top hn
  | pop x _ hx hne ih => exact ih.pop hn hx hne
  | @popEmpty c born now _ ih =>
    have : c.pop = c := by unfold Client.pop UQ.pop; rw [if_pos (by rw [ih.nb]; rfl)]
    rw [this]
    exact ⟨ih.size, ih.i0, ih.nb, ih.cnt, ih.lt, ih.sorted, by simp⟩
  | @clear c M born now _ ih =>
    have ht : ∀ b, b < n → c.clear.q.tab b = [] := fun _ _ => rfl
    exact ⟨ih.size, hn, rfl, fun b hb e => by rw [ht b hb]; simp, by simp, fun b hb => by rw [ht b hb]; simp, by simp⟩

/-- **C31**: after any history of calls in which each element is queued at most once, in any arithmetic: `size()` is the number of elements the
client has inserted and not seen removed; `top()` on a non-empty queue ends and shows one of them. -/
theorem _root_.FMV.C31_bookkeeping {n : Nat} (hn : 0 < n) {inc : F} {ub : F → Nat} {b0 : Nat → Nat} {c : Client F} {M : Finset Nat} {born now}
    (h : Hist n inc ub b0 c M born now) :
    c.size = M.card ∧ (M ≠ ∅ → ∃ x ∈ M, c.shown = some x) := by
  have I := Hist.inv hn h
  refine ⟨I.nb, fun hne => ?_⟩
  obtain ⟨x, hx, hs, _⟩ := I.shown hn hne
  exact ⟨x, hx, hs⟩

/-- **C31**: what `top()` shows is what the next `pop()` removes, even if other elements are pushed or re-prioritised in between.
(By `Hist.pop` and `C31_bookkeeping` the removed element is the one shown at that moment.) -/
theorem _root_.FMV.C31_shown_is_stable {n : Nat} (hn : 0 < n) {inc : F} {ub : F → Nat} {b0 : Nat → Nat} {c d : Client F} {M M' : Finset Nat}
    {born born' now now'} (h : Hist n inc ub b0 c M born now) (hne : M ≠ ∅) (x : Nat) (hx : c.shown = some x)
    (hm : Meanwhile x c.top d) (hd : Hist n inc ub b0 d M' born' now') : d.shown = some x := by
  have I := Hist.inv hn h
  obtain ⟨x', hx', hs, hS, _⟩ := I.shown hn hne
  have : x' = x := by rw [hs] at hx; exact Option.some.inj hx
  subst this
  have key : d.q.nb ≠ 0 ∧ d.q.Shows x' := by
    clear hd
    induction hm with
    | refl => exact ⟨by rw [(I.top hn).nb]; simpa using hne, hS⟩
    | push e t _ ih =>
      refine ⟨?_, (ih.2.push_nb ih.1 e t).1⟩
      show (UQ.push _ e t).1.nb ≠ 0
      unfold UQ.push
      rw [if_neg ih.1]; exact Nat.succ_ne_zero _
    | increase e t _ he ih => exact ⟨by show (UQ.increase _ _ _ _).1.nb ≠ 0; rw [increase_nb]; exact ih.1, ih.2.increase he.symm _ t⟩
  unfold Client.shown
  rw [key.2.top]

/-- **C31**: elements that share a bucket leave in the order in which they entered it. -/
theorem _root_.FMV.C31_fifo {n : Nat} (hn : 0 < n) {inc : F} {ub : F → Nat} {b0 : Nat → Nat} {c : Client F} {M : Finset Nat} {born now}
    (h : Hist n inc ub b0 c M born now) {x y : Nat} (hx : c.shown = some x) (hy : y ∈ M) (hb : c.bucket y = c.bucket x) : born x ≤ born y := by
  obtain ⟨x', _, hs, _, ho⟩ := (Hist.inv hn h).shown hn (by rintro rfl; simp at hy)
  have : x' = x := by rw [hs] at hx; exact Option.some.inj hx
  subst this
  exact ho y hy hb

/-- **C31**: the loop of `top` and `pop` ends: on a non-empty queue it needs fewer than `n` iterations, and stops at a non-empty bucket. -/
theorem _root_.FMV.C31_loop_ends {n : Nat} (hn : 0 < n) {inc : F} {ub : F → Nat} {b0 : Nat → Nat} {c : Client F} {M : Finset Nat} {born now}
    (h : Hist n inc ub b0 c M born now) (hne : M ≠ ∅) : c.q.settle.tab c.q.settle.i0 ≠ [] ∧ ∀ m, c.q.advance (n + m) = c.q.settle := by
  have I := Hist.inv hn h
  have hf := settle_finds (I.wf hn) (by rw [I.content]; simpa using hne)
  refine ⟨hf, ?_⟩
  have key : ∀ (m k : Nat) (q : UQ F), (q.advance k).tab (q.advance k).i0 ≠ [] → q.advance (k + m) = q.advance k := by
    intro m k
    induction k with
    | zero => intro q hq; exact advance_stay _ _ hq
    | succ k ih =>
      intro q hq
      rw [show k + 1 + m = (k + m) + 1 by omega]
      unfold advance at hq ⊢
      split
      · next he => rw [if_pos he] at hq; exact ih q.shift hq
      · rfl
  intro m
  have := key m c.q.size c.q hf
  rw [I.size] at this
  unfold settle; rw [I.size]; exact this

/-- `top()` on an empty queue (nothing in any bucket): the loop condition still holds after any number of iterations. -/
theorem _root_.FMV.C31_top_of_empty_never_ends {n : Nat} (hn : 0 < n) {inc : F} {ub : F → Nat} {b0 : Nat → Nat} {c : Client F} {born now}
    (h : Hist n inc ub b0 c ∅ born now) : ∀ m, (c.q.advance m).tab (c.q.advance m).i0 = [] := by
  have I := Hist.inv hn h
  intro m
  have hi := advance_i0 m c.q (by rw [I.size]; exact hn) (by rw [I.size]; exact I.i0)
  rw [(advance_keeps m c.q).1]
  rw [I.size] at hi
  rw [List.eq_nil_iff_forall_not_mem]
  intro e he
  simpa using ((I.mem hi).1 he).1

end UQ
end FMV
