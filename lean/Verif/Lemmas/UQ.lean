import Verif.Model.UQ
import Mathlib.Algebra.BigOperators.Group.Finset.Basic
import Mathlib.Algebra.Order.BigOperators.Group.Finset
import Mathlib.Algebra.Order.Group.Multiset
import Mathlib.Algebra.BigOperators.Group.Multiset.Basic
/-! The untidy queue as a bag of elements. -/
set_option linter.unusedSectionVars false
set_option linter.unusedVariables false
namespace FMV
open Arith
variable {F : Type} [Arith F]
namespace UQ

/-- everything stored -/
def content (q : UQ F) : Multiset Nat := ∑ b ∈ Finset.range q.size, ((q.tab b : List Nat) : Multiset Nat)

/-- well-formed: there is a bucket, the first bucket exists, the counter is right -/
structure WF (q : UQ F) : Prop where
  pos : 0 < q.size
  i0 : q.i0 < q.size
  nb : q.nb = q.content.card

theorem content_congr {q q' : UQ F} (hs : q'.size = q.size) (ht : ∀ b, b < q.size → q'.tab b = q.tab b) : q'.content = q.content := by
  unfold content
  rw [hs]
  apply Finset.sum_congr rfl
  intro b hb
  rw [ht b (Finset.mem_range.1 hb)]

/-- changing one bucket -/
theorem content_set {q q' : UQ F} (hs : q'.size = q.size) {i : Nat} (hi : i < q.size) (ht : ∀ b, b < q.size → b ≠ i → q'.tab b = q.tab b) :
    q'.content + ((q.tab i : List Nat) : Multiset Nat) = q.content + ((q'.tab i : List Nat) : Multiset Nat) := by
  unfold content
  rw [hs]
  have hm : i ∈ Finset.range q.size := Finset.mem_range.2 hi
  rw [← Finset.sum_erase_add _ _ hm, ← Finset.sum_erase_add (f := fun b => ((q.tab b : List Nat) : Multiset Nat)) _ hm]
  have : ∑ b ∈ (Finset.range q.size).erase i, ((q'.tab b : List Nat) : Multiset Nat) =
      ∑ b ∈ (Finset.range q.size).erase i, ((q.tab b : List Nat) : Multiset Nat) := by
    apply Finset.sum_congr rfl
    intro b hb
    rw [Finset.mem_erase, Finset.mem_range] at hb
    rw [ht b hb.2 hb.1]
  rw [this, add_assoc, add_assoc, add_comm (↑(q'.tab i) : Multiset Nat)]

theorem mem_content {q : UQ F} {e : Nat} : e ∈ q.content ↔ ∃ b, b < q.size ∧ e ∈ q.tab b := by
  unfold content
  rw [Multiset.mem_sum]
  simp

theorem count_content (q : UQ F) (e : Nat) : q.content.count e = ∑ b ∈ Finset.range q.size, (q.tab b).count e := by
  unfold content
  rw [Multiset.count_sum']
  simp

@[simp] theorem cons_size (q : UQ F) (i e : Nat) : (q.cons i e).size = q.size := rfl
@[simp] theorem cons_nb (q : UQ F) (i e : Nat) : (q.cons i e).nb = q.nb := rfl
@[simp] theorem cons_i0 (q : UQ F) (i e : Nat) : (q.cons i e).i0 = q.i0 := rfl
@[simp] theorem cons_t0 (q : UQ F) (i e : Nat) : (q.cons i e).t0 = q.t0 := rfl
theorem cons_tab (q : UQ F) (i e b : Nat) : (q.cons i e).tab b = if b = i then e :: q.tab b else q.tab b := rfl

theorem content_cons (q : UQ F) {i : Nat} (hi : i < q.size) (e : Nat) : (q.cons i e).content = e ::ₘ q.content := by
  have h := content_set (q := q) (q' := q.cons i e) rfl hi (fun b _ hb => by rw [cons_tab, if_neg hb])
  rw [cons_tab, if_pos rfl] at h
  have h2 : ((e :: q.tab i : List Nat) : Multiset Nat) = e ::ₘ ((q.tab i : List Nat) : Multiset Nat) := rfl
  rw [h2, Multiset.add_cons, ← Multiset.cons_add] at h
  exact add_right_cancel h

theorem bucketOf_lt {q : UQ F} (h : 0 < q.size) (t : F) : q.bucketOf t < q.size := Nat.mod_lt _ h

theorem content_eq_zero_iff {q : UQ F} : q.content = 0 ↔ ∀ b, b < q.size → q.tab b = [] := by
  constructor
  · intro h b hb
    by_contra hne
    obtain ⟨e, he⟩ := List.exists_mem_of_ne_nil _ hne
    have : e ∈ q.content := mem_content.2 ⟨b, hb, he⟩
    rw [h] at this; simp at this
  · intro h
    rw [Multiset.eq_zero_iff_forall_notMem]
    intro e he
    obtain ⟨b, hb, he⟩ := mem_content.1 he
    rw [h b hb] at he; simp at he

theorem WF.nb_zero {q : UQ F} (W : WF q) : q.nb = 0 ↔ q.content = 0 := by rw [W.nb, Multiset.card_eq_zero]

/-! ### push -/

theorem push_content {q : UQ F} (W : WF q) (e : Nat) (t : F) : (q.push e t).1.content = e ::ₘ q.content := by
  unfold push
  split
  · next h =>
    rw [content_cons _ (by exact W.pos)]
    congr 1
  · rw [content_cons _ (by exact bucketOf_lt W.pos t)]
    congr 1

theorem push_wf {q : UQ F} (W : WF q) (e : Nat) (t : F) : WF (q.push e t).1 := by
  have hc := push_content W e t
  refine ⟨?_, ?_, ?_⟩
  · unfold push; split <;> exact W.pos
  · unfold push; split
    · exact W.pos
    · exact W.i0
  · rw [hc, Multiset.card_cons, ← W.nb]
    unfold push; split
    · next h => simp [h]
    · rfl

theorem push_bucket_lt {q : UQ F} (W : WF q) (e : Nat) (t : F) : (q.push e t).2 < q.size := by
  unfold push; split
  · exact W.pos
  · exact bucketOf_lt W.pos t

@[simp] theorem push_size (q : UQ F) (e : Nat) (t : F) : (q.push e t).1.size = q.size := by unfold push; split <;> rfl

theorem push_tab (q : UQ F) (e : Nat) (t : F) (b : Nat) :
    (q.push e t).1.tab b = if b = (q.push e t).2 then e :: q.tab b else q.tab b := by
  unfold push; split <;> rfl

/-! ### the loop of top and pop -/

@[simp] theorem shift_tab (q : UQ F) : q.shift.tab = q.tab := rfl
@[simp] theorem shift_size (q : UQ F) : q.shift.size = q.size := rfl
@[simp] theorem shift_nb (q : UQ F) : q.shift.nb = q.nb := rfl

theorem advance_keeps : ∀ (n : Nat) (q : UQ F), (q.advance n).tab = q.tab ∧ (q.advance n).size = q.size ∧ (q.advance n).nb = q.nb ∧
    (q.advance n).delta = q.delta ∧ (q.advance n).incMax = q.incMax ∧ (q.advance n).ub = q.ub := by
  intro n
  induction n with
  | zero => intro q; exact ⟨rfl, rfl, rfl, rfl, rfl, rfl⟩
  | succ n ih =>
    intro q
    unfold advance
    split
    · exact ih q.shift
    · exact ⟨rfl, rfl, rfl, rfl, rfl, rfl⟩

theorem advance_i0 : ∀ (n : Nat) (q : UQ F), 0 < q.size → q.i0 < q.size → (q.advance n).i0 < q.size := by
  intro n
  induction n with
  | zero => intro q _ h; exact h
  | succ n ih =>
    intro q hp h
    unfold advance
    split
    · exact ih q.shift hp (Nat.mod_lt _ hp)
    · exact h

theorem advance_stay (n : Nat) (q : UQ F) (h : q.tab q.i0 ≠ []) : q.advance n = q := by
  cases n with
  | zero => rfl
  | succ n => unfold advance; rw [if_neg h]

/-- a non-empty bucket `k` places ahead is found within `k` iterations -/
theorem advance_finds : ∀ (k n : Nat) (q : UQ F), k ≤ n → 0 < q.size → q.i0 < q.size → q.tab ((q.i0 + k) % q.size) ≠ [] →
    (q.advance n).tab (q.advance n).i0 ≠ [] := by
  intro k
  induction k with
  | zero =>
    intro n q _ hp hi h
    rw [Nat.add_zero, Nat.mod_eq_of_lt hi] at h
    rw [advance_stay n q h]; exact h
  | succ k ih =>
    intro n q hn hp hi h
    obtain ⟨m, rfl⟩ : ∃ m, n = m + 1 := ⟨n - 1, by omega⟩
    unfold advance
    split
    · apply ih m q.shift (by omega) hp (Nat.mod_lt _ hp)
      have : (q.shift.i0 + k) % q.shift.size = (q.i0 + (k + 1)) % q.size := by
        show ((q.i0 + 1) % q.size + k) % q.size = _
        rw [Nat.mod_add_mod]; congr 1; omega
      rw [this]; exact h
    · next hne => exact hne

theorem settle_finds {q : UQ F} (W : WF q) (hne : q.content ≠ 0) : q.settle.tab q.settle.i0 ≠ [] := by
  obtain ⟨e, he⟩ := Multiset.exists_mem_of_ne_zero hne
  obtain ⟨b, hb, heb⟩ := mem_content.1 he
  apply advance_finds ((b + q.size - q.i0) % q.size) q.size q (Nat.mod_lt _ W.pos).le W.pos W.i0
  have : (q.i0 + (b + q.size - q.i0) % q.size) % q.size = b := by
    rw [Nat.add_mod_mod]
    have := W.i0
    have h2 : q.i0 + (b + q.size - q.i0) = b + q.size := by omega
    rw [h2, Nat.add_mod_right, Nat.mod_eq_of_lt hb]
  rw [this]
  intro h0
  rw [h0] at heb; simp at heb

theorem settle_keeps (q : UQ F) : q.settle.tab = q.tab ∧ q.settle.size = q.size ∧ q.settle.nb = q.nb ∧
    q.settle.delta = q.delta ∧ q.settle.incMax = q.incMax ∧ q.settle.ub = q.ub := advance_keeps _ _

theorem settle_content (q : UQ F) : q.settle.content = q.content :=
  content_congr (settle_keeps q).2.1 (fun b _ => by rw [(settle_keeps q).1])

theorem settle_wf {q : UQ F} (W : WF q) : WF q.settle :=
  ⟨by rw [(settle_keeps q).2.1]; exact W.pos, by rw [(settle_keeps q).2.1]; exact advance_i0 _ _ W.pos W.i0,
    by rw [(settle_keeps q).2.2.1, settle_content]; exact W.nb⟩

/-- `top` shows `x` without moving -/
def Shows (q : UQ F) (x : Nat) : Prop := (q.tab q.i0).getLast? = some x

theorem Shows.ne_nil {q : UQ F} {x : Nat} (h : q.Shows x) : q.tab q.i0 ≠ [] := by
  intro e; unfold Shows at h; rw [e] at h; simp at h

theorem Shows.settle {q : UQ F} {x : Nat} (h : q.Shows x) : q.settle = q := advance_stay _ _ h.ne_nil

theorem top_shows {q : UQ F} {x : Nat} (h : q.top.2 = some x) : q.top.1.Shows x := h

theorem Shows.top {q : UQ F} {x : Nat} (h : q.Shows x) : q.top = (q, some x) := by
  unfold UQ.top
  rw [h.settle]; exact Prod.ext rfl h

theorem top_some {q : UQ F} (W : WF q) (hne : q.content ≠ 0) : ∃ x, q.top.2 = some x ∧ x ∈ q.content := by
  have h := settle_finds W hne
  refine ⟨(q.settle.tab q.settle.i0).getLast h, ?_, ?_⟩
  · exact List.getLast?_eq_some_getLast h
  · rw [← settle_content]
    exact mem_content.2 ⟨_, (settle_wf W).i0, List.getLast_mem h⟩

/-! ### pop -/

theorem pop_content {q : UQ F} (W : WF q) {x : Nat} (h : q.Shows x) : q.content = x ::ₘ q.pop.content ∧ WF q.pop := by
  have hne : q.nb ≠ 0 := by
    intro h0
    have := content_eq_zero_iff.1 (W.nb_zero.1 h0) _ W.i0
    exact h.ne_nil this
  have hp : q.pop = { q with nb := q.nb - 1, tab := fun k => if k = q.i0 then (q.tab k).dropLast else q.tab k } := by
    unfold pop; rw [if_neg hne, h.settle]
  have hc := content_set (q := q) (q' := q.pop) (by rw [hp]) W.i0 (fun b _ hb => by rw [hp]; simp [hb])
  have ht : q.pop.tab q.i0 = (q.tab q.i0).dropLast := by rw [hp]; simp
  have hl : q.tab q.i0 = (q.tab q.i0).dropLast ++ [x] := (List.dropLast_append_getLast? x h).symm
  have hx : ((q.tab q.i0 : List Nat) : Multiset Nat) = x ::ₘ (((q.tab q.i0).dropLast : List Nat) : Multiset Nat) := by
    conv_lhs => rw [hl]
    rw [← Multiset.coe_add, Multiset.coe_singleton, add_comm, Multiset.singleton_add]
  rw [ht, hx, Multiset.add_cons, ← Multiset.cons_add] at hc
  have hc' : q.content = x ::ₘ q.pop.content := (add_right_cancel hc).symm
  refine ⟨hc', ⟨by rw [hp]; exact W.pos, by rw [hp]; exact W.i0, ?_⟩⟩
  have hn : q.pop.nb = q.nb - 1 := by rw [hp]
  rw [hn, W.nb, hc', Multiset.card_cons]; rfl

/-! ### increase -/

theorem increase_size (q : UQ F) (e b : Nat) (t : F) : (q.increase e b t).1.size = q.size := by unfold increase; dsimp only; split <;> rfl
theorem increase_nb (q : UQ F) (e b : Nat) (t : F) : (q.increase e b t).1.nb = q.nb := by unfold increase; dsimp only; split <;> rfl
theorem increase_i0 (q : UQ F) (e b : Nat) (t : F) : (q.increase e b t).1.i0 = q.i0 := by unfold increase; dsimp only; split <;> rfl
theorem increase_t0 (q : UQ F) (e b : Nat) (t : F) : (q.increase e b t).1.t0 = q.t0 := by unfold increase; dsimp only; split <;> rfl
theorem increase_bucket (q : UQ F) (e b : Nat) (t : F) : (q.increase e b t).2 = q.bucketOf t := by unfold increase; dsimp only; split <;> rfl

theorem increase_tab (q : UQ F) (e b : Nat) (t : F) (k : Nat) : (q.increase e b t).1.tab k =
    if q.bucketOf t = b then q.tab k
    else if k = q.bucketOf t then e :: q.tab k
    else if k = b then (q.tab k).filter (· ≠ e) else q.tab k := by
  unfold increase
  dsimp only
  by_cases h : q.bucketOf t = b
  · rw [if_neg (by simp [h]), if_pos h]
  · rw [if_pos h, if_neg h]
    show (UQ.cons _ _ _).tab k = _
    rw [cons_tab]
    dsimp only
    by_cases h1 : k = q.bucketOf t
    · rw [if_pos h1, if_pos h1, if_neg (by rw [h1]; exact h)]
    · rw [if_neg h1, if_neg h1]

theorem filter_ne_add {l : List Nat} {e : Nat} (h : l.count e = 1) :
    e ::ₘ ((l.filter (· ≠ e) : List Nat) : Multiset Nat) = (l : Multiset Nat) := by
  apply Multiset.ext.2
  intro a
  by_cases ha : a = e
  · subst ha
    rw [Multiset.count_cons_self, Multiset.coe_count, Multiset.coe_count, h, List.count_eq_zero_of_not_mem (by simp)]
  · rw [Multiset.count_cons_of_ne ha, Multiset.coe_count, Multiset.coe_count, List.count_filter (by simp [ha])]

theorem increase_content {q : UQ F} (W : WF q) {e b : Nat} {t : F} (hb : b < q.size)
    (h : q.bucketOf t = b ∨ (q.tab b).count e = 1) : (q.increase e b t).1.content = q.content ∧ WF (q.increase e b t).1 := by
  have hc : (q.increase e b t).1.content = q.content := by
    unfold increase
    dsimp only
    split
    · next hne =>
      have h1 := h.resolve_left hne
      dsimp only
      rw [content_cons _ (by exact bucketOf_lt W.pos t)]
      have hs := content_set (q := q) (q' := { q with tab := fun k => if k = b then (q.tab k).filter (· ≠ e) else q.tab k }) rfl hb
        (fun k _ hk => by simp [hk])
      dsimp only at hs
      rw [if_pos rfl, ← filter_ne_add h1, Multiset.add_cons, ← Multiset.cons_add] at hs
      exact add_right_cancel hs
    · rfl
  exact ⟨hc, by rw [increase_size]; exact W.pos, by rw [increase_i0, increase_size]; exact W.i0, by rw [increase_nb, hc]; exact W.nb⟩

/-! ### what is on top stays on top -/

theorem getLast?_filter {l : List Nat} {x e : Nat} (h : l.getLast? = some x) (hne : x ≠ e) : (l.filter (· ≠ e)).getLast? = some x := by
  have : l = l.dropLast ++ [x] := (List.dropLast_append_getLast? x h).symm
  rw [this, List.filter_append]
  simp [hne]

theorem Shows.push_nb {q : UQ F} {x : Nat} (h : q.Shows x) (hne : q.nb ≠ 0) (e : Nat) (t : F) : (q.push e t).1.Shows x ∧ (q.push e t).1.i0 = q.i0 ∧
    (q.push e t).1.t0 = q.t0 := by
  unfold UQ.push
  rw [if_neg hne]
  refine ⟨?_, rfl, rfl⟩
  unfold Shows
  show (UQ.tab (UQ.cons _ _ _) q.i0).getLast? = _
  rw [cons_tab]
  split
  · have : q.tab q.i0 ≠ [] := h.ne_nil
    show (e :: q.tab q.i0).getLast? = _
    rw [List.getLast?_cons_of_ne_nil this] <;> exact h
  · exact h

theorem Shows.push {q : UQ F} {x : Nat} (h : q.Shows x) (W : WF q) (e : Nat) (t : F) : (q.push e t).1.Shows x ∧ (q.push e t).1.i0 = q.i0 ∧
    (q.push e t).1.t0 = q.t0 :=
  h.push_nb (fun h0 => h.ne_nil (content_eq_zero_iff.1 (W.nb_zero.1 h0) _ W.i0)) e t

theorem Shows.increase {q : UQ F} {x : Nat} (h : q.Shows x) {e : Nat} (hne : x ≠ e) (b : Nat) (t : F) : (q.increase e b t).1.Shows x := by
  unfold Shows
  rw [increase_i0, increase_tab]
  split
  · exact h
  · split
    · rw [List.getLast?_cons_of_ne_nil h.ne_nil]; exact h
    · split
      · exact getLast?_filter h hne
      · exact h

end UQ
end FMV
