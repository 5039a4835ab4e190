import Verif.Model.UQ
import Verif.Model.XR
import Mathlib.Data.Finset.Insert
import Mathlib.Data.Finset.Basic
import Mathlib.Data.Real.Basic
/-
Specification: what a client of the untidy queue expects, in terms of the history of its calls.
-/
namespace FMV.Spec
variable {F : Type} [Arith F]

/-- A client of the queue: the queue and, for every element, the bucket number that the last `push` or `increase_priority` returned for
it (`FMUntidyQueue` keeps it in the cell: datastructures/fmuntidyqueue.hpp:43-59). -/
structure Client (F : Type) where
  q : UQ F
  bucket : Nat → Nat

/-- `push(e, t)` -/
def Client.push (c : Client F) (e : Nat) (t : F) : Client F :=
  ⟨(c.q.push e t).1, fun k => if k = e then (c.q.push e t).2 else c.bucket k⟩
/-- `increase(e)` with the new key `t` -/
def Client.increase (c : Client F) (e : Nat) (t : F) : Client F :=
  ⟨(c.q.increase e (c.bucket e) t).1, fun k => if k = e then (c.q.increase e (c.bucket e) t).2 else c.bucket k⟩
/-- `top()`: the new state -/
def Client.top (c : Client F) : Client F := ⟨c.q.top.1, c.bucket⟩
/-- `top()`: the element shown -/
def Client.shown (c : Client F) : Option Nat := c.q.top.2
/-- `pop()` -/
def Client.pop (c : Client F) : Client F := ⟨c.q.pop, c.bucket⟩
/-- `clear()` -/
def Client.clear (c : Client F) : Client F := ⟨c.q.clear, c.bucket⟩
/-- `size()` -/
def Client.size (c : Client F) : Nat := c.q.nb

/-- `Hist n inc ub c M born now`: client `c` is the result of some history of calls on a fresh queue with `n` buckets and window `inc`, in which
each element is queued at most once.  `M` is the set of elements the client believes to be stored, `born e` is the time at which `e` entered
the bucket it is in, `now` counts the calls. -/
inductive Hist (n : Nat) (inc : F) (ub : F → Nat) (b0 : Nat → Nat) : Client F → Finset Nat → (Nat → Nat) → Nat → Prop
  | create : Hist n inc ub b0 ⟨UQ.create n inc ub, b0⟩ ∅ (fun _ => 0) 0
  | push {c M born now} (e : Nat) (t : F) : Hist n inc ub b0 c M born now → e ∉ M →
      Hist n inc ub b0 (c.push e t) (insert e M) (fun k => if k = e then now else born k) (now + 1)
  | increase {c M born now} (e : Nat) (t : F) : Hist n inc ub b0 c M born now → e ∈ M →
      Hist n inc ub b0 (c.increase e t) M
        (fun k => if k = e ∧ (c.increase e t).bucket e ≠ c.bucket e then now else born k) (now + 1)
  | top {c M born now} : Hist n inc ub b0 c M born now → M ≠ ∅ → Hist n inc ub b0 c.top M born (now + 1)
  | pop {c M born now} (x : Nat) : Hist n inc ub b0 c M born now → c.shown = some x → M ≠ ∅ → Hist n inc ub b0 c.pop (M.erase x) born (now + 1)
  | popEmpty {c born now} : Hist n inc ub b0 c ∅ born now → Hist n inc ub b0 c.pop ∅ born (now + 1)
  | clear {c M born now} : Hist n inc ub b0 c M born now → Hist n inc ub b0 c.clear ∅ born (now + 1)

/-- calls that insert or re-prioritise elements other than `x` -/
inductive Meanwhile (x : Nat) : Client F → Client F → Prop
  | refl (c) : Meanwhile x c c
  | push {c d} (e : Nat) (t : F) : Meanwhile x c d → Meanwhile x c (d.push e t)
  | increase {c d} (e : Nat) (t : F) : Meanwhile x c d → e ≠ x → Meanwhile x c (d.increase e t)

/-- A history of calls with real-number keys that respects the window of the queue.  `K e` is the current key of `e`; `r` is the reference key:
the key of the element that `top` or `pop` saw last, or the first key pushed into the empty queue.  New keys are at least `r` (the client never
goes back in time) and exceed it by less than the window `inc` minus one bucket width. -/
inductive WindowHist (n : Nat) (inc : ℝ) (ub : XR → Nat) (b0 : Nat → Nat) : Client XR → Finset Nat → (Nat → ℝ) → ℝ → Prop
  | create (K r) : WindowHist n inc ub b0 ⟨UQ.create n (.fin inc) ub, b0⟩ ∅ K r
  | pushFirst {c K r} (e : Nat) (t : ℝ) : WindowHist n inc ub b0 c ∅ K r →
      WindowHist n inc ub b0 (c.push e (.fin t)) {e} (fun k => if k = e then t else K k) t
  | push {c M K r} (e : Nat) (t : ℝ) : WindowHist n inc ub b0 c M K r → M ≠ ∅ → e ∉ M → r ≤ t → t < r + inc - inc / n →
      WindowHist n inc ub b0 (c.push e (.fin t)) (insert e M) (fun k => if k = e then t else K k) r
  | increase {c M K r} (e : Nat) (t : ℝ) : WindowHist n inc ub b0 c M K r → e ∈ M → r ≤ t → t < r + inc - inc / n →
      WindowHist n inc ub b0 (c.increase e (.fin t)) M (fun k => if k = e then t else K k) r
  | top {c M K r} (x : Nat) : WindowHist n inc ub b0 c M K r → M ≠ ∅ → c.shown = some x → WindowHist n inc ub b0 c.top M K (K x)
  | pop {c M K r} (x : Nat) : WindowHist n inc ub b0 c M K r → M ≠ ∅ → c.shown = some x → WindowHist n inc ub b0 c.pop (M.erase x) K (K x)
  | clear {c M K r} : WindowHist n inc ub b0 c M K r → WindowHist n inc ub b0 c.clear ∅ K r

end FMV.Spec
