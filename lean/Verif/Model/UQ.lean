import Verif.Model.FMM
/-
Model of `levelset::PriorityQueue` (include/fast_methods/thirdparty/untidy_queue.hpp), of its wrapper `FMUntidyQueue`
(include/fast_methods/datastructures/fmuntidyqueue.hpp) and of `UFMM` (include/fast_methods/fm/ufmm.hpp).
-/
namespace FMV
open Arith
variable {F : Type} [Arith F]

/-- `levelset::PriorityQueue` (thirdparty/untidy_queue.hpp:53-60); elements (pointers to cells) are identified with cell indices.
Simplifications: `m_tab` is a total function of which only the buckets below `size` exist; the counters are natural numbers (no wrap-around:
that would need 2^32 stored elements, or 2^31 buckets).
`ub` is the value a conversion `static_cast<unsigned>(floor(x))` yields when it is undefined behaviour (negative, too large or NaN). -/
structure UQ (F : Type) where
  tab : Nat → List Nat
  size : Nat
  nb : Nat
  t0 : F
  i0 : Nat
  delta : F
  incMax : F
  ub : F → Nat

namespace UQ

/-- Constructor (thirdparty/untidy_queue.hpp:66-71). -/
def create (size : Nat) (incMax : F) (ub : F → Nat) : UQ F :=
  { tab := fun _ => [], size := size, nb := 0, t0 := zero, i0 := 0, delta := div incMax (ofNat size), incMax := incMax, ub := ub }

/-- `m_tab[i].push_front(e)` (thirdparty/untidy_queue.hpp:136 and 210). -/
def cons (q : UQ F) (i e : Nat) : UQ F := { q with tab := fun k => if k = i then e :: q.tab k else q.tab k }

/-- the computed index in the circular array, before clamping (thirdparty/untidy_queue.hpp:107 and 180) -/
def rawIdx (q : UQ F) (t : F) : Nat :=
  let x := div (mul (sub t q.t0) (ofNat q.size)) q.incMax
  (floorU32 x).getD (q.ub x)

/-- The bucket for key `t` (thirdparty/untidy_queue.hpp:107-113 and 180-186).  `i` is unsigned, so the test `i >= 0` always
succeeds and the branch that shifts the beginning of the queue is dead code. -/
def bucketOf (q : UQ F) (t : F) : Nat :=
  let i := q.rawIdx t
  ((if q.size ≤ i then q.size - 1 else i) + q.i0) % q.size

/-- `push(e,t)` (thirdparty/untidy_queue.hpp:87-139): the new queue and the returned bucket. -/
def push (q : UQ F) (e : Nat) (t : F) : UQ F × Nat :=
  if q.nb = 0 then (({ q with t0 := t, i0 := 0, nb := 1 } : UQ F).cons 0 e, 0)
  else (({ q with nb := q.nb + 1 } : UQ F).cons (q.bucketOf t) e, q.bucketOf t)

/-- One iteration of the loop of `top` and `pop` (thirdparty/untidy_queue.hpp:148-149 and 160-161). -/
def shift (q : UQ F) : UQ F := { q with i0 := (q.i0 + 1) % q.size, t0 := add q.t0 q.delta }

/-- The loop `while (m_tab[m_i0].empty())` (thirdparty/untidy_queue.hpp:147-150 and 159-162), at most `fuel` iterations. -/
def advance : Nat → UQ F → UQ F
  | 0, q => q
  | fuel + 1, q => if q.tab q.i0 = [] then advance fuel q.shift else q

/-- the loop run with enough fuel: see `C31_loop_ends` -/
def settle (q : UQ F) : UQ F := q.advance q.size

/-- `top()` (thirdparty/untidy_queue.hpp:156-165): the new queue and the element at the back of the first non-empty bucket
(`none` when the loop does not end or the bucket is empty). -/
def top (q : UQ F) : UQ F × Option Nat := (q.settle, (q.settle.tab q.settle.i0).getLast?)

/-- `pop()` (thirdparty/untidy_queue.hpp:142-153). -/
def pop (q : UQ F) : UQ F :=
  if q.nb = 0 then q
  else
    let q1 := q.settle
    { q1 with nb := q1.nb - 1, tab := fun k => if k = q1.i0 then (q1.tab k).dropLast else q1.tab k }

/-- `increase_priority(e, bucket, t_new)` (thirdparty/untidy_queue.hpp:169-214): the new queue and the returned bucket.
`std::list::remove` removes every element equal to `e`. -/
def increase (q : UQ F) (e bucket : Nat) (t : F) : UQ F × Nat :=
  let i := q.bucketOf t
  if i ≠ bucket then
    (({ q with tab := fun k => if k = bucket then (q.tab k).filter (· ≠ e) else q.tab k } : UQ F).cons i e, i)
  else (q, i)

/-- `clear()` (thirdparty/untidy_queue.hpp:217-224): all buckets (those below `size`; no others exist) are cleared. -/
def clear (q : UQ F) : UQ F := { q with nb := 0, t0 := zero, i0 := 0, tab := fun _ => [] }

end UQ

namespace UFMM

/-- State of `computeInternal` at the head of the main loop (fm/ufmm.hpp:69). -/
structure St (F : Type) where
  g : Grid F
  q : UQ F
  stop : Bool

/-- `FMUntidyQueue::push` (datastructures/fmuntidyqueue.hpp:43-46). -/
def push (s : St F) (i : Nat) : St F :=
  let p := s.q.push i (s.g.value i)
  { s with g := s.g.setBucket i p.2, q := p.1 }

/-- `FMUntidyQueue::increase` (datastructures/fmuntidyqueue.hpp:56-59). -/
def increase (s : St F) (i : Nat) : St F :=
  let p := s.q.increase i (s.g.cells i).bucket (s.g.value i)
  { s with g := s.g.setBucket i p.2, q := p.1 }

/-- Initialisation (fm/ufmm.hpp:62-65); `q` is the queue on entry. -/
def init (g : Grid F) (q : UQ F) (pts : List Nat) : St F :=
  pts.foldl (fun s i => push { s with g := s.g.setValue i zero } i) { g := g, q := q, stop := false }

/-- Body of the loop over the neighbours (fm/ufmm.hpp:74-92). -/
def relax (eik : Eik F) (s : St F) (j : Nat) : St F :=
  if s.g.state j = .frozen ∨ s.g.occ j = true then s
  else
    let t := (eik s.g j).1
    let g := s.g.setScratch (eik s.g j).2
    if s.g.state j = .narrow then
      if better t (s.g.value j) then increase { s with g := g.setValue j t } j else { s with g := g }
    else push { s with g := (g.setState j .narrow).setValue j t } j

/-- Body of the main loop (fm/ufmm.hpp:70-95) for `idxMin = x`, in the state `s` left by `topIdx()`. -/
def expand (goal : Nat) (eik : Eik F) (s : St F) (x : Nat) : St F :=
  let s1 := (s.g.shape.nbrs x).foldl (relax eik) { s with g := s.g.setState x .frozen }
  { s1 with q := s1.q.pop, stop := if x = goal then true else s1.stop }

/-- The loop condition fails (fm/ufmm.hpp:69). -/
def Done (s : St F) : Prop := s.stop = true ∨ s.q.nb = 0

/-- One iteration of the main loop (fm/ufmm.hpp:69-96). -/
def Step (goal : Nat) (eik : Eik F) (s s' : St F) : Prop :=
  ¬ Done s ∧ ∃ x, s.q.top.2 = some x ∧ s' = expand goal eik { s with q := s.q.top.1 } x

end UFMM
end FMV
