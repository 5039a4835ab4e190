import Verif.Model.FMM
/-
Model of the three narrow bands of FMM, element by element:

* `FMDaryHeap` (datastructures/fmdaryheap.hpp) over `boost::heap::d_ary_heap<..., mutable_<true>, arity<2>>`,
* `FMPriorityQueue` (datastructures/fmpriorityqueue.hpp) over `boost::heap::priority_queue`, which is `std::push_heap`/`std::pop_heap` on a
  vector (the algorithms below are those of libstdc++, bits/stl_heap.h),
* the wrapper loop of FMM (fm/fmm.hpp:89-148) with the narrow band as a parameter, as the template parameter `heap_t` is.

`Verif/Model/FMM.lean` describes the same loop with the narrow band reduced to the bag of its elements.
-/
namespace FMV
open Arith
variable {F : Type} [Arith F]

namespace Heap

/-- `FMCompare` (datastructures/fmcompare.hpp:29-32): `c1->getTotalValue() > c2->getTotalValue()`, that is, `a` has lower priority than `b`.
The heaps store pointers to cells, so the keys are read in the grid at the moment of the comparison. -/
def cmp (g : Grid F) (a b : Nat) : Bool := lt (g.cells b).total (g.cells a).total

variable {α : Type}

/-- `q_[i]` -/
def at' (d : α) (q : List α) (i : Nat) : α := q.getD i d

/-- `std::swap(q_[i], q_[j])` -/
def swap (d : α) (q : List α) (i j : Nat) : List α := (q.set i (at' d q j)).set j (at' d q i)

/-- `d_ary_heap::siftup(index)` for arity 2 (boost/heap/d_ary_heap.hpp, used by datastructures/fmdaryheap.hpp:53,81), and also the effect of
libstdc++'s `__push_heap` (used by datastructures/fmpriorityqueue.hpp:46,53); `low a b`: `a` has lower priority than `b`. The first
argument bounds the number of iterations; `index` is always enough. -/
def siftUp (d : α) (low : α → α → Bool) : Nat → Nat → List α → List α
  | 0, _, q => q
  | f + 1, i, q =>
    if i = 0 then q
    else if low (at' d q ((i - 1) / 2)) (at' d q i) then siftUp d low f ((i - 1) / 2) (swap d q ((i - 1) / 2) i)
    else q

/-- `d_ary_heap::top_child_index(index)` for arity 2: `std::max_element` over the (one or two) children. -/
def topChild (d : α) (low : α → α → Bool) (q : List α) (i : Nat) : Nat :=
  if 2 * i + 2 < q.length ∧ low (at' d q (2 * i + 1)) (at' d q (2 * i + 2)) = true then 2 * i + 2 else 2 * i + 1

/-- `d_ary_heap::siftdown(index)` for arity 2; the first argument bounds the number of iterations, the size of the heap is always enough. -/
def siftDown (d : α) (low : α → α → Bool) : Nat → Nat → List α → List α
  | 0, _, q => q
  | f + 1, i, q =>
    if 2 * i + 1 < q.length then
      let m := topChild d low q i
      if low (at' d q m) (at' d q i) then q
      else siftDown d low f m (swap d q m i)
    else q

/-- `d_ary_heap::push(v)` -/
def pushQ (d : α) (low : α → α → Bool) (q : List α) (v : α) : List α :=
  siftUp d low q.length q.length (q ++ [v])

/-- `d_ary_heap::pop()`: the last element replaces the first one and is sifted down -/
def popQ (d : α) (low : α → α → Bool) (q : List α) : List α :=
  let q1 := (swap d q 0 (q.length - 1)).dropLast
  siftDown d low q1.length 0 q1

/-- libstdc++ `__adjust_heap`, first part: the hole moves down to a leaf of the first `n` elements, always towards the child of higher priority
(the second one if they are equivalent); returns the final hole and the vector. -/
def holeDown (d : α) (low : α → α → Bool) (n : Nat) : Nat → Nat → List α → Nat × List α
  | 0, i, q => (i, q)
  | f + 1, i, q =>
    if i < (n - 1) / 2 then
      let c := if low (at' d q (2 * i + 2)) (at' d q (2 * i + 1)) then 2 * i + 1 else 2 * i + 2
      holeDown d low n f c (q.set i (at' d q c))
    else if n % 2 = 0 ∧ i = (n - 2) / 2 then (2 * i + 1, q.set i (at' d q (2 * i + 1)))
    else (i, q)

/-- `priority_queue::pop()`: `std::pop_heap` followed by `pop_back` (libstdc++: the last element is saved, the hole at the front moves to a
leaf, and the saved element is pushed from there). -/
def stdPop (d : α) (low : α → α → Bool) (q : List α) : List α :=
  if q.length ≤ 1 then []
  else
    let n := q.length - 1
    let v := at' d q n
    let (i, q1) := holeDown d low n n 0 (q.take n)
    siftUp d low i i (q1.set i v)

end Heap

/-- A narrow band as FMM uses it: the template parameter `heap_t` (fm/fmm.hpp:64) with `push`, `increase`, `popMinIdx` and `empty`. -/
structure Band (F : Type) (B : Type) where
  push : Grid F → B → Nat → B
  increase : Grid F → B → Nat → B
  popMinIdx : Grid F → B → Nat × B
  empty : B → Bool

/-- An element of `d_ary_heap` with `mutable_<true>`: the stored pointer and the list node it lives in (what a handle refers to). -/
structure Entry where
  cell : Nat
  node : Nat
deriving DecidableEq, Repr

/-- `FMDaryHeap` (datastructures/fmdaryheap.hpp:97-103): the heap, `handles_` (a total function, of which only indices below `hsize` exist), and
the number of nodes created so far. `bad` records an access outside `handles_` or through a handle whose element has left the heap. -/
structure DHeap where
  q : List Entry
  handles : Nat → Nat
  hsize : Nat
  fresh : Nat
  bad : Bool

namespace DHeap

/-- an arbitrary element, never used (indices are always in range) -/
def dflt : Entry := ⟨0, 0⟩

/-- the comparison of the elements -/
def low (g : Grid F) (a b : Entry) : Bool := Heap.cmp g a.cell b.cell

/-- `FMDaryHeap()` and `setMaxSize(n)` (datastructures/fmdaryheap.hpp:37,45-48) -/
def new (n : Nat) : DHeap := ⟨[], fun _ => 0, n, 0, false⟩

/-- `setMaxSize(n)` (datastructures/fmdaryheap.hpp:45-48) -/
def setMaxSize (h : DHeap) (n : Nat) : DHeap := { h with hsize := n }

/-- `push(c)` (datastructures/fmdaryheap.hpp:51-54) -/
def push (g : Grid F) (h : DHeap) (c : Nat) : DHeap :=
  { h with
    q := Heap.pushQ dflt (low g) h.q ⟨c, h.fresh⟩
    handles := fun k => if k = c then h.fresh else h.handles k
    fresh := h.fresh + 1
    bad := h.bad || !decide (c < h.hsize) }

/-- `increase(c)` (datastructures/fmdaryheap.hpp:79-82): `d_ary_heap::increase(handle, c)` stores `c` in the node and sifts it up. -/
def increase (g : Grid F) (h : DHeap) (c : Nat) : DHeap :=
  match h.q.findIdx? (fun e => e.node == h.handles c) with
  | none => { h with bad := true }
  | some i =>
    { h with
      q := Heap.siftUp dflt (low g) i i (h.q.set i ⟨c, h.handles c⟩)
      bad := h.bad || !decide (c < h.hsize) }

/-- `popMinIdx()` (datastructures/fmdaryheap.hpp:57-62) -/
def popMinIdx (g : Grid F) (h : DHeap) : Nat × DHeap :=
  ((Heap.at' dflt h.q 0).cell, { h with q := Heap.popQ dflt (low g) h.q })

/-- `empty()` (datastructures/fmdaryheap.hpp:92-95) -/
def empty (h : DHeap) : Bool := h.q.isEmpty

/-- `clear()` (datastructures/fmdaryheap.hpp:85-89): the heap and `handles_` are emptied. -/
def clear (h : DHeap) : DHeap := { h with q := [], hsize := 0 }

/-- `FMDaryHeap` as the narrow band of FMM (fm/fmm.hpp:64). -/
def band : Band F DHeap := ⟨push, increase, popMinIdx, empty⟩

end DHeap

namespace PQ

/-- `FMPriorityQueue` (datastructures/fmpriorityqueue.hpp:30-87) as the narrow band of SFMM (fm/sfmm.hpp:43): `push` and `increase` push,
`popMinIdx` returns the front and pops. -/
def band : Band F (List Nat) where
  push g q c := Heap.pushQ 0 (Heap.cmp g) q c
  increase g q c := Heap.pushQ 0 (Heap.cmp g) q c
  popMinIdx g q := (Heap.at' 0 q 0, Heap.stdPop 0 (Heap.cmp g) q)
  empty q := q.isEmpty

end PQ

namespace FMM

/-- State of the main loop with an explicit narrow band. -/
structure BSt (F B : Type) where
  g : Grid F
  b : B
  stop : Bool

variable {B : Type}

/-- Body of the initialisation loop (fm/fmm.hpp:101-109). -/
def bInitPoint (N : Band F B) (cfg : Cfg F) (s : BSt F B) (i : Nat) : BSt F B :=
  let g := applyHeur cfg (s.g.setValue i zero) i
  { s with g := g, b := N.push g s.b i }

/-- Initialisation of `computeInternal` (fm/fmm.hpp:95-109) with the narrow band `b0`. -/
def bInit (N : Band F B) (cfg : Cfg F) (g : Grid F) (b0 : B) (pts : List Nat) : BSt F B :=
  pts.foldl (bInitPoint N cfg) { g := g, b := b0, stop := false }

/-- Body of the loop over the neighbours (fm/fmm.hpp:117-143). -/
def bRelax (N : Band F B) (cfg : Cfg F) (eik : Eik F) (s : BSt F B) (j : Nat) : BSt F B :=
  if s.g.state j = .frozen ∨ s.g.occ j = true then s
  else
    let t := (eik s.g j).1
    let g := applyHeur cfg (s.g.setScratch (eik s.g j).2) j
    if s.g.state j = .narrow then
      if better t (s.g.value j) then
        { s with g := g.setValue j t, b := N.increase (g.setValue j t) s.b j }
      else { s with g := g }
    else
      let g' := (g.setState j .narrow).setValue j t
      { s with g := g', b := N.push g' s.b j }

/-- Body of the main loop (fm/fmm.hpp:113-147). -/
def bStep (N : Band F B) (cfg : Cfg F) (eik : Eik F) (s : BSt F B) : BSt F B :=
  let x := (N.popMinIdx s.g s.b).1
  let s1 : BSt F B := { s with g := s.g.setState x .frozen, b := (N.popMinIdx s.g s.b).2 }
  let s2 := (s.g.shape.nbrs x).foldl (bRelax N cfg eik) s1
  { s2 with stop := if x = cfg.goal then true else s2.stop }

/-- The loop condition `!stopWavePropagation && !narrow_band_.empty()` (fm/fmm.hpp:113) fails. -/
def BDone (N : Band F B) (s : BSt F B) : Prop := s.stop = true ∨ N.empty s.b = true

instance (N : Band F B) (s : BSt F B) : Decidable (BDone N s) := inferInstanceAs (Decidable (_ ∨ _))

/-- The loop (fm/fmm.hpp:113-147), at most `n` iterations. -/
def bRun (N : Band F B) (cfg : Cfg F) (eik : Eik F) : Nat → BSt F B → BSt F B
  | 0, s => s
  | n + 1, s => if BDone N s then s else bRun N cfg eik n (bStep N cfg eik s)

end FMM
end FMV
