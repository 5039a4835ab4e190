import Verif.Model.Heap
/-
Model of `FMFibHeap` (datastructures/fmfibheap.hpp) over `boost::heap::fibonacci_heap`, node by node.

Boost's source is not part of the repository; the functions in `namespace Fib` follow boost/heap/fibonacci_heap.hpp (`push`, `pop`, `increase`, `cut`,
`cascading_cut`, `consolidate`).  A node is a number (its address); nodes are never reused.  The array `aux` of `consolidate`, which has one entry per possible
number of children up to 64, is a total function here: that no node ever has 64 children is not proved.
-/
namespace FMV
open Arith
variable {F : Type} [Arith F]

/-- `fibonacci_heap`: the fields of its nodes, `roots`, `top_element` and the size. -/
structure Fib where
  cell : Nat → Nat
  parent : Nat → Option Nat
  children : Nat → List Nat
  mark : Nat → Bool
  roots : List Nat
  top : Option Nat
  count : Nat

namespace Fib

/-- node `a` has lower priority than node `b` (datastructures/fmcompare.hpp:29-32, called by datastructures/fmfibheap.hpp:31) -/
def low (g : Grid F) (s : Fib) (a b : Nat) : Bool := Heap.cmp g (s.cell a) (s.cell b)

/-- an empty heap (datastructures/fmfibheap.hpp:37) -/
def empty : Fib := ⟨fun _ => 0, fun _ => none, fun _ => [], fun _ => false, [], none, 0⟩

/-- is node `x` in the heap? -/
def live (s : Fib) (x : Nat) : Bool := s.roots.contains x || (s.parent x).isSome

/-- `f` with the value at `x` replaced -/
def set {α : Type} (f : Nat → α) (x : Nat) (a : α) : Nat → α := fun y => if y = x then a else f y

/-- `fibonacci_heap::push(v)` with the new node `x` (datastructures/fmfibheap.hpp:52): the node becomes the first root, and the top if the top has lower priority. -/
def push (g : Grid F) (s : Fib) (x c : Nat) : Fib :=
  let s1 : Fib := { s with cell := set s.cell x c, parent := set s.parent x none, children := set s.children x [], mark := set s.mark x false,
                           roots := x :: s.roots, count := s.count + 1 }
  { s1 with top := match s.top with
    | none => some x
    | some t => if low g s1 t x then some x else some t }

/-- `cut(n)`: the node leaves its parent and becomes the first root (used by datastructures/fmfibheap.hpp:80). -/
def cut (s : Fib) (n : Nat) : Fib :=
  match s.parent n with
  | none => s
  | some p => { s with children := set s.children p ((s.children p).erase n), roots := n :: s.roots, parent := set s.parent n none, mark := set s.mark n false }

/-- `cascading_cut(n)` (used by datastructures/fmfibheap.hpp:80); the first argument bounds the number of iterations (the theorems hold for every bound). -/
def cascade : Nat → Fib → Nat → Fib
  | 0, s, _ => s
  | f + 1, s, n =>
    match s.parent n with
    | none => s
    | some p => if !(s.mark p) then { s with mark := set s.mark p true } else cascade f (cut s n) p

/-- the first part of `increase(handle)` (used by datastructures/fmfibheap.hpp:80): the node is cut if its parent has lower priority -/
def raise (g : Grid F) (fuel : Nat) (s : Fib) (x : Nat) : Fib :=
  match s.parent x with
  | none => s
  | some p => if low g s p x then cascade fuel (cut s x) p else s

/-- `increase(handle)` (datastructures/fmfibheap.hpp:80) for the node `x` -/
def increase (g : Grid F) (fuel : Nat) (s : Fib) (x : Nat) : Fib :=
  let s1 := raise g fuel s x
  match s1.top with
  | none => s1
  | some t => if low g s1 t x then { s1 with top := some x } else s1

/-- the loser `o` of a comparison becomes the last child of the winner `n` (part of `consolidate`, used by datastructures/fmfibheap.hpp:59) -/
def link (s : Fib) (n o : Nat) : Fib :=
  let s1 := match s.parent o with
    | some p => { s with children := set s.children p ((s.children p).erase o) }
    | none => { s with roots := s.roots.erase o }
  { s1 with children := set s1.children n (s1.children n ++ [o]), parent := set s1.parent o (some n) }

/-- the inner loop of `consolidate` (used by datastructures/fmfibheap.hpp:59): link `n` with the root of the same number of children in `aux`, if there is one, and go on
with the winner; the first argument bounds the number of iterations (the theorems hold for every bound). -/
def merge (g : Grid F) : Nat → Fib → (Nat → Option Nat) → Nat → Fib × (Nat → Option Nat) × Nat
  | 0, s, aux, n => (s, aux, n)
  | f + 1, s, aux, n =>
    let rank := (s.children n).length
    match aux rank with
    | none => (s, set aux rank (some n), n)
    | some other =>
      let (n', o) := if low g s n other then (other, n) else (n, other)
      merge g f (link s n' o) (set aux rank none) n'

/-- the body of the outer loop of `consolidate` for the root `n` (used by datastructures/fmfibheap.hpp:59) -/
def visit (g : Grid F) (fuel : Nat) (st : Fib × (Nat → Option Nat)) (n : Nat) : Fib × (Nat → Option Nat) :=
  let (s, aux, m) := merge g fuel st.1 st.2 n
  match s.top with
  | none => (s, aux)
  | some t => (if !(low g s m t) then { s with top := some m } else s, aux)

/-- `consolidate()` (used by datastructures/fmfibheap.hpp:59): the iterator over `roots` is advanced before roots are linked, and only roots it has passed are linked, so it
visits the roots there were at the beginning. -/
def consolidate (g : Grid F) (fuel : Nat) (s : Fib) : Fib :=
  match s.roots with
  | [] => s
  | r :: rs => ((r :: rs).foldl (visit g fuel) ({ s with top := some r }, fun _ => none)).1

/-- `pop()` (datastructures/fmfibheap.hpp:59): the top leaves the roots, its children become the last roots, and the roots are consolidated. -/
def pop (g : Grid F) (fuel : Nat) (s : Fib) : Fib :=
  match s.top with
  | none => s
  | some t =>
    let s1 : Fib := { s with roots := s.roots.erase t ++ s.children t, parent := (s.children t).foldl (fun f c => set f c none) s.parent,
                             children := set s.children t [], count := s.count - 1 }
    if s1.count ≠ 0 then consolidate g fuel s1 else { s1 with top := none }

end Fib

/-- `FMFibHeap` (datastructures/fmfibheap.hpp:96-102): the heap, `handles_` (a total function, of which only indices below `hsize` exist), and the number of nodes
created so far.  `bad` records an access outside `handles_` or through a handle whose node has left the heap. -/
structure FHeap where
  s : Fib
  handles : Nat → Nat
  hsize : Nat
  fresh : Nat
  bad : Bool

namespace FHeap

/-- `FMFibHeap()` and `setMaxSize(n)` (datastructures/fmfibheap.hpp:37,44-47) -/
def new (n : Nat) : FHeap := ⟨Fib.empty, fun _ => 0, n, 0, false⟩

/-- `setMaxSize(n)` (datastructures/fmfibheap.hpp:44-47) -/
def setMaxSize (h : FHeap) (n : Nat) : FHeap := { h with hsize := n }

/-- `push(c)` (datastructures/fmfibheap.hpp:50-53) -/
def push (g : Grid F) (h : FHeap) (c : Nat) : FHeap :=
  { h with
    s := Fib.push g h.s h.fresh c
    handles := fun k => if k = c then h.fresh else h.handles k
    fresh := h.fresh + 1
    bad := h.bad || !decide (c < h.hsize) }

/-- `increase(c)` (datastructures/fmfibheap.hpp:78-81): the value of the node is replaced by `c` and the node moves towards the top. -/
def increase (g : Grid F) (h : FHeap) (c : Nat) : FHeap :=
  if h.s.live (h.handles c) then
    { h with
      s := Fib.increase g h.fresh { h.s with cell := Fib.set h.s.cell (h.handles c) c } (h.handles c)
      bad := h.bad || !decide (c < h.hsize) }
  else { h with bad := true }

/-- `popMinIdx()` (datastructures/fmfibheap.hpp:56-61) -/
def popMinIdx (g : Grid F) (h : FHeap) : Nat × FHeap :=
  match h.s.top with
  | none => (0, { h with bad := true })
  | some t => (h.s.cell t, { h with s := Fib.pop g h.fresh h.s })

/-- `empty()` (datastructures/fmfibheap.hpp:91-94) -/
def empty (h : FHeap) : Bool := h.s.count == 0

/-- `clear()` (datastructures/fmfibheap.hpp:84-88): the heap and `handles_` are emptied. -/
def clear (h : FHeap) : FHeap := { h with s := { Fib.empty with cell := h.s.cell }, hsize := 0 }

/-- `FMFibHeap` as the narrow band of FMM (fm/fmm.hpp:64). -/
def band : Band F FHeap := ⟨push, increase, popMinIdx, empty⟩

end FHeap
end FMV
