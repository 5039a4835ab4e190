import Verif.Model.FIM
import Verif.Model.GMM
/-
The list iterators of `FIM` and `GMM` (include/fast_methods/fm/fim.hpp:74-96, gmm.hpp:90-140), in two readings: that of the C++ standard, in which an iterator must not be moved before the first element
or behind `end()`, and that of a circular list with one extra node for `end()`, as in libstdc++ and libc++.
-/
namespace FMV
open Arith
variable {F : Type} [Arith F]

namespace ListIter

/-- A `std::list<unsigned int>` with an iterator into it (fim.hpp:74, gmm.hpp:90-96): the elements before the iterator and those from it on; none from it on for `end()`. -/
structure It where
  before : List Nat
  after : List Nat
deriving DecidableEq

/-- `begin()` (fim.hpp:74, gmm.hpp:117) -/
def It.first (l : List Nat) : It := ⟨[], l⟩

/-- `end()` (fim.hpp:74; `gamma_.rbegin().base()`, gmm.hpp:90-91) -/
def It.last (l : List Nat) : It := ⟨l, []⟩

/-- `*it` (fim.hpp:75, gmm.hpp:100) -/
def It.deref (i : It) : Option Nat := i.after.head?

/-- `--it` (fim.hpp:95, gmm.hpp:92,95,99): from `begin()` undefined, or to `end()` if the list is circular -/
def It.dec (circ : Bool) (i : It) : Option It :=
  match i.before.getLast? with
  | some x => some ⟨i.before.dropLast, x :: i.after⟩
  | none => if circ then some (It.last i.after) else none

/-- `++it` (fim.hpp:74, gmm.hpp:139): from `end()` undefined, or to `begin()` if the list is circular -/
def It.inc (circ : Bool) (i : It) : Option It :=
  match i.after with
  | x :: a => some ⟨i.before ++ [x], a⟩
  | [] => if circ then some (It.first i.before) else none

/-- `erase(it)` (fim.hpp:94, gmm.hpp:136): gives the iterator to the next element -/
def It.erase (i : It) : Option It :=
  match i.after with
  | _ :: a => some ⟨i.before, a⟩
  | [] => none

/-- `insert(it, y)` (fim.hpp:87): the iterator stays on its element -/
def It.insert (i : It) (y : Nat) : It := ⟨i.before ++ [y], i.after⟩

/-- `push_back(y)` (gmm.hpp:129): the iterator stays on its element; it is not `end()` there -/
def It.pushBack (i : It) (y : Nat) : It := ⟨i.before, i.after ++ [y]⟩

end ListIter

namespace FIM
open ListIter

/-- Body of the loop over the neighbours of a converged cell (fm/fim.hpp:80-90), with the iterator. -/
def testNbrIt (eik : Eik F) (s : Grid F × It) (n : Nat) : Grid F × It :=
  if s.1.state n = .narrow ∨ s.1.occ n = true then s
  else
    let t := (eik s.1 n).1
    let g := s.1.setScratch (eik s.1 n).2
    if better t (s.1.value n) then ((g.setValue n t).setState n .narrow, s.2.insert n) else (g, s.2)

/-- The body of the `for` loop and its `++x` (fm/fim.hpp:74-97) for the iterator `x`; `none` is undefined behaviour. -/
def bodyIt (circ : Bool) (E : F) (goal : Nat) (eik : Eik F) (s : Grid F × It × Bool) : Option (Grid F × It × Bool) := do
  let x ← s.2.1.deref
  let p := s.1.value x
  let q := (eik s.1 x).1
  let g1 := (s.1.setScratch (eik s.1 x).2).setValue x q
  if le (abs (sub p q)) E then
    let r := (g1.shape.nbrs x).foldl (testNbrIt eik) (g1, s.2.1)
    let x1 ← r.2.erase
    let x2 ← x1.dec circ
    let x3 ← x2.inc circ
    some (r.1.setState x .frozen, x3, if x = goal then true else s.2.2)
  else
    let x3 ← s.2.1.inc circ
    some (g1, x3, s.2.2)

end FIM

namespace GMM
open ListIter

/-- The iterators `i` and `q` before the first pass (fm/gmm.hpp:90-95) -/
def firstIts (circ : Bool) (gamma : List Nat) : Option (It × It) := do
  let i ← (It.last gamma).dec circ
  let q ← (It.first gamma).dec circ
  some (i, q)

/-- The loop of the first pass (fm/gmm.hpp:99-112), `f` being its body: from the iterator `i` it reaches `q`. -/
inductive Walk (circ : Bool) (f : Grid F → Nat → Grid F) (q : It) : It → Grid F → Grid F → Prop
  | done (g) : Walk circ f q q g g
  | step {i i' x g g'} : i ≠ q → i.deref = some x → i.dec circ = some i' → Walk circ f q i' (f g x) g' → Walk circ f q i g g'

/-- Loop over the neighbours in the second pass (fm/gmm.hpp:119-133), with the iterator. -/
def relax2It (eik : Eik F) (s : Grid F × It) (j : Nat) : Grid F × It :=
  if Skip s.1 j then s
  else
    let g1 := lower eik s.1 j
    if g1.state j = .opn then (g1.setState j .narrow, s.2.pushBack j) else (g1, s.2)

/-- One iteration of the second pass (fm/gmm.hpp:118-140) for the iterator `i`; `none` is undefined behaviour. -/
def visitIt (circ : Bool) (goal : Nat) (eik : Eik F) (tm : F) (s : Grid F × It × Bool) : Option (Grid F × It × Bool) := do
  let x ← s.2.1.deref
  if le (s.1.value x) tm then
    let r := (s.1.shape.nbrs x).foldl (relax2It eik) (s.1, s.2.1)
    let i ← r.2.erase
    some (r.1.setState x .frozen, i, if x = goal then true else s.2.2)
  else
    let i ← s.2.1.inc circ
    some (s.1, i, s.2.2)

end GMM
end FMV
