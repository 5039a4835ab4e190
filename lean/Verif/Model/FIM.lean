import Verif.Model.FMM
/-
Model of `FIM` (include/fast_methods/fm/fim.hpp).
-/
namespace FMV
open Arith
variable {F : Type} [Arith F]
namespace FIM

/-- State of `computeInternal`: the grid, `active_list_` split at the iterator `x` (`before` = the elements before it, `after` = the
elements from it to the end), `stopWavePropagation`.  Control is at the head of the `for` loop (fm/fim.hpp:74); when `after` is empty the
next thing evaluated is the condition of the `while` loop (fm/fim.hpp:73). -/
structure St (F : Type) where
  g : Grid F
  before : List Nat
  after : List Nat
  stop : Bool

/-- Loop over the neighbours of an initial point (fm/fim.hpp:63-69). -/
def initNbr (s : Grid F × List Nat) (n : Nat) : Grid F × List Nat :=
  if s.1.state n = .opn ∧ s.1.occ n = false then (s.1.setState n .narrow, s.2 ++ [n]) else s

/-- Body of the initialisation loop (fm/fim.hpp:57-70). -/
def initPoint (s : Grid F × List Nat) (i : Nat) : Grid F × List Nat :=
  (s.1.shape.nbrs i).foldl initNbr ((s.1.setValue i zero).setState i .frozen, s.2)

/-- Initialisation of `computeInternal` (fm/fim.hpp:55-70); `act0` is what `active_list_` contains on entry. -/
def init (g : Grid F) (act0 pts : List Nat) : St F :=
  let p := pts.foldl initPoint (g, act0)
  { g := p.1, before := p.2, after := [], stop := false }

/-- Body of the loop over the neighbours of a converged cell (fm/fim.hpp:80-90).  `active_list_.insert(x, x_nb)` puts the new element just
before the iterator, i.e. at the end of `before`. -/
def testNbr (eik : Eik F) (s : St F) (n : Nat) : St F :=
  if s.g.state n = .narrow ∨ s.g.occ n = true then s
  else
    let t := (eik s.g n).1
    let g := s.g.setScratch (eik s.g n).2
    if better t (s.g.value n) then { s with g := (g.setValue n t).setState n .narrow, before := s.before ++ [n] }
    else { s with g := g }

/-- Body of the `for` loop (fm/fim.hpp:75-96) with `*x` the first element of `x :: rest`; `E` is `E_`.
`x = active_list_.erase(x); --x;` followed by `++x` is modelled as moving to the element after the erased one: that is what the circular lists
of libstdc++ and libc++ do, although decrementing `begin()` is undefined by the standard. -/
def visit (E : F) (goal : Nat) (eik : Eik F) (s : St F) (x : Nat) (rest : List Nat) : St F :=
  let p := s.g.value x
  let q := (eik s.g x).1
  let s1 : St F := { s with g := (s.g.setScratch (eik s.g x).2).setValue x q }
  if le (abs (sub p q)) E then
    let s2 := (s1.g.shape.nbrs x).foldl (testNbr eik) s1
    { s2 with g := s2.g.setState x .frozen, after := rest, stop := if x = goal then true else s2.stop }
  else { s1 with before := s1.before ++ [x], after := rest }

/-- The `while` loop has been left (fm/fim.hpp:73). -/
def Done (s : St F) : Prop := s.after = [] ∧ (s.stop = true ∨ s.before = [])

/-- The next state: one iteration of the `for` loop, or the start of the next pass over the list. -/
def next (E : F) (goal : Nat) (eik : Eik F) (s : St F) : St F :=
  match s.after with
  | x :: rest => visit E goal eik s x rest
  | [] => { s with after := s.before, before := [] }

/-- One transition. -/
def Step (E : F) (goal : Nat) (eik : Eik F) (s s' : St F) : Prop := ¬ Done s ∧ s' = next E goal eik s

end FIM
end FMV
