import Verif.Model.FMM
/-
Model of `GMM` (include/fast_methods/fm/gmm.hpp).
-/
namespace FMV
open Arith
variable {F : Type} [Arith F]
namespace GMM

/-- State of `computeInternal`: the grid; `gamma_` during the second pass, split into the elements already passed and kept (`kept`), those
still to be visited (`rest`) and those appended during this pass (`app`); `tm_`; `stopWavePropagation`.  Control is at the head of the loop
of the second pass (fm/gmm.hpp:115); when `rest` is empty the condition of the `while` loop (fm/gmm.hpp:86) is evaluated next. -/
structure St (F : Type) where
  g : Grid F
  kept : List Nat
  rest : List Nat
  app : List Nat
  tm : F
  stop : Bool

/-- `gamma_` -/
def St.gamma (s : St F) : List Nat := s.kept ++ s.rest ++ s.app

/-- Loop over the neighbours of an initial point (fm/gmm.hpp:67-81). -/
def initNbr (eik : Eik F) (s : Grid F × List Nat × F) (j : Nat) : Grid F × List Nat × F :=
  if s.1.state j = .frozen ∨ s.1.occ j = true then s
  else
    let t := (eik s.1 j).1
    (((s.1.setScratch (eik s.1 j).2).setValue j t).setState j .narrow, s.2.1 ++ [j], if lt t s.2.2 then t else s.2.2)

/-- Body of the initialisation loop (fm/gmm.hpp:63-82). -/
def initPoint (eik : Eik F) (s : Grid F × List Nat × F) (i : Nat) : Grid F × List Nat × F :=
  (s.1.shape.nbrs i).foldl (initNbr eik) ((s.1.setValue i zero).setState i .frozen, s.2)

/-- Initialisation of `computeInternal` (fm/gmm.hpp:61-82); `gamma0` is what `gamma_` contains on entry. -/
def init (eik : Eik F) (g : Grid F) (gamma0 pts : List Nat) : St F :=
  let p := pts.foldl (initPoint eik) (g, gamma0, inf)
  { g := p.1, kept := p.2.1, rest := [], app := [], tm := p.2.2, stop := false }

/-- `j` is skipped: "If Frozen, obstacle or velocity = 0" (fm/gmm.hpp:103 and 121). -/
def Skip (g : Grid F) (j : Nat) : Prop := g.state j = .frozen ∨ g.occ j = true ∨ Arith.eq (g.vel j) zero = true

instance (g : Grid F) (j : Nat) : Decidable (Skip g j) := inferInstanceAs (Decidable (_ ∨ _ ∨ _))

/-- "Updating narrow band if necessary" (fm/gmm.hpp:106-108 and 124-127). -/
def lower (eik : Eik F) (g : Grid F) (j : Nat) : Grid F :=
  let g1 := g.setScratch (eik g j).2
  if lt (eik g j).1 (g.value j) then g1.setValue j (eik g j).1 else g1

/-- Loop over the neighbours in the first pass (fm/gmm.hpp:101-110). -/
def relax1 (eik : Eik F) (g : Grid F) (j : Nat) : Grid F := if Skip g j then g else lower eik g j

/-- First pass (fm/gmm.hpp:90-112), over `gamma_` in reverse order. -/
def pass1 (eik : Eik F) (tm : F) (gamma : List Nat) (g : Grid F) : Grid F :=
  gamma.reverse.foldl (fun g x => if le (g.value x) tm then (g.shape.nbrs x).foldl (relax1 eik) g else g) g

/-- Loop over the neighbours in the second pass (fm/gmm.hpp:119-133). -/
def relax2 (eik : Eik F) (s : St F) (j : Nat) : St F :=
  if Skip s.g j then s
  else
    let g1 := lower eik s.g j
    if g1.state j = .opn then { s with g := g1.setState j .narrow, app := s.app ++ [j] } else { s with g := g1 }

/-- One iteration of the second pass (fm/gmm.hpp:116-140) for the element `x`. -/
def visit (goal : Nat) (eik : Eik F) (s : St F) (x : Nat) (rest : List Nat) : St F :=
  if le (s.g.value x) s.tm then
    let s1 := (s.g.shape.nbrs x).foldl (relax2 eik) s
    { s1 with g := s1.g.setState x .frozen, rest := rest, stop := if x = goal then true else s1.stop }
  else { s with kept := s.kept ++ [x], rest := rest }

/-- The `while` loop has been left (fm/gmm.hpp:86). -/
def Done (s : St F) : Prop := s.rest = [] ∧ (s.stop = true ∨ s.gamma = [])

/-- Start of an iteration of the `while` loop: `tm_ += deltau_` and the first pass (fm/gmm.hpp:88-115); `dt` is `deltau_`. -/
def begin (dt : F) (eik : Eik F) (s : St F) : St F :=
  let tm := add s.tm dt
  { s with g := pass1 eik tm s.gamma s.g, kept := [], rest := s.gamma, app := [], tm := tm }

/-- The next state. -/
def next (dt : F) (goal : Nat) (eik : Eik F) (s : St F) : St F :=
  match s.rest with
  | x :: rest => visit goal eik s x rest
  | [] => begin dt eik s

/-- One transition. -/
def Step (dt : F) (goal : Nat) (eik : Eik F) (s s' : St F) : Prop := ¬ Done s ∧ s' = next dt goal eik s

/-- `deltau_` after `setup()` (fm/gmm.hpp:43-52). -/
def deltau (dt : F) (g : Grid F) : F := if lt dt zero then div one g.getMaxSpeed else dt

end GMM
end FMV
