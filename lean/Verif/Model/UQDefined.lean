import Verif.Model.UQ
/-
Which conversions `static_cast<unsigned>(floor(x))` a run of UFMM performs, and when they are all defined by the C++ standard (the value is in the range of
`unsigned`).  Model of thirdparty/untidy_queue.hpp:107 and 180 and of the calls that reach these lines.
-/
namespace FMV
open Arith
variable {F : Type} [Arith F]

/-- the conversion performed to find the bucket of key `t` (thirdparty/untidy_queue.hpp:107 and 180) is defined -/
def UQ.convDefined (q : UQ F) (t : F) : Prop := (floorU32 (div (mul (sub t q.t0) (ofNat q.size)) q.incMax)).isSome = true

namespace UFMM

/-- `push` converts only when the queue is not empty (thirdparty/untidy_queue.hpp:91-107) -/
def pushDefined (s : St F) (i : Nat) : Prop := s.q.nb = 0 ∨ s.q.convDefined (s.g.value i)

/-- `increase_priority` always converts (thirdparty/untidy_queue.hpp:180) -/
def increaseDefined (s : St F) (i : Nat) : Prop := s.q.convDefined (s.g.value i)

/-- the visit of neighbour `j` (fm/ufmm.hpp:74-92) performs no undefined conversion -/
def relaxDefined (eik : Eik F) (s : St F) (j : Nat) : Prop :=
  if s.g.state j = .frozen ∨ s.g.occ j = true then True
  else
    let t := (eik s.g j).1
    let g := s.g.setScratch (eik s.g j).2
    if s.g.state j = .narrow then
      if better t (s.g.value j) then increaseDefined { s with g := g.setValue j t } j else True
    else pushDefined { s with g := (g.setState j .narrow).setValue j t } j

/-- every call `f s j` of a loop over `l` that starts in `s` satisfies `P` -/
def allDefined (P : St F → Nat → Prop) (f : St F → Nat → St F) : St F → List Nat → Prop
  | _, [] => True
  | s, j :: l => P s j ∧ allDefined P f (f s j) l

/-- the initialisation (fm/ufmm.hpp:62-65) performs no undefined conversion -/
def initDefined (g : Grid F) (q : UQ F) (pts : List Nat) : Prop :=
  allDefined (fun s i => pushDefined { s with g := s.g.setValue i zero } i) (fun s i => push { s with g := s.g.setValue i zero } i)
    { g := g, q := q, stop := false } pts

/-- One iteration of the main loop (fm/ufmm.hpp:69-96) that performs no undefined conversion. -/
def DStep (goal : Nat) (eik : Eik F) (s s' : St F) : Prop :=
  Step goal eik s s' ∧ ∀ x, s.q.top.2 = some x →
    allDefined (relaxDefined eik) (relax eik) { s with q := s.q.top.1, g := s.g.setState x .frozen } (s.g.shape.nbrs x)

end UFMM
end FMV
