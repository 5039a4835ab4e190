import Verif.Model.FSM
/-
Model of `DDQM` (include/fast_methods/fm/ddqm.hpp).
-/
namespace FMV
open Arith
variable {F : Type} [Arith F]
namespace DDQM

/-- State of `computeInternal`: the grid, `queues_[0]` and `queues_[1]` (front first), `lq` (false = 0), `stopPropagation`, `counts`,
`threshold_`, `thStep_`; `inner` tells whether control is at the head of the inner loop (fm/ddqm.hpp:96) or of the outer one
(fm/ddqm.hpp:95). -/
structure St (F : Type) where
  g : Grid F
  q0 : List Nat
  q1 : List Nat
  lq : Bool
  stop : Bool
  c0 : Nat
  c1 : Nat
  threshold : F
  thStep : F
  inner : Bool

/-- `queues_[lq]` -/
def St.low (s : St F) : List Nat := if s.lq then s.q1 else s.q0
/-- `queues_[(lq+1)%2]` -/
def St.high (s : St F) : List Nat := if s.lq then s.q0 else s.q1
/-- replace `queues_[lq]` -/
def St.setLow (s : St F) (q : List Nat) : St F := if s.lq then { s with q1 := q } else { s with q0 := q }
/-- replace `queues_[(lq+1)%2]` -/
def St.setHigh (s : St F) (q : List Nat) : St F := if s.lq then { s with q0 := q } else { s with q1 := q }

/-- `thStep_` set by `setEnvironment` (fm/ddqm.hpp:47-52); `threshold_` gets the same value. -/
def thStepEnv (g : Grid F) : F := div (mul (ofRat 3 2) g.leaf) g.getAvgSpeed
/-- `thStep_` set by `reset` (fm/ddqm.hpp:158-160): not the same formula. -/
def thStepReset (g : Grid F) : F := div (ofRat 3 2) (div one (mul g.getAvgSpeed g.leaf))

/-- Loop over the neighbours of an initial point (fm/ddqm.hpp:80-85). -/
def initNbr (s : Grid F × List Nat) (n : Nat) : Grid F × List Nat :=
  if s.1.occ n then s else (s.1.setState n .opn, s.2 ++ [n])

/-- Body of the initialisation loop (fm/ddqm.hpp:77-86). -/
def initPoint (s : Grid F × List Nat) (i : Nat) : Grid F × List Nat :=
  (s.1.shape.nbrs i).foldl initNbr (s.1.setValue i zero, s.2)

/-- Initialisation of `computeInternal` (fm/ddqm.hpp:64-93) with empty queues; `th` and `ths` are the values of `threshold_` and `thStep_`
on entry. -/
def init (g : Grid F) (pts : List Nat) (th ths : F) : St F :=
  let p := pts.foldl initPoint (FSM.allState .frozen g, [])
  { g := p.1, q0 := p.2, q1 := [], lq := false, stop := false, c0 := 0, c1 := 0, threshold := th, thStep := ths, inner := false }

/-- Body of the loop over the neighbours (fm/ddqm.hpp:105-117); `t` is `newT`.  The counters are 64-bit. -/
def openNbr (t : F) (s : St F) (n : Nat) : St F :=
  if s.g.state n = .frozen then
    if better t (s.g.value n) then
      let s1 : St F := { s with g := s.g.setState n .opn, c1 := (s.c1 + 1) % 2^64 }
      if better t s.threshold then
        let s2 := s1.setLow (s1.low ++ [n])
        { s2 with c0 := (s2.c0 + 1) % 2^64 }
      else s1.setHigh (s1.high ++ [n])
    else s
  else s

/-- Body of the inner loop (fm/ddqm.hpp:97-125) for `queues_[lq] = idx :: rest`. -/
def popBody (goal : Nat) (eik : Eik F) (s : St F) (idx : Nat) (rest : List Nat) : St F :=
  let s1 := s.setLow rest
  if s1.g.occ idx then s1
  else
    let t := (eik s1.g idx).1
    let s2 : St F := { s1 with g := s1.g.setScratch (eik s1.g idx).2 }
    let s3 : St F :=
      if better t (s2.g.value idx) then
        (s2.g.shape.nbrs idx).foldl (openNbr t) { s2 with g := s2.g.setValue idx t }
      else s2
    { s3 with g := s3.g.setState idx .frozen, stop := if idx = goal then true else s3.stop }

/-- `lq = (lq+1)%2; increaseThreshold(counts)` (fm/ddqm.hpp:127-128, 133-148). -/
def turn (s : St F) : St F :=
  let pct : F := if s.c1 ≠ 0 then div (ofNat s.c0) (ofNat s.c1) else one
  let ths : F := if le pct (ofRat 65 100) then mul s.thStep (ofRat 3 2)
    else if le (ofRat 75 100) pct then div s.thStep (ofRat 2 1) else s.thStep
  { s with lq := !s.lq, thStep := ths, threshold := add s.threshold ths, c0 := 0, c1 := 0, inner := false }

/-- The algorithm has left the outer loop (fm/ddqm.hpp:95). -/
def Done (s : St F) : Prop := s.inner = false ∧ (s.stop = true ∨ (s.q0 = [] ∧ s.q1 = []))

/-- The next state: entering the inner loop, one iteration of it, or leaving it. -/
def next (goal : Nat) (eik : Eik F) (s : St F) : St F :=
  if s.inner then
    match s.stop, s.low with
    | false, idx :: rest => popBody goal eik s idx rest
    | _, _ => turn s
  else { s with inner := true }

/-- One transition. -/
def Step (goal : Nat) (eik : Eik F) (s s' : St F) : Prop := ¬ Done s ∧ s' = next goal eik s

end DDQM
end FMV
