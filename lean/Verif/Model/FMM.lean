import Verif.Model.Eikonal
/-
Model of `FMM` / `SFMM` / `FMMStar` / `SFMMStar`
(include/fast_methods/fm/{fmm.hpp,sfmm.hpp,fmmstar.hpp,sfmmstar.hpp}) and of the narrow band
(include/fast_methods/datastructures/{fmdaryheap.hpp,fmfibheap.hpp,fmpriorityqueue.hpp,fmcompare.hpp}).

The Boost heaps are modelled as the bag (list) of the cell indices they contain; which element is on top is decided by the
`pick` argument of the step relation.
-/
namespace FMV
open Arith
variable {F : Type} [Arith F]

/-- `enum HeurStrategy {NOHEUR = 0, TIME, DISTANCE}` (fm/fmm.hpp:62). -/
inductive Heur where
  | none | time | distance
deriving DecidableEq, Repr

namespace FMM

/-- Parameters of a run: `dup` is true for `FMPriorityQueue` (SFMM), whose `increase` pushes again
(datastructures/fmpriorityqueue.hpp:57-60) instead of moving the element; `heur` is `heurStrategy_`;
`hdist` is `getPrecomputedDistance` (fm/fmm.hpp:204-217); `goal` is `goal_idx_`. -/
structure Cfg (F : Type) where
  dup : Bool
  heur : Heur
  hdist : Nat → F
  goal : Nat

/-- State of the main loop: grid, content of `narrow_band_`, `stopWavePropagation`. -/
structure St (F : Type) where
  g : Grid F
  heap : List Nat
  stop : Bool

/-- "Include heuristics if necessary" (fm/fmm.hpp:104-107 and 125-128). -/
def applyHeur (cfg : Cfg F) (g : Grid F) (i : Nat) : Grid F :=
  match cfg.heur with
  | .none => g
  | .time => g.setH i (div (cfg.hdist i) (g.vel i))
  | .distance => g.setH i (cfg.hdist i)

/-- Body of the initialisation loop (fm/fmm.hpp:101-109). -/
def initPoint (cfg : Cfg F) (s : St F) (i : Nat) : St F :=
  { s with g := applyHeur cfg (s.g.setValue i zero) i, heap := i :: s.heap }

/-- Initialisation of `computeInternal` (fm/fmm.hpp:95-109): `heap0` is what the narrow band contains on
entry (nothing, unless a goal-stopped run is repeated without `reset`). -/
def init (cfg : Cfg F) (g : Grid F) (heap0 : List Nat) (pts : List Nat) : St F :=
  pts.foldl (initPoint cfg) { g := g, heap := heap0, stop := false }

/-- Body of the loop over the neighbours (fm/fmm.hpp:117-143). -/
def relax (cfg : Cfg F) (eik : Eik F) (s : St F) (j : Nat) : St F :=
  if s.g.state j = .frozen ∨ s.g.occ j = true then s
  else
    let t := (eik s.g j).1
    let g := applyHeur cfg (s.g.setScratch (eik s.g j).2) j
    if s.g.state j = .narrow then
      if better t (s.g.value j) then
        { s with g := g.setValue j t, heap := if cfg.dup then j :: s.heap else s.heap }
      else { s with g := g }
    else
      { s with g := (g.setState j .narrow).setValue j t, heap := j :: s.heap }

/-- Body of the main loop (fm/fmm.hpp:113-147) after `popMinIdx` returned `x`. -/
def expand (cfg : Cfg F) (eik : Eik F) (s : St F) (x : Nat) : St F :=
  let s1 : St F := { s with g := s.g.setState x .frozen, heap := s.heap.erase x }
  let s2 := (s.g.shape.nbrs x).foldl (relax cfg eik) s1
  { s2 with stop := if x = cfg.goal then true else s2.stop }

/-- The loop condition `!stopWavePropagation && !narrow_band_.empty()` (fm/fmm.hpp:113) fails. -/
def Done (s : St F) : Prop := s.stop = true ∨ s.heap = []

instance (s : St F) : Decidable (Done s) := inferInstanceAs (Decidable (_ ∨ _))

/-- A deterministic run of the loop (fm/fmm.hpp:113-147): `pick` is the heap's choice (with its tie-breaking), `eik` the local
solver; at most `n` iterations. -/
def run (pick : Grid F → List Nat → Nat) (cfg : Cfg F) (eik : Eik F) : Nat → St F → St F
  | 0, s => s
  | n + 1, s =>
    let t := run pick cfg eik n s
    if Done t then t else expand cfg eik t (pick t.g t.heap)

/-- One iteration with *any* element popped and *any* outcome of the local solver: it covers every heap order, every
floating-point semantics and the scratch-buffer effects of `getMinValueInDim`. -/
def StepAny (cfg : Cfg F) (s s' : St F) : Prop :=
  ¬ Done s ∧ ∃ (eik : Eik F) (x : Nat), x ∈ s.heap ∧ s' = expand cfg eik s x

/-- `x` may be on top of the heap: no stored element has a smaller total value (`FMCompare`,
datastructures/fmcompare.hpp:33-38). -/
def IsTop (s : St F) (x : Nat) : Prop :=
  x ∈ s.heap ∧ ∀ y ∈ s.heap, lt (s.g.cells y).total (s.g.cells x).total = false

/-- One iteration with a correctly ordered heap and the library's local solver. -/
def StepMin (cfg : Cfg F) (s s' : St F) : Prop :=
  ¬ Done s ∧ ∃ x, IsTop s x ∧ s' = expand cfg eikS s x

/-- One iteration with any element popped but the library's local solver. -/
def StepLib (cfg : Cfg F) (s s' : St F) : Prop :=
  ¬ Done s ∧ ∃ x, x ∈ s.heap ∧ s' = expand cfg eikS s x

theorem StepMin.lib {cfg : Cfg F} {s s' : St F} (h : StepMin cfg s s') : StepLib cfg s s' := by
  obtain ⟨h1, x, h2, h3⟩ := h
  exact ⟨h1, x, h2.1, h3⟩

theorem StepLib.any {cfg : Cfg F} {s s' : St F} (h : StepLib cfg s s') : StepAny cfg s s' := by
  obtain ⟨h1, x, h2, h3⟩ := h
  exact ⟨h1, eikS, x, h2, h3⟩

theorem StepMin.any {cfg : Cfg F} {s s' : St F} (h : StepMin cfg s s') : StepAny cfg s s' := by
  obtain ⟨h1, x, h2, h3⟩ := h
  exact ⟨h1, eikS, x, h2.1, h3⟩

/-- `n` iterations of a step relation. -/
inductive Steps {S : Type} (step : S → S → Prop) : Nat → S → S → Prop
  | refl (s) : Steps step 0 s s
  | tail {n s t u} : Steps step n s t → step t u → Steps step (n+1) s u

theorem Steps.mono {S : Type} {r r' : S → S → Prop} (h : ∀ s t, r s t → r' s t) {n s t} (hs : Steps r n s t) :
    Steps r' n s t := by
  induction hs with
  | refl => exact .refl _
  | tail _ h2 ih => exact .tail ih (h _ _ h2)

/-- Induction principle: an invariant holds in every state reached. -/
theorem Steps.inv {S : Type} {r : S → S → Prop} {I : S → Prop} (hstep : ∀ s t, I s → r s t → I t) {n s t}
    (hs : Steps r n s t) (h0 : I s) : I t := by
  induction hs with
  | refl => exact h0
  | tail _ h2 ih => exact hstep _ _ (ih h0) h2

end FMM
end FMV
