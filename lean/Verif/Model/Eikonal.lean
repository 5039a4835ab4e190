import Verif.Model.Grid
/-
Model of `EikonalSolver::solveEikonal` (include/fast_methods/fm/eikonalsolver.hpp).
-/
namespace FMV
open Arith
variable {F : Type} [Arith F]

/-- Insertion into a sorted list, used for `std::sort`. -/
def insertF (x : F) : List F → List F
  | [] => [x]
  | y :: ys => if lt y x then y :: insertF x ys else x :: y :: ys

/-- `std::sort(Tvalues_.begin(), Tvalues_.end())` (fm/eikonalsolver.hpp:66).
`std::sort` is specified up to equivalent elements only; insertion sort is one such order (and
for values without NaN, equivalent doubles are equal up to the sign of zero). -/
def sortF : List F → List F
  | [] => []
  | x :: xs => insertF x (sortF xs)

/-- `solveEikonalNDims(idx, dim)` (fm/eikonalsolver.hpp:80-105); `ts` is `Tvalues_`, `h` the leaf
size, `v` the velocity of the cell. -/
def solveND (h v : F) (ts : List F) (dim : Nat) : F :=
  if dim = 1 then add (ts.headD zero) (div h v)
  else
    let sumT := (ts.take dim).foldl (fun s t => add s t) zero
    let sumTT := (ts.take dim).foldl (fun s t => add s (mul t t)) zero
    let a : F := ofNat dim
    let b := mul (ofRat (-2) 1) sumT
    let c := sub sumTT (div (mul h h) (mul v v))
    let quad := sub (mul b b) (mul (mul (ofRat 4 1) a) c)
    if lt quad zero then inf
    else div (add (neg b) (sqrt quad)) (mul (ofRat 2 1) a)

/-- The loop `for (i = 1; i <= a; ++i)` of `solveEikonal` (fm/eikonalsolver.hpp:68-74);
`r` = number of remaining iterations after this one (`a - i`). -/
def eikLoop (h v : F) (ts : List F) : Nat → Nat → F
  | i, 0 => solveND h v ts i
  | i, r + 1 =>
      let u := solveND h v ts i
      if lt (sub u (ts.getD i zero)) (margin : F) then u else eikLoop h v ts (i + 1) r

/-- The values collected in `Tvalues_` (fm/eikonalsolver.hpp:53-59). -/
def usable (g : Grid F) (idx : Nat) : List F :=
  ((List.range g.shape.ndims).map (g.minDim idx)).filter
    (fun t => !(isInf t) && lt t (g.value idx))

/-- The part of `solveEikonal` after `Tvalues_` has been collected (fm/eikonalsolver.hpp:61-74). -/
def solveList (h v : F) (ts : List F) : F :=
  match ts with
  | [] => inf
  | _ => eikLoop h v (sortF ts) 1 (ts.length - 1)

/-- `solveEikonal(idx)` (fm/eikonalsolver.hpp:48-75) with the pure `minDim`. -/
def solveEikonal (g : Grid F) (idx : Nat) : F :=
  solveList g.leaf (g.vel idx) (usable g idx)

/-- The collecting loop of `solveEikonal` (fm/eikonalsolver.hpp:53-59) over the dimensions `ds`,
with the stateful `getMinValueInDim`. -/
def collectS (idx : Nat) : List Nat → Grid F → List F → List F × Grid F
  | [], g, acc => (acc, g)
  | dim :: ds, g, acc =>
      let (m, g') := g.getMinValueInDimS idx dim
      collectS idx ds g' (if !(isInf m) && lt m (g'.value idx) then acc ++ [m] else acc)

/-- `solveEikonal(idx)` (fm/eikonalsolver.hpp:48-75), faithful version with the scratch buffer. -/
def solveEikonalS (g : Grid F) (idx : Nat) : F × Grid F :=
  let (ts, g') := collectS idx (List.range g.shape.ndims) g []
  (solveList g'.leaf (g'.vel idx) ts, g')

/-- A local solver as seen by the wave-propagation loops: the time `solveEikonal(idx)` returns in a given grid, and what it leaves in the
scratch buffer. -/
abbrev Eik (F : Type) := Grid F → Nat → F × (Nat × Nat)

/-- `EikonalSolver::solveEikonal` as a local solver (`solveEikonalS` changes nothing in the grid but the scratch buffer). -/
def eikS : Eik F := fun g i => ((solveEikonalS g i).1, (solveEikonalS g i).2.scratch)

end FMV
