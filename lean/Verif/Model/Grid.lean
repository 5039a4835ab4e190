import Verif.Model.Arith
/-
Model of `Cell`, `FMCell` and `nDGridMap<FMCell, ndims>`.
Sources: include/fast_methods/ndgridmap/{cell.h,fmcell.h,ndgridmap.hpp},
src/ndgridmap/{cell.cpp,fmcell.cpp}.
-/
namespace FMV
open Arith

/-- `enum class FMState` (ndgridmap/fmcell.h:33). -/
inductive FMState where
  | opn | narrow | frozen
deriving DecidableEq, Repr

/-- `FMCell` with the members inherited from `Cell` (ndgridmap/cell.h:63-71,
ndgridmap/fmcell.h:64-72). -/
structure Cell (F : Type) where
  /-- `value_`: arrival time -/
  value : F
  /-- `occupancy_`: velocity -/
  occupancy : F
  /-- `hValue_` -/
  hValue : F
  /-- `state_` -/
  state : FMState
  /-- `bucket_` -/
  bucket : Nat
  /-- `index_` -/
  index : Nat

variable {F : Type} [Arith F]

/-- `FMCell()` (ndgridmap/fmcell.h:41): infinite value, occupancy 1, OPEN, bucket 0, hValue 0.
`index_` is uninitialised in C++; `resize` always sets it, the model starts with 0. -/
def Cell.default : Cell F :=
  { value := inf, occupancy := one, hValue := zero, state := .opn, bucket := 0, index := 0 }

/-- `FMCell::setDefault` (src/ndgridmap/fmcell.cpp:30-37): occupancy and index are kept. -/
def Cell.setDefault (c : Cell F) : Cell F :=
  { c with value := inf, bucket := 0, hValue := zero, state := .opn }

/-- `Cell::isOccupied` (ndgridmap/cell.h:57-61). -/
def Cell.isOccupied (c : Cell F) : Bool := lt c.occupancy (margin : F)

/-- `FMCell::getTotalValue` (ndgridmap/fmcell.h:59). -/
def Cell.total (c : Cell F) : F := add c.value c.hValue

/-- The part of `nDGridMap` describing its geometry: `dimsize_`, `d_`, `ncells_`
(ndgridmap/ndgridmap.hpp:356,371,362). -/
structure Shape where
  dims : List Nat
  d : List Nat
  ncells : Nat
deriving DecidableEq, Repr

/-- The loop of `nDGridMap::resize` (ndgridmap/ndgridmap.hpp:82-86) computing `d_`;
`acc` is the running `ncells_`. -/
def partials (acc : Nat) : List Nat → List Nat
  | [] => []
  | x :: xs => u32 (acc * x) :: partials (u32 (acc * x)) xs

/-- `resize`, geometry part (ndgridmap/ndgridmap.hpp:80-86). -/
def Shape.mk' (dims : List Nat) : Shape :=
  { dims := dims, d := partials 1 dims, ncells := (partials 1 dims).getLastD 1 }

/-- Number of dimensions (template parameter `ndims`). -/
def Shape.ndims (s : Shape) : Nat := s.dims.length

/-- `nDGridMap<FMCell,ndims>` (ndgridmap/ndgridmap.hpp:351-382).
Simplification: the `std::vector` `cells_` is a total function of the index, of which only
indices below `ncells` are meaningful.  `scratch` is the member array `n_`. -/
structure Grid (F : Type) where
  shape : Shape
  leaf : F
  clean : Bool
  cells : Nat → Cell F
  occupied : List Nat
  scratch : Nat × Nat

namespace Grid

/-- Write access to one cell: `grid_->getCell(i).setXxx(...)` (ndgridmap/ndgridmap.hpp:110-113). -/
def modify (g : Grid F) (i : Nat) (f : Cell F → Cell F) : Grid F :=
  { g with cells := fun k => if k = i then f (g.cells k) else g.cells k }

/-- `getCell(i).setArrivalTime(v)` (ndgridmap/fmcell.h:46). -/
def setValue (g : Grid F) (i : Nat) (v : F) : Grid F := g.modify i (fun c => { c with value := v })
/-- `getCell(i).setState(s)` (ndgridmap/fmcell.h:48). -/
def setState (g : Grid F) (i : Nat) (s : FMState) : Grid F := g.modify i (fun c => { c with state := s })
/-- `getCell(i).setHeuristicTime(h)` (ndgridmap/fmcell.h:47). -/
def setH (g : Grid F) (i : Nat) (h : F) : Grid F := g.modify i (fun c => { c with hValue := h })
/-- `getCell(i).setBucket(b)` (ndgridmap/fmcell.h:49). -/
def setBucket (g : Grid F) (i : Nat) (b : Nat) : Grid F := g.modify i (fun c => { c with bucket := b })
/-- `getCell(i).setVelocity(v)` (ndgridmap/fmcell.h:45). -/
def setVelocity (g : Grid F) (i : Nat) (v : F) : Grid F := g.modify i (fun c => { c with occupancy := v })

/-- Overwriting the scratch buffer `n_` (ndgridmap/ndgridmap.hpp:375), as `getMinValueInDim` does. -/
def setScratch (g : Grid F) (scr : Nat × Nat) : Grid F := { g with scratch := scr }

/-- `getCell(i).getArrivalTime()` / `getValue()` -/
def value (g : Grid F) (i : Nat) : F := (g.cells i).value
/-- `getCell(i).getState()` -/
def state (g : Grid F) (i : Nat) : FMState := (g.cells i).state
/-- `getCell(i).isOccupied()` -/
def occ (g : Grid F) (i : Nat) : Bool := (g.cells i).isOccupied
/-- `getCell(i).getVelocity()` -/
def vel (g : Grid F) (i : Nat) : F := (g.cells i).occupancy
/-- `size()` (ndgridmap/ndgridmap.hpp:252-255) -/
def size (g : Grid F) : Nat := g.shape.ncells

/-- `resize(dimsize)` (ndgridmap/ndgridmap.hpp:78-96): the cells are cleared, recreated with
default values and numbered. -/
def resize (g : Grid F) (dims : List Nat) : Grid F :=
  { g with
    shape := Shape.mk' dims
    cells := fun i => { (Cell.default : Cell F) with index := i }
    clean := true }

/-- `nDGridMap(dimsize, leafsize)` (ndgridmap/ndgridmap.hpp:70-75).  `n_` is uninitialised in
C++; the model takes its arbitrary content as an argument. -/
def create (dims : List Nat) (leaf : F) (junk : Nat × Nat) : Grid F :=
  resize { shape := Shape.mk' [], leaf := leaf, clean := true, cells := fun _ => Cell.default,
           occupied := [], scratch := junk } dims

/-- `clean()` (ndgridmap/ndgridmap.hpp:281-288). -/
def cleanGrid (g : Grid F) : Grid F :=
  if g.clean then g
  else { g with cells := fun i => (g.cells i).setDefault, clean := true }

/-- `setClean(c)` (ndgridmap/ndgridmap.hpp:275-278). -/
def setClean (g : Grid F) (c : Bool) : Grid F := { g with clean := c }

/-- `setOccupiedCells(obs)` (ndgridmap/ndgridmap.hpp:307-316). -/
def setOccupiedCells (g : Grid F) (obs : List Nat) : Grid F := { g with occupied := obs }

/-- All cells in index order: the iteration `for (const T & c : cells_)`. -/
def toList (g : Grid F) : List (Cell F) := (List.range g.shape.ncells).map g.cells

/-- `getMaxValue()` (ndgridmap/ndgridmap.hpp:258-266). -/
def getMaxValue (g : Grid F) : F :=
  g.toList.foldl (fun mx c => if !(isInf c.value) && lt mx c.value then c.value else mx) zero

/-- `getMaxSpeed()` (ndgridmap/ndgridmap.hpp:342-349). -/
def getMaxSpeed (g : Grid F) : F :=
  g.toList.foldl (fun mx c => if lt mx c.occupancy then c.occupancy else mx) zero

/-- `getAvgSpeed()` (ndgridmap/ndgridmap.hpp:328-339). -/
def getAvgSpeed (g : Grid F) : F :=
  let p := g.toList.foldl
    (fun (acc : F × Nat) c =>
      if !c.isOccupied then (add acc.1 c.occupancy, acc.2) else (acc.1, acc.2 + 1)) (zero, 0)
  div p.1 (ofNat (u32sub g.shape.ncells p.2))

end Grid

namespace Shape

/-- `getNeighborsInDim` (both overloads, ndgridmap/ndgridmap.hpp:155-172 and 175-193): the list of
indices appended to `neighs`, in order.  32-bit wrap-around is explicit; the test `c1 >= 0`
on an unsigned is always true. -/
def nbrsDim (s : Shape) (idx dim : Nat) : List Nat :=
  let stride := if dim = 0 then 1 else s.d.getD (dim - 1) 0
  let c1 := u32sub idx stride
  let c2 := u32 (idx + stride)
  let dd := s.d.getD dim 0
  (if c1 / dd = idx / dd then [c1] else []) ++ (if c2 / dd = idx / dd then [c2] else [])

/-- `getNeighbors` (ndgridmap/ndgridmap.hpp:142-149): the first `n_neighs` entries of `neighs`. -/
def nbrs (s : Shape) (idx : Nat) : List Nat :=
  (List.range s.ndims).flatMap (fun dim => s.nbrsDim idx dim)

/-- The loop of `idx2coord` (ndgridmap/ndgridmap.hpp:203-207) for dimensions `k, k-1, ..., 0`:
returns the coordinates `0..k` given the remainder `aux`. -/
def idx2coordLoop (s : Shape) : Nat → Nat → List Nat
  | 0, aux => [aux]
  | k + 1, aux =>
      let c := aux / s.d.getD k 0
      idx2coordLoop s k (u32sub aux (u32 (c * s.d.getD k 0))) ++ [c]

/-- `idx2coord` (ndgridmap/ndgridmap.hpp:196-210).  The first step "done apart" is the same
operation as the loop body with `i = ndims-1`.  For `ndims = 1` the C++ would read `d_[-1]`
(in fact the class does not compile for one dimension since the two `getNeighborsInDim` overloads
coincide); the model is only meaningful for `ndims >= 2`. -/
def idx2coord (s : Shape) (idx : Nat) : List Nat := idx2coordLoop s (s.ndims - 1) idx

/-- The loop of `coord2idx` (ndgridmap/ndgridmap.hpp:219-220) from dimension `i` on. -/
def coord2idxLoop (s : Shape) : Nat → List Nat → Nat → Nat
  | _, [], acc => acc
  | i, c :: cs, acc => coord2idxLoop s (i + 1) cs (u32 (acc + u32 (c * s.d.getD (i - 1) 0)))

/-- `coord2idx` (ndgridmap/ndgridmap.hpp:213-223). -/
def coord2idx (s : Shape) (coords : List Nat) : Nat :=
  match coords with
  | [] => 0
  | c :: cs => coord2idxLoop s 1 cs c

end Shape

namespace Grid

/-- `getMinValueInDim` (ndgridmap/ndgridmap.hpp:119-128), faithful version: the neighbours are
written over the member buffer `n_` (here `scratch`), whose previous content is read when fewer
than two neighbours were found and `n_neighs != 1`. -/
def getMinValueInDimS (g : Grid F) (idx dim : Nat) : F × Grid F :=
  let ns := g.shape.nbrsDim idx dim
  let scr := match ns with
    | [] => g.scratch
    | [a] => (a, g.scratch.2)
    | a :: b :: _ => (a, b)
  let g' := { g with scratch := scr }
  if ns.length = 1 then (g.value scr.1, g')
  else (if lt (g.value scr.1) (g.value scr.2) then g.value scr.1 else g.value scr.2, g')

/-- Pure version of `getMinValueInDim`, equal to the faithful one whenever the dimension has at
least two cells (theorem `getMinValueInDimS_eq`).  Used by the solver models. -/
def minDim (g : Grid F) (idx dim : Nat) : F :=
  match g.shape.nbrsDim idx dim with
  | [] => inf
  | [a] => g.value a
  | a :: b :: _ => if lt (g.value a) (g.value b) then g.value a else g.value b

end Grid
end FMV
