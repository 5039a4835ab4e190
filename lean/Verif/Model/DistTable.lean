import Verif.Model.Heuristic
/-
Model of the storage of `distances_`, the table of distances of FMM* and SFMM* (a `std::vector<double>`, fm/fmm.hpp:245): which of its elements exist.  The values are modelled in
`Model/Heuristic.lean`; here only the storage.  `none` is an access outside the storage.

Simplifications: `reserve` allocates exactly what it is asked for (the standard allows more; libstdc++ does this); the object is one variable (several objects do not share tables).
-/
namespace FMV.DistTable
open FMM

/-- the part of an FMM* object that matters: `distances_.size()`, `distances_.capacity()`, `precomputed_`, `heur_coord_`, and the shape of `*grid_` -/
structure Obj where
  size : Nat
  cap : Nat
  pre : Bool
  goalCoord : List Nat
  shape : Shape

/-- The rule by which an access is judged: `standard`: `operator[]` needs an index below `size()` (C++ standard, [sequence.reqmts]); `storage`: the index is inside the
allocated memory. -/
inductive Rule where
  | standard | storage
deriving DecidableEq

/-- is `distances_[i]` allowed? -/
def Obj.access (r : Rule) (o : Obj) (i : Nat) : Bool :=
  match r with
  | .standard => i < o.size
  | .storage => i < o.cap

/-- `distances_.reserve(n)`: the size stays, the capacity is at least `n` -/
def Obj.reserve (o : Obj) (n : Nat) : Obj := { o with cap := max o.cap n }

/-- `precomputeDistances()` (fm/fmm.hpp:183-200): reserves, then writes `distances_[i]` for every cell. -/
def Obj.precompute (r : Rule) (o : Obj) : Option Obj :=
  let o := o.reserve o.shape.ncells
  if (List.range o.shape.ncells).all (o.access r) then some { o with pre := true } else none

/-- `setHeuristics(h)` with a heuristic and a goal (fm/fmm.hpp:154-161), as called by `setup()` (fm/fmm.hpp:82) -/
def Obj.setHeuristics (r : Rule) (o : Obj) (goal : Nat) : Option Obj :=
  let o := { o with goalCoord := o.shape.idx2coord goal }
  if o.pre then some o else o.precompute r

/-- the calls that matter: `setEnvironment` with a grid of the given sizes, `setup()`/`setHeuristics` with a goal, the public `precomputeDistances()`, `compute()` (which reads
the distances of the cells it visits, in the given order), `clear()`, and copying the object (the program goes on with the copy) -/
inductive Call where
  | setEnvironment (dims : List Nat)
  | setup (goal : Nat)
  | precompute
  | compute (visited : List Nat)
  | clear
  | reset
  | copy

/-- One call.  `compute`: `getPrecomputedDistance` (fm/fmm.hpp:204-217) for every visited cell (fm/fmm.hpp:101-106, 123-127); `clear` (fm/fmm.hpp:168-173): `distances_.clear()` keeps the
capacity; `reset` (fm/fmm.hpp:175-179) does not touch the table; the implicit copy constructor copies `size()` elements into storage of that size. -/
def exec (r : Rule) (o : Obj) : Call → Option Obj
  | .setEnvironment dims => some { o with shape := Shape.mk' dims }
  | .setup goal => o.setHeuristics r goal
  | .precompute => o.precompute r
  | .compute visited => if visited.all (fun i => o.access r (distIdx o.shape o.goalCoord i)) then some o else none
  | .clear => some { o with size := 0, pre := false }
  | .reset => some o
  | .copy => some { o with cap := o.size }

/-- A history of calls. -/
def execAll (r : Rule) : List Call → Obj → Option Obj
  | [], o => some o
  | c :: cs, o => (exec r o c).bind (execAll r cs)

/-- A new object (fm/fmm.hpp:67-73); `heur_coord_` and the grid are not set yet (given here as anything). -/
def new (coord : List Nat) (s : Shape) : Obj := ⟨0, 0, false, coord, s⟩

end FMV.DistTable
