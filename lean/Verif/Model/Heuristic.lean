import Verif.Model.FMM
/-
Model of the heuristic distances of FMM* (include/fast_methods/fm/fmm.hpp:183-217).
-/
namespace FMV
open Arith
variable {F : Type} [Arith F]

/-- conversion of an unsigned to `int` (two's complement) -/
def toI32 (n : Nat) : Int := if n < 2147483648 then (n : Int) else (n : Int) - 4294967296

/-- `utils::absUI` (utils/utils.h:37-40), applied to an `int`. -/
def absUI (a : Int) : Nat := if a > 0 then a.toNat else (-a).toNat

namespace FMM

/-- The value `precomputeDistances` stores for cell `i` (fm/fmm.hpp:191-197): the square root of the sum of the squared coordinates; the products
are 32-bit, the sum is a double. -/
def cellDist (s : Shape) (i : Nat) : F := sqrt ((s.idx2coord i).foldl (fun acc c => add acc (ofNat (u32 (c * c)))) zero)

/-- `precomputeDistances` (fm/fmm.hpp:183-200): `distances_` afterwards.  Simplification: the C++ writes `distances_[i]` into storage that was only
reserved, which the standard leaves undefined; modelled as what every implementation does, a plain store. -/
def precomputeDistances (s : Shape) (old : Nat → F) : Nat → F := fun i => if i < s.ncells then cellDist s i else old i

/-- the index read by `getPrecomputedDistance` (fm/fmm.hpp:206-214); `goalCoord` is `heur_coord_` -/
def distIdx (s : Shape) (goalCoord : List Nat) (idx : Nat) : Nat :=
  s.coord2idx (List.zipWith (fun p h => absUI (toI32 (u32sub p h))) (s.idx2coord idx) goalCoord)

/-- `getPrecomputedDistance(idx)` (fm/fmm.hpp:204-217) -/
def getPrecomputedDistance (s : Shape) (table : Nat → F) (goalCoord : List Nat) (idx : Nat) : F := table (distIdx s goalCoord idx)

end FMM
end FMV
