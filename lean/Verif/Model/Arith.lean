/-
Arithmetic interface of the model.

The C++ code computes with `double`.  The model is generic in a type `F` carrying the
*operations* used by the code and **no laws at all**; so every theorem quantified over
`[Arith F]` is valid for IEEE doubles with any rounding, NaNs, infinities, x87 or fast-math
behaviour.  Quantitative theorems use the instance `XR` (`Verif/Model/XR.lean`).
-/
namespace FMV

/-- Operations on `double` used by the library. No laws are assumed. -/
class Arith (F : Type) where
  /-- literal `0` -/
  zero : F
  /-- literal `1` -/
  one : F
  /-- `std::numeric_limits<double>::infinity()` -/
  inf : F
  add : F → F → F
  sub : F → F → F
  mul : F → F → F
  div : F → F → F
  neg : F → F
  /-- `fabs` / `std::abs` -/
  abs : F → F
  /-- `sqrt` -/
  sqrt : F → F
  /-- `a < b` -/
  lt : F → F → Bool
  /-- `a <= b` -/
  le : F → F → Bool
  /-- `a == b` -/
  eq : F → F → Bool
  /-- `std::isinf` -/
  isInf : F → Bool
  /-- `std::isnan` -/
  isNaN : F → Bool
  /-- the double nearest to the rational `p/q` (literals such as `0.65`, and `unsigned -> double`) -/
  ofRat : Int → Nat → F
  /-- `utils::COMP_MARGIN` (include/fast_methods/utils/utils.h:27) -/
  margin : F
  /-- `static_cast<unsigned>(floor(x))`; `none` = undefined behaviour (value not representable) -/
  floorU32 : F → Option Nat
  /-- `int(x)` (truncation towards zero); `none` = undefined behaviour -/
  truncInt : F → Option Int

namespace Arith
variable {F : Type} [Arith F]

/-- `double(n)` for an unsigned `n` (implicit conversions `unsigned -> double`). -/
def ofNat (n : Nat) : F := ofRat (n : Int) 1

/-- `utils::isTimeBetterThan(t1,t2)`: `t1 + COMP_MARGIN < t2`
(include/fast_methods/utils/utils.h:31-34). -/
def better (t1 t2 : F) : Bool := lt (add t1 (margin : F)) t2

end Arith

/-- Wrap-around of 32-bit unsigned arithmetic. -/
def u32 (n : Nat) : Nat := n % 4294967296

/-- `a - b` on 32-bit unsigned operands. -/
def u32sub (a b : Nat) : Nat := (a + (4294967296 - b % 4294967296)) % 4294967296

/-- `-1` converted to `unsigned`: the value used by the library for "no goal"
(include/fast_methods/fm/solver.hpp:67). -/
def noGoal : Nat := 4294967295

end FMV
