import Verif.Spec.Benchmark
import Verif.Model.IO
/-
Specification of what the MATLAB scripts rely on.
-/
namespace FMV.Spec
open Console Arith
variable {F : Type} [Arith F]

/-- MATLAB reads decimal digits as the number they stand for, and accepts this number as a size. -/
structure MatlabNumbers (num : Str → Option F) (nat : F → Option Nat) : Prop where
  read : ∀ s n, n < 2^32 → Denotes s n → num s = some (ofNat n)
  size : ∀ n, n < 2^32 → nat (ofNat n) = some n

/-- A text without white space that MATLAB reads as the number `x`. -/
def ReadAs (num : Str → Option F) (s : Str) (x : F) : Prop := s ≠ [] ∧ (∀ c ∈ s, IO.isSpace c = false) ∧ num s = some x

end FMV.Spec
