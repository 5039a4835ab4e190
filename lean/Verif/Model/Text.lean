import Verif.Model.Console
/-
Text output of numbers: `operator<<` for unsigned integers, with `std::setw`/`std::setfill`.
-/
namespace FMV.Text
open Console

/-- the character of a decimal digit -/
def digitChar (d : Nat) : Char := Char.ofNat (48 + d)

/-- What `os << n` writes for an unsigned `n` (base 10, no padding); used e.g. in benchmark.hpp:210, io/gridwriter.hpp:51-55. -/
def decimal (n : Nat) : Str := if n < 10 then [digitChar n] else decimal (n / 10) ++ [digitChar (n % 10)]
termination_by n
decreasing_by omega

/-- `std::setw(w) << std::setfill('0') << n` (benchmark.hpp:239) -/
def padded (w n : Nat) : Str := List.replicate (w - (decimal n).length) '0' ++ decimal n

end FMV.Text
