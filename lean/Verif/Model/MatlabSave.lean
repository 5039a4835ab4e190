import Verif.Model.MatlabNum
/-
How MATLAB writes the numbers of a map: `fprintf(fileID, '%.2f\n', cells)` and `fprintf(fileID, '%f\n', leafsize)` (scripts/saveGridToFile.m:9-13, 21), with MATLAB's numbers being doubles.
Rounding of the digits: correctly, ties to even, as in `printf` of C.
-/
namespace FMV.Decimal
open Console Text

/-- the text of `n / 10^p` with `p` digits after the point and at least one before -/
def fixText (p n : Nat) : Str :=
  let s := padded (p + 1) n
  s.take (s.length - p) ++ point (s.drop (s.length - p))

/-- `%.pf` for a double (scripts/saveGridToFile.m:10 with `p = 6`, 21 with `p = 2`); the sign of zero is not printed, as `F64` has only one zero -/
noncomputable def fmtF {R : Rounding} (p : Nat) (x : F64 R) : Str :=
  match x.1 with
  | .fin r => (if r < 0 then ['-'] else []) ++ fixText p (roundEven (|r| * 10^p)).toNat
  | .pinf => "Inf".toList
  | .ninf => "-Inf".toList
  | .nan => "NaN".toList

/-- the line with the leaf size: `%f`, or `1.0` if the third argument is missing (scripts/saveGridToFile.m:9-13) -/
noncomputable def leafText {R : Rounding} : Option (F64 R) → Str
  | some x => fmtF 6 x
  | none => "1.0".toList

end FMV.Decimal
