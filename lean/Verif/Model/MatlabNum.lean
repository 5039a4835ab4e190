import Verif.Model.Decimal
import Verif.Model.Matlab
/-
How MATLAB reads the numbers in the library's files: `fscanf(fid, '%f')` and `str2double` (scripts/parseGrid.m:5, parsepath.m:4, parsepathvel.m:4, parseBenchmarkLog.m) on texts printed by C++, with MATLAB's numbers being doubles.
Rounding of the arithmetic: `R`.  Simplification: of the other texts MATLAB accepts, only `inf` and `nan` in any case, with or without a minus sign for `inf`.
-/
namespace FMV.Decimal
open Console

/-- the value of a text that is a number for MATLAB -/
noncomputable def matlabNum (R : Rounding) (s : Str) : Option (F64 R) :=
  match parse s with
  | some (m, k) => some (F64.rnd R (.fin ((m:ℝ) * (10:ℝ)^k)))
  | none =>
    let l := s.map Char.toLower
    if l = "inf".toList then some (F64.rnd R .pinf) else
    if l = "-inf".toList then some (F64.rnd R .ninf) else
    if l = "nan".toList then some (F64.rnd R .nan) else none

open Classical in
/-- a number used as a size or index: a natural number that a double represents exactly -/
noncomputable def matlabNat {R : Rounding} (x : F64 R) : Option Nat :=
  if h : ∃ n : ℕ, n < 2^53 ∧ x.1 = .fin (n : ℝ) then some h.choose else none

end FMV.Decimal
