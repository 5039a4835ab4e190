import Verif.Model.IO
import Verif.Model.F64
import Mathlib.Data.Int.Log
/-
Model of how C++ streams write and read a `double` in the library's files: `operator<<` with the default format (six significant digits, `%g`; nothing in /repo
changes the precision of a stream), used by `GridWriter` (io/gridwriter.hpp:42-162) and by the log of `Benchmark` (benchmark/benchmark.hpp:159-164), and the conversion `strtod` that
`operator>>` applies to the characters it has collected (io/maploader.hpp:109, 128).

As in glibc, writing rounds correctly, ties to even (the default rounding mode), and reading rounds correctly, by the rounding `R` of the arithmetic.
Simplifications: the sign of a zero is not printed, as `F64` has only one zero, and NaN is printed without sign.
-/
namespace FMV.Decimal
open Console Text FMV.IO

/-- the nearest integer, of two the even one (rounding of the digits in `printf`) -/
noncomputable def roundEven (x : ℝ) : ℤ :=
  if Int.fract x < 1/2 then ⌊x⌋ else if 1/2 < Int.fract x then ⌊x⌋ + 1 else if ⌊x⌋ % 2 = 0 then ⌊x⌋ else ⌊x⌋ + 1

/-- the six significant digits of `a > 0` as a number from 100000 to 999999, and the exponent of the first of them (`%g` with precision 6) -/
noncomputable def six (a : ℝ) : Nat × ℤ :=
  let e := Int.log 10 a
  let m := (roundEven (a / (10:ℝ)^(e-5))).toNat
  if m = 10^6 then (10^5, e + 1) else (m, e)

/-- without the zeros at the end (`%g` removes them) -/
def strip (s : Str) : Str := (s.reverse.dropWhile (· = '0')).reverse

/-- `.` and the digits of a fraction, or nothing -/
def point (f : Str) : Str := if f = [] then [] else '.' :: f

/-- The text of the digits `m` with exponent `X` of the first digit (`%g` with precision 6): in fixed notation for `-4 ≤ X < 6`, otherwise in scientific notation with at
least two digits of exponent. -/
def gText (m : Nat) (X : ℤ) : Str :=
  if -4 ≤ X ∧ X < 6 then
    if 0 ≤ X then (decimal m).take (X.toNat + 1) ++ point (strip ((decimal m).drop (X.toNat + 1)))
    else '0' :: point (strip (List.replicate ((-X).toNat - 1) '0' ++ decimal m))
  else (decimal m).take 1 ++ point (strip ((decimal m).drop 1)) ++ 'e' :: (if X < 0 then '-' else '+') :: padded 2 X.natAbs

open Classical in
/-- `os << x` for a `double` (io/gridwriter.hpp:53, 60, 87, 94, 116, 125, 148, 157, 158; benchmark/benchmark.hpp:163) -/
noncomputable def fmtG {R : Rounding} (x : F64 R) : Str :=
  match x.1 with
  | .fin r => if r = 0 then ['0'] else (if r < 0 then ['-'] else []) ++ gText (six |r|).1 (six |r|).2
  | .pinf => "inf".toList
  | .ninf => "-inf".toList
  | .nan => "nan".toList

/-- the exponent part of a number read by `strtod`; `none` if something else comes -/
def expo : Str → Option ℤ
  | [] => some 0
  | c :: t =>
    if c = 'e' ∨ c = 'E' then
      let ds := if t.head? = some '-' ∨ t.head? = some '+' then t.tail else t
      if ds ≠ [] ∧ ds.all isDigit = true then some ((if t.head? = some '-' then -1 else 1) * (digitsVal ds : ℤ)) else none
    else none

/-- `strtod` on the whole text: the number `m * 10^k` it stands for, as `(m, k)`; `none` if the text is not a number -/
def parse (s : Str) : Option (ℤ × ℤ) :=
  let s1 := if s.head? = some '-' ∨ s.head? = some '+' then s.tail else s
  let int := s1.takeWhile isDigit
  let s2 := s1.dropWhile isDigit
  let frac := if s2.head? = some '.' then s2.tail.takeWhile isDigit else []
  let s3 := if s2.head? = some '.' then s2.tail.dropWhile isDigit else s2
  if int ++ frac = [] then none else
  match expo s3 with
  | none => none
  | some e => some ((if s.head? = some '-' then -1 else 1) * (digitsVal (int ++ frac) : ℤ), e - frac.length)

/-- the largest finite `double` -/
noncomputable def maxDouble : ℝ := (2^53 - 1) * (2:ℝ)^(971:ℤ)

theorem isDouble_max : IsDouble maxDouble := ⟨2^53 - 1, 971, by norm_num, by norm_num, by norm_num, by unfold maxDouble; push_cast; ring⟩

/-- What `operator>>(double&)` stores for the collected characters and whether it succeeds (libstdc++ `__convert_to_v`): 0 and failure if they are no number, the
largest number and failure on overflow, otherwise the rounded number. -/
noncomputable def conv (R : Rounding) (s : Str) : F64 R × Bool :=
  match parse s with
  | none => (Arith.zero, false)
  | some (m, k) =>
    let v := F64.rnd R (.fin ((m:ℝ) * (10:ℝ)^k))
    match v.1 with
    | .fin _ => (v, true)
    | .ninf => (⟨.fin (-maxDouble), fun _ h => by cases h; exact isDouble_max.neg⟩, false)
    | _ => (⟨.fin maxDouble, fun _ h => by cases h; exact isDouble_max⟩, false)

end FMV.Decimal
