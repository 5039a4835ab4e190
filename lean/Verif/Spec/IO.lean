import Verif.Model.IO
import Verif.Spec.Benchmark
/-
Specification of the text files.
-/
namespace FMV.Spec
open Console

/-- `s` is the text `ls`, line by line (the last line is not terminated). -/
def IsLines (ls : List Str) (s : Str) : Prop := (∀ l ∈ ls, '\n' ∉ l) ∧ s = List.intercalate ['\n'] ls

/-- a possibly empty text of decimal digits -/
def Digits (s : Str) : Prop := ∀ c ∈ s, c ∈ "0123456789".toList

/-- The way a finite floating-point number is printed: an optional minus sign, digits, optionally a point and more digits, and
optionally an exponent `e+dd` or `e-dd`. -/
def FloatText (s : Str) : Prop :=
  ∃ sign int frac exp : Str, s = sign ++ int ++ frac ++ exp ∧ (sign = [] ∨ sign = ['-']) ∧ IsNumber int ∧
    (frac = [] ∨ ∃ f, frac = '.' :: f ∧ Digits f) ∧
    (exp = [] ∨ ∃ sg e, exp = 'e' :: sg :: e ∧ (sg = '+' ∨ sg = '-') ∧ IsNumber e)

/-- Printing `v` gives a number text, which is converted back to `v'` (equal to `v` up to the digits printed). -/
def Prints {F : Type} (fmt : F → Str) (conv : Str → F × Bool) (v v' : F) : Prop :=
  FloatText (fmt v) ∧ conv (fmt v) = (v', true)

end FMV.Spec
