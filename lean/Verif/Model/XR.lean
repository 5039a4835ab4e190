import Verif.Model.Arith
import Mathlib.Analysis.Real.Sqrt
import Mathlib.Algebra.Order.Floor.Ring
/-
`XR`: the real numbers extended with `+inf`, `-inf` and NaN, with the IEEE-754 rules for the special
values and **exact** (unrounded) arithmetic on finite values.  Signed zeros are not
distinguished: `x / 0` with `x > 0` is `+inf`.
-/
namespace FMV
open Classical

inductive XR where
  | nan
  | ninf
  | fin (r : ℝ)
  | pinf

namespace XR

/-- The value of `utils::COMP_MARGIN = epsilon * 1e5` (include/fast_methods/utils/utils.h:27):
`2^-52 * 100000`. -/
noncomputable def eps : ℝ := 100000 / 4503599627370496

theorem eps_pos : 0 < eps := by unfold eps; norm_num

/-- IEEE negation. -/
noncomputable def neg : XR → XR
  | nan => nan
  | ninf => pinf
  | fin r => fin (-r)
  | pinf => ninf

/-- IEEE addition without rounding; `inf - inf` is NaN. -/
noncomputable def add : XR → XR → XR
  | fin a, fin b => fin (a + b)
  | nan, _ => nan
  | _, nan => nan
  | pinf, ninf => nan
  | ninf, pinf => nan
  | pinf, _ => pinf
  | _, pinf => pinf
  | ninf, _ => ninf
  | _, ninf => ninf

/-- infinity with the sign of `r`, NaN for `r = 0` -/
noncomputable def infSign (r : ℝ) : XR := if 0 < r then pinf else if r < 0 then ninf else nan

/-- IEEE multiplication without rounding; `0 * inf` is NaN. -/
noncomputable def mul : XR → XR → XR
  | fin a, fin b => fin (a * b)
  | nan, _ => nan
  | _, nan => nan
  | pinf, fin r => infSign r
  | fin r, pinf => infSign r
  | ninf, fin r => infSign (-r)
  | fin r, ninf => infSign (-r)
  | pinf, pinf => pinf
  | ninf, ninf => pinf
  | pinf, ninf => ninf
  | ninf, pinf => ninf

/-- IEEE division without rounding; `x / 0` is an infinity with the sign of `x`, `0 / 0` is NaN. -/
noncomputable def div : XR → XR → XR
  | fin a, fin b => if b = 0 then infSign a else fin (a / b)
  | nan, _ => nan
  | _, nan => nan
  | fin _, pinf => fin 0
  | fin _, ninf => fin 0
  | pinf, fin r => if r < 0 then ninf else pinf
  | ninf, fin r => if r < 0 then pinf else ninf
  | pinf, pinf => nan
  | pinf, ninf => nan
  | ninf, pinf => nan
  | ninf, ninf => nan

/-- `<` on doubles: false if an operand is NaN. -/
noncomputable def lt : XR → XR → Bool
  | fin a, fin b => decide (a < b)
  | ninf, fin _ => true
  | ninf, pinf => true
  | fin _, pinf => true
  | _, _ => false

/-- `<=` on doubles. -/
noncomputable def le : XR → XR → Bool
  | fin a, fin b => decide (a ≤ b)
  | ninf, fin _ => true
  | ninf, pinf => true
  | ninf, ninf => true
  | fin _, pinf => true
  | pinf, pinf => true
  | _, _ => false

/-- `==` on doubles. -/
noncomputable def eq : XR → XR → Bool
  | fin a, fin b => decide (a = b)
  | ninf, ninf => true
  | pinf, pinf => true
  | _, _ => false

noncomputable def abs : XR → XR
  | nan => nan
  | fin r => fin |r|
  | _ => pinf

noncomputable def sqrt : XR → XR
  | fin r => if r < 0 then nan else fin (Real.sqrt r)
  | pinf => pinf
  | _ => nan

noncomputable instance : Arith XR where
  zero := fin 0
  one := fin 1
  inf := pinf
  add := add
  sub a b := add a (neg b)
  mul := mul
  div := div
  neg := neg
  abs := abs
  sqrt := sqrt
  lt := lt
  le := le
  eq := eq
  isInf x := match x with | pinf => true | ninf => true | _ => false
  isNaN x := match x with | nan => true | _ => false
  ofRat p q := fin ((p : ℝ) / (q : ℝ))
  margin := fin eps
  floorU32 x := match x with
    | fin r => if 0 ≤ ⌊r⌋ ∧ ⌊r⌋ < 4294967296 then some ⌊r⌋.toNat else none
    | _ => none
  truncInt x := match x with
    | fin r =>
      let t : ℤ := if 0 ≤ r then ⌊r⌋ else ⌈r⌉
      if -2147483648 ≤ t ∧ t < 2147483648 then some t else none
    | _ => none

end XR

/-- Order laws of `<`; they hold for IEEE doubles, including NaN. -/
structure LtLaws (F : Type) [Arith F] : Prop where
  irrefl : ∀ a : F, Arith.lt a a = false
  trans : ∀ a b c : F, Arith.lt a b = true → Arith.lt b c = true → Arith.lt a c = true

theorem LtLaws.asymm {F : Type} [Arith F] (L : LtLaws F) {a b : F} (h : Arith.lt a b = true) :
    Arith.lt b a = false := by
  by_contra hc
  have := L.trans a b a h (by simpa using hc)
  rw [L.irrefl] at this
  exact absurd this (by simp)

namespace XR

theorem ltLaws : LtLaws XR where
  irrefl a := by cases a <;> simp [Arith.lt, lt]
  trans a b c := by
    cases a <;> cases b <;> cases c <;> simp [Arith.lt, lt]
    intro h1 h2; exact lt_trans h1 h2

end XR
end FMV
