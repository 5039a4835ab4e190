import Verif.Model.Heap
/-
`XQ`: a computable copy of the numbers of `Verif/Model/XR.lean` with rational finite values, used to evaluate concrete runs inside the kernel. It is not a model of any code:
the theorems are about `XR`, and `Verif/Lemmas/Reflect.lean` proves that a run over `XQ` in which every square root taken is rational is a run over `XR`.
-/
namespace FMV

inductive XQ where
  | nan
  | ninf
  | fin (r : Rat)
  | pinf
deriving DecidableEq

namespace XQ

/-- as `XR.neg` -/
def neg : XQ → XQ
  | nan => nan
  | ninf => pinf
  | fin r => fin (-r)
  | pinf => ninf

/-- as `XR.add` -/
def add : XQ → XQ → XQ
  | fin a, fin b => fin (a + b)
  | nan, _ => nan
  | _, nan => nan
  | pinf, ninf => nan
  | ninf, pinf => nan
  | pinf, _ => pinf
  | _, pinf => pinf
  | ninf, _ => ninf
  | _, ninf => ninf

/-- as `XR.infSign` -/
def infSign (r : Rat) : XQ := if 0 < r then pinf else if r < 0 then ninf else nan

/-- as `XR.mul` -/
def mul : XQ → XQ → XQ
  | fin a, fin b => fin (a * b)
  | nan, _ => nan
  | _, nan => nan
  | pinf, fin r => infSign r
  | fin r, pinf => infSign r
  | ninf, fin r => infSign (-r)
  | fin r, ninf => infSign (-r)
  | pinf, pinf => pinf
  | ninf, ninf => pinf
  | pinf, ninf => ninf
  | ninf, pinf => ninf

/-- as `XR.div` -/
def div : XQ → XQ → XQ
  | fin a, fin b => if b = 0 then infSign a else fin (a / b)
  | nan, _ => nan
  | _, nan => nan
  | fin _, pinf => fin 0
  | fin _, ninf => fin 0
  | pinf, fin r => if r < 0 then ninf else pinf
  | ninf, fin r => if r < 0 then pinf else ninf
  | pinf, pinf => nan
  | pinf, ninf => nan
  | ninf, pinf => nan
  | ninf, ninf => nan

/-- as `XR.lt` -/
def lt : XQ → XQ → Bool
  | fin a, fin b => decide (a < b)
  | ninf, fin _ => true
  | ninf, pinf => true
  | fin _, pinf => true
  | _, _ => false

/-- as `XR.le` -/
def le : XQ → XQ → Bool
  | fin a, fin b => decide (a ≤ b)
  | ninf, fin _ => true
  | ninf, pinf => true
  | ninf, ninf => true
  | fin _, pinf => true
  | pinf, pinf => true
  | _, _ => false

/-- as `XR.eq` -/
def eq : XQ → XQ → Bool
  | fin a, fin b => decide (a = b)
  | ninf, ninf => true
  | pinf, pinf => true
  | _, _ => false

/-- as `XR.abs` -/
def abs : XQ → XQ
  | nan => nan
  | fin r => fin (if r < 0 then -r else r)
  | _ => pinf

/-- integer square root by Newton iteration, at most `f` rounds; only used when the result is checked by squaring -/
def isqrtLoop (n : Nat) : Nat → Nat → Nat
  | 0, x => x
  | f + 1, x =>
    let y := (x + n / x) / 2
    if y < x then isqrtLoop n f y else x

/-- candidate for the square root of a natural number -/
def isqrt (n : Nat) : Nat := if n = 0 then 0 else isqrtLoop n 200 (2 ^ (Nat.log2 n / 2 + 1))

/-- candidate for the square root of a rational number -/
def ratSqrt (r : Rat) : Rat := mkRat (isqrt r.num.toNat) (isqrt r.den)

/-- as `XR.sqrt` if the square root is rational -/
def sqrt : XQ → XQ
  | fin r => if r < 0 then nan else fin (ratSqrt r)
  | pinf => pinf
  | _ => nan

/-- the square root of this number is computed exactly -/
def sqrtOk : XQ → Bool
  | fin r => decide (r < 0) || (decide (0 ≤ ratSqrt r) && decide (ratSqrt r * ratSqrt r = r))
  | _ => true

instance : Arith XQ where
  zero := fin 0
  one := fin 1
  inf := pinf
  add := add
  sub a b := add a (neg b)
  mul := mul
  div := div
  neg := neg
  abs := abs
  sqrt := sqrt
  lt := lt
  le := le
  eq := eq
  isInf x := match x with | pinf => true | ninf => true | _ => false
  isNaN x := match x with | nan => true | _ => false
  ofRat p q := fin ((p : Rat) / (q : Rat))
  margin := fin (100000 / 4503599627370496)
  floorU32 _ := none
  truncInt _ := none

/-- every square root taken by `solveND` is exact -/
def okND (h v : XQ) (ts : List XQ) (dim : Nat) : Bool :=
  if dim = 1 then true
  else
    let sumT := (ts.take dim).foldl (fun s t => add s t) (fin 0)
    let sumTT := (ts.take dim).foldl (fun s t => add s (mul t t)) (fin 0)
    let a : XQ := Arith.ofNat dim
    let b := mul (Arith.ofRat (-2) 1) sumT
    let c := Arith.sub sumTT (div (mul h h) (mul v v))
    sqrtOk (Arith.sub (mul b b) (mul (mul (Arith.ofRat 4 1) a) c))

/-- every square root taken by `eikLoop` is exact -/
def okLoop (h v : XQ) (ts : List XQ) : Nat → Nat → Bool
  | i, 0 => okND h v ts i
  | i, r + 1 =>
      okND h v ts i &&
      (if lt (Arith.sub (solveND h v ts i) (ts.getD i (fin 0))) Arith.margin then true else okLoop h v ts (i + 1) r)

/-- every square root taken by `solveList` is exact -/
def okList (h v : XQ) (ts : List XQ) : Bool :=
  match ts with
  | [] => true
  | _ => okLoop h v (sortF ts) 1 (ts.length - 1)

/-- every square root taken by `solveEikonal` is exact -/
def okEik (g : Grid XQ) (i : Nat) : Bool :=
  okList g.leaf (g.vel i) (collectS i (List.range g.shape.ndims) g []).1

end XQ
end FMV
