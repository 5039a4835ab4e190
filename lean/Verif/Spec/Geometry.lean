/-
Specification of grid geometry, independent of the model's index arithmetic.
-/
namespace FMV.Spec

/-- `cs` are valid coordinates in a box with the given sizes. -/
def InBox (dims cs : List Nat) : Prop :=
  cs.length = dims.length ∧ ∀ k, k < dims.length → cs.getD k 0 < dims.getD k 0

/-- Row-major position (first coordinate running fastest). -/
def rowMajor : List Nat → List Nat → Nat
  | n :: ns, c :: cs => c + n * rowMajor ns cs
  | _, _ => 0

/-- Two coordinate vectors differ by exactly one, in exactly the dimension `k`. -/
def AdjacentIn (k : Nat) (cs cs' : List Nat) : Prop :=
  cs.length = cs'.length ∧ k < cs.length ∧
  (cs.getD k 0 + 1 = cs'.getD k 0 ∨ cs'.getD k 0 + 1 = cs.getD k 0) ∧
  ∀ m, m < cs.length → m ≠ k → cs.getD m 0 = cs'.getD m 0

/-- Two coordinate vectors differ by one in exactly one dimension. -/
def AxisAdjacent (cs cs' : List Nat) : Prop := ∃ k, AdjacentIn k cs cs'

end FMV.Spec
