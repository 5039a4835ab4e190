import Verif.Model.Heap
/-
Specification of a narrow band: a priority queue of cells, ordered by arrival time plus heuristic value, in which key changes are reported.
-/
namespace FMV.Spec
open Arith
variable {F : Type} [Arith F] {B : Type}

/-- the key of a cell: arrival time plus heuristic value -/
def key (g : Grid F) (c : Nat) : F := add (g.cells c).value (g.cells c).hValue

/-- `<` is a strict weak order on the numbers satisfying `W` (for doubles: the numbers that are not NaN) -/
structure WeakOrder (W : F → Prop) : Prop where
  asymm : ∀ a b, W a → W b → lt a b = true → lt b a = false
  trans : ∀ a b c, W a → W b → W c → lt b a = false → lt c b = false → lt c a = false

/-- `c` is one of the stored cells `l`, and none of them has a smaller key -/
def IsMin (g : Grid F) (l : List Nat) (c : Nat) : Prop := c ∈ l ∧ ∀ y ∈ l, lt (key g y) (key g c) = false

/-- What a solver must respect when it uses a narrow band for cells below `n`, and what the band then contains. `Used N b0 W n g b l`: after some
history of calls, each in a map of that moment, the band is `b`, the map is `g`, and the cells pushed and not yet popped are `l`.
* the map may change in any way that leaves the keys of the stored cells alone;
* a cell is pushed only if it is not stored;
* the key of a stored cell may be lowered if `increase` is called for it at once;
* all keys are ordinary numbers. -/
inductive Used (N : Band F B) (b0 : B) (W : F → Prop) (n : Nat) : Grid F → B → List Nat → Prop
  | new (g) : Used N b0 W n g b0 []
  | change {g b l} (g') : Used N b0 W n g b l → (∀ c ∈ l, key g' c = key g c) → Used N b0 W n g' b l
  | push {g b l} (c) : Used N b0 W n g b l → c ∉ l → c < n → (∀ y ∈ c :: l, W (key g y)) → Used N b0 W n g (N.push g b c) (c :: l)
  | lower {g b l} (g' c) : Used N b0 W n g b l → c ∈ l → (∀ y ∈ l, y ≠ c → key g' y = key g y) → lt (key g c) (key g' c) = false →
      (∀ y ∈ l, W (key g y) ∧ W (key g' y)) → Used N b0 W n g' (N.increase g' b c) l
  | pop {g b l} : Used N b0 W n g b l → l ≠ [] → (∀ y ∈ l, W (key g y)) → Used N b0 W n g (N.popMinIdx g b).2 (l.erase (N.popMinIdx g b).1)

/-- A narrow band (starting with `b0`) is right for maps of `n` cells if, in every such history, what it pops is a minimum of what it stores and it says it is
empty exactly when nothing is stored. -/
def RightBand (N : Band F B) (b0 : B) (W : F → Prop) (n : Nat) : Prop :=
  ∀ g b l, Used N b0 W n g b l → (N.empty b = true ↔ l = []) ∧ (l ≠ [] → (∀ y ∈ l, W (key g y)) → IsMin g l (N.popMinIdx g b).1)

end FMV.Spec
