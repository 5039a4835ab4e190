import Verif.Model.IO
/-
Model of `GridPoints::selectMapPoints` (include/fast_methods/io/gridpoints.hpp).
-/
namespace FMV
open Arith
variable {F : Type} [Arith F]
namespace IO

/-- What `button()`, `mouse_x()` and `mouse_y()` of a `CImgDisplay` report after `wait()` has returned.  The coordinates are `-1` when the pointer is outside the window. -/
structure Ev where
  button : Bool
  mx : Int
  my : Int

/-- conversion of an `int` to `unsigned int` -/
def intToU32 (z : Int) : Nat := (z % 2^32).toNat

/-- One loop `while (x == 0) {...}` (io/gridpoints.hpp:70-79, 85-94) over the events the display reports; `none`: the loop still waits.  The second component is what
is left of the events. -/
def clickLoop (flipY : Bool) (h : Nat) : Nat → Nat → List Ev → Option ((Nat × Nat) × List Ev)
  | x, y, [] => if x = 0 then none else some ((x, y), [])
  | x, y, e :: es =>
    if x = 0 then
      if e.button = true ∧ 0 ≤ e.my then
        clickLoop flipY h (intToU32 e.mx) (intToU32 (if flipY then (h : Int) - 1 - e.my else e.my)) es
      else clickLoop flipY h x y es
    else some ((x, y), e :: es)

/-- `selectMapPoints(grid, coords_init, coords_goal, flipY)` (io/gridpoints.hpp:53-97): the two selected points, `none` if the function still waits after these events. -/
def selectMapPoints (g : Grid F) (flipY : Bool) (evs : List Ev) : Option ((Nat × Nat) × (Nat × Nat)) :=
  let h := g.shape.dims.getD 1 0
  match clickLoop flipY h 0 0 evs with
  | none => none
  | some (p, es) =>
    match clickLoop flipY h 0 p.2 es with
    | none => none
    | some (q, _) => some (p, q)

/-- The index of the cell shown at pixel `(x,y)` of the window (io/gridpoints.hpp:59-64). -/
def shownCell (flipY : Bool) (w h x y : Nat) : Nat := if flipY then pixelCell w h x y else u32 (w * y + x)

/-- The picture of the window (io/gridpoints.hpp:58-64). -/
def clickMap (g : Grid F) (flipY : Bool) : Img F :=
  let w := g.shape.dims.getD 0 0
  let h := g.shape.dims.getD 1 0
  { w := w, h := h, px := fun x y =>
      if flipY then mul (g.vel (shownCell true w h x y)) (ofNat 255) else g.vel (shownCell false w h x y) }

end IO
end FMV
