import Verif.Model.Points
/-
Specification of selecting points with the mouse.
-/
namespace FMV.Spec
open IO

/-- The pointer is at a pixel of the window of `w` columns and `h` rows, or outside (reported as `-1, -1`). -/
def Ev.Ok (w h : Nat) (e : Ev) : Prop := (0 ≤ e.mx ∧ e.mx < w ∧ 0 ≤ e.my ∧ e.my < h) ∨ (e.mx = -1 ∧ e.my = -1)

/-- A button is down and the pointer is inside the window. -/
def Ev.held (e : Ev) : Bool := e.button && decide (0 ≤ e.my)

/-- The clicks: the events at which a button goes down inside the window (`down`: a button was down before). -/
def clicks : Bool → List Ev → List Ev
  | _, [] => []
  | down, e :: es => if Ev.held e && !down then e :: clicks e.button es else clicks e.button es

/-- The cell `p` (column and row of the map) is the one shown at the pixel of the click `e`: `p` is a cell of the map, and whatever the velocities of a map of
`w` columns and `h` rows are, the picture has `w` columns and `h` rows and the shade of that pixel is the velocity of cell `p` (times 255 if flipped). -/
def Selects (F : Type) [Arith F] (flipY : Bool) (w h : Nat) (e : Ev) (p : Nat × Nat) : Prop :=
  p.1 < w ∧ p.2 < h ∧ (p.1 : Int) = e.mx ∧ ∀ g : Grid F, g.shape.dims = [w, h] → (clickMap g flipY).w = w ∧ (clickMap g flipY).h = h ∧
    (clickMap g flipY).px e.mx.toNat e.my.toNat =
      (if flipY then Arith.mul (g.vel ((Shape.mk' [w,h]).coord2idx [p.1, p.2])) (Arith.ofNat 255) else g.vel ((Shape.mk' [w,h]).coord2idx [p.1, p.2]))

end FMV.Spec
