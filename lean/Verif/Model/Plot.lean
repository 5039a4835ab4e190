import Verif.Model.IO
import Verif.Model.GD
/-
Model of the remaining functions of `GridPlotter` (include/fast_methods/io/gridplotter.hpp): drawing paths and states.

A `CImg` is its buffer: `operator()(x,y,z,c)` of CImg is the unchecked access to element `x + y*width + z*width*height + c*width*height*depth`; an access beyond the buffer
is undefined behaviour, here the outcome `none`.  Not modelled: the colour table and the display.
-/
namespace FMV
open Arith
variable {F : Type} [Arith F]
namespace IO

/-- A `CImg` of depth 1: width, height, number of channels (`spectrum`) and the buffer. -/
structure Pic (α : Type) where
  w : Nat
  h : Nat
  c : Nat
  data : Nat → α

/-- The position of pixel `(x,y)` of channel `k` in the buffer (`CImg::operator()`). -/
def Pic.at_ {α : Type} (p : Pic α) (x y k : Nat) : Nat := x + y * p.w + k * p.w * p.h

/-- Reading a pixel. -/
def Pic.get {α : Type} (p : Pic α) (x y k : Nat) : α := p.data (p.at_ x y k)

/-- `img(x,y,0,k) = v`: `none` if the address is beyond the buffer. -/
def Pic.put {α : Type} (p : Pic α) (x y k : Nat) (v : α) : Option (Pic α) :=
  if p.at_ x y k < p.w * p.h * p.c then some { p with data := fun o => if o = p.at_ x y k then v else p.data o } else none

/-- The image filled by `cimg_forXYZC` (or `cimg_forXY` for one channel) with `f x y k`. -/
def Pic.fill {α : Type} (w h c : Nat) (f : Nat → Nat → Nat → α) : Pic α :=
  { w := w, h := h, c := c, data := fun o => f (o % w) (o / w % h) (o / w / h) }

/-- `static_cast<unsigned int>(x)` of a `double`: truncation; undefined outside the range.  Simplification: values from `2^31` on count as undefined too (a picture with
that many columns does not exist, the sizes are `int`). -/
def toUns (x : F) : Option Nat :=
  match truncInt x with
  | some z => if 0 ≤ z then some z.toNat else none
  | none => none

/-- The pixel of a path point: column `static_cast<unsigned>(path[i][0])`, row `img.height() - static_cast<unsigned>(path[i][1]) - 1` in `unsigned` arithmetic
(io/gridplotter.hpp:135, 136, 162, 163, 193, 194, 221). -/
def pathPixel (h : Nat) (q : F × F) : Option (Nat × Nat) :=
  match toUns q.1, toUns q.2 with
  | some a, some b => some (a, u32sub (u32sub h b) 1)
  | _, _ => none

/-- One iteration of a drawing loop: write `v` to the channels `ks` at the pixel of `q`. -/
def drawPoint {α : Type} (ks : List Nat) (v : α) (p : Pic α) (q : F × F) : Option (Pic α) :=
  match pathPixel p.h q with
  | none => none
  | some xy => ks.foldlM (fun p k => p.put xy.1 xy.2 k v) p

/-- A drawing loop over a path (io/gridplotter.hpp:133-137, 160-164, 191-195, 220-221). -/
def drawPath {α : Type} (ks : List Nat) (v : α) (path : List (F × F)) (p : Pic α) : Option (Pic α) := path.foldlM (drawPoint ks v) p

/-- `plotMapPath(grid, path)` before the display (io/gridplotter.hpp:124-139). -/
def plotMapPath (g : Grid F) (path : List (F × F)) : Option (Pic F) :=
  let w := g.shape.dims.getD 0 0
  let h := g.shape.dims.getD 1 0
  drawPath [1, 2] zero path (Pic.fill w h 3 (fun x y _ => if g.occ (pixelCell w h x y) then ofNat 0 else ofNat 255))

/-- `plotOccupancyPath(grid, path)` before the display (io/gridplotter.hpp:152-165). -/
def plotOccupancyPath (g : Grid F) (path : List (F × F)) : Option (Pic F) :=
  let w := g.shape.dims.getD 0 0
  let h := g.shape.dims.getD 1 0
  drawPath [1, 2] zero path (Pic.fill w h 3 (fun x y _ => mul (g.vel (pixelCell w h x y)) (ofNat 255)))

/-- The loop over the paths in `plotMapPaths` (io/gridplotter.hpp:188-196), from path number `j` on. -/
def drawPaths : Nat → List (List (F × F)) → Pic F → Option (Pic F)
  | _, [], p => some p
  | j, path :: rest, p => (drawPath [j, j + 1] zero path p).bind (drawPaths (j + 1) rest)

/-- `plotMapPaths(grid, paths)` before the display (io/gridplotter.hpp:178-197). -/
def plotMapPaths (g : Grid F) (paths : List (List (F × F))) : Option (Pic F) :=
  let w := g.shape.dims.getD 0 0
  let h := g.shape.dims.getD 1 0
  drawPaths 0 paths (Pic.fill w h 3 (fun x y _ => if g.occ (pixelCell w h x y) then ofNat 0 else ofNat 255))

/-- `plotArrivalTimesPath(grid, path)` before the colour table is applied (io/gridplotter.hpp:210-222). -/
def plotArrivalTimesPath (g : Grid F) (path : List (F × F)) : Option (Pic F) :=
  let w := g.shape.dims.getD 0 0
  let h := g.shape.dims.getD 1 0
  drawPath [0] (ofNat 255) path (Pic.fill w h 1 (fun x y _ => mul (div (g.value (pixelCell w h x y)) g.getMaxValue) (ofNat 255)))

/-- `plotFMStates(grid)` before the display (io/gridplotter.hpp:234-251). -/
def plotFMStates (g : Grid F) : Img Nat :=
  let w := g.shape.dims.getD 0 0
  let h := g.shape.dims.getD 1 0
  { w := w, h := h, px := fun x y =>
      match g.state (pixelCell w h x y) with
      | .narrow => 127
      | .opn => 255
      | .frozen => 0 }

end IO
end FMV
