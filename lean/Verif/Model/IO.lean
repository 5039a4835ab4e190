import Verif.Model.Text
import Verif.Model.Grid
/-
Model of the text files written by `GridWriter` and read by `MapLoader` (include/fast_methods/io/{gridwriter,maploader}.hpp).

A file is its list of characters.  Output of a `double` (`operator<<`) is the parameter `fmt`.  Input follows `std::istream` as implemented in libstdc++
in the "C" locale: the characters of a number are collected (`scan`, `digits`), then converted; the conversion of the collected characters to a
`double` (`strtod`) is the parameter `conv`, giving the value stored and whether the conversion succeeded.  Failures of the operating system while
reading or writing, memory exhaustion and the console messages are not modelled.
-/
namespace FMV.IO
open Console Text Arith
variable {F : Type} [Arith F]

/-- `isspace` in the "C" locale -/
def isSpace (c : Char) : Bool := c = ' ' || c = '\t' || c = '\n' || c = '\x0b' || c = '\x0c' || c = '\r'

/-- a decimal digit -/
def isDigit (c : Char) : Bool := "0123456789".toList.contains c

/-- An input stream: the characters not yet extracted, and `good()` (none of `eofbit`, `failbit`, `badbit` set). -/
structure Strm where
  rest : Str
  good : Bool

/-- `file.open(filename)` of a file with this content, followed by `std::getline(file, val)` (io/maploader.hpp:99-104): the characters up to and including the
first line end are extracted; without a line end everything is extracted and `eofbit` set. -/
def openAndGetline (content : Str) : Strm :=
  if '\n' ∈ content then { rest := (content.dropWhile (· ≠ '\n')).drop 1, good := true } else { rest := [], good := false }

/-- The characters collected by `operator>>(double&)` (libstdc++ `num_get::_M_extract_float`) and the remaining ones.  `sgn`: a sign may come here
(at the start or after the exponent mark), `mant`: a digit was seen, `dec`: the point was seen, `sci`: the exponent mark was seen.
Simplification: repeated leading zeros are kept. -/
def scan (sgn mant dec sci : Bool) : Str → Str × Str
  | [] => ([], [])
  | c :: cs =>
    if isDigit c then let r := scan false true dec sci cs; (c :: r.1, r.2)
    else if sgn && (c = '+' || c = '-') then let r := scan false mant dec sci cs; (c :: r.1, r.2)
    else if c = '.' && !dec && !sci then let r := scan false mant true sci cs; (c :: r.1, r.2)
    else if (c = 'e' || c = 'E') && !sci && mant then let r := scan true mant dec true cs; (c :: r.1, r.2)
    else ([], c :: cs)

/-- `file >> x` for `double x` with value `old` before: the new value of `x` and the stream.  The sentry fails on a stream that is not `good` or has only white space
left, and then `x` is unchanged. -/
def readDouble (conv : Str → F × Bool) (s : Strm) (old : F) : F × Strm :=
  if !s.good then (old, s) else
  match s.rest.dropWhile isSpace with
  | [] => (old, { rest := [], good := false })
  | r =>
    let t := scan true false false false r
    ((conv t.1).1, { rest := t.2, good := (conv t.1).2 && !t.2.isEmpty })

/-- the value of a list of decimal digits -/
def digitsVal (s : Str) : Nat := s.foldl (fun a c => 10 * a + (c.toNat - 48)) 0

/-- `file >> n` for an unsigned integer type with `2^b` values and value `old` before (libstdc++ `num_get::_M_extract_int`): an optional sign, then digits; without
digits 0 is stored and `failbit` set, on overflow the largest value, and a negative number is converted modulo `2^b`. -/
def readUnsigned (b : Nat) (s : Strm) (old : Nat) : Nat × Strm :=
  if !s.good then (old, s) else
  match s.rest.dropWhile isSpace with
  | [] => (old, { rest := [], good := false })
  | c :: cs =>
    let neg := c = '-'
    let r := if c = '+' ∨ c = '-' then cs else c :: cs
    let ds := r.takeWhile isDigit
    let t := r.dropWhile isDigit
    let v := digitsVal ds
    if ds = [] then (0, { rest := t, good := false })
    else if 2 ^ b ≤ v then (2 ^ b - 1, { rest := t, good := false })
    else ((if neg then (2 ^ b - v) % 2 ^ b else v), { rest := t, good := !t.isEmpty })

/-- The loop reading `dimsize` (io/maploader.hpp:117-120); `junk` is the uninitialised content of the array. -/
def readDims : List Nat → Strm → List Nat × Strm
  | [], s => ([], s)
  | j :: js, s =>
    let d := readUnsigned 32 s j
    let r := readDims js d.2
    (d.1 :: r.1, r.2)

/-- The loop reading the occupancies (io/maploader.hpp:126-133) for the cells in `is`, with the variable `occupancy` holding `old`: the grid and the obstacle list. -/
def readCells (conv : Str → F × Bool) : List Nat → Strm → F → Grid F → List Nat → Grid F × List Nat
  | [], _, _, g, obs => (g, obs)
  | i :: is, s, old, g, obs =>
    let r := readDouble conv s old
    let g' := g.setVelocity i r.1
    readCells conv is r.2 r.1 g' (if g'.occ i then obs ++ [i] else obs)

/-- What `loadMapFromText` does: returns a number and leaves a grid, or ends the program. -/
inductive LoadOut (F : Type) where
  | returned (code : Nat) (g : Grid F)
  | exited

/-- the uninitialised variables of `loadMapFromText`: `leafsize`, `ndims_aux`, `dimsize` and `occupancy` (io/maploader.hpp:106-107, 117, 125) -/
structure LoadJunk (F : Type) where
  leaf : F
  nd : Nat
  dims : Nat → Nat
  occ : F

/-- `loadMapFromText(filename, grid)` for a grid with `nd` dimensions (io/maploader.hpp:94-142); `file` is the content of the file, `none` if it cannot be opened. -/
def loadMapFromText (conv : Str → F × Bool) (nd : Nat) (junk : LoadJunk F) (file : Option Str) (g : Grid F) : LoadOut F :=
  match file with
  | none => .returned 0 g
  | some content =>
    let s := openAndGetline content
    let l := readDouble conv s junk.leaf
    let n := readUnsigned 64 l.2 junk.nd
    if n.1 ≠ nd then .exited else
    let d := readDims ((List.range nd).map junk.dims) n.2
    let g1 := { g.resize d.1 with leaf := l.1 }
    let c := readCells conv (List.range g1.size) d.2 junk.occ g1 []
    .returned 1 (c.1.setOccupiedCells c.2)

/-- The header written by `saveGridValues` and `saveVelocities` (io/gridwriter.hpp:52-57, 86-91); `type()` of an `FMCell` is ndgridmap/fmcell.h:55. -/
def header (fmt : F → Str) (g : Grid F) : Str :=
  "FMCell - Fast Marching cell".toList ++ '\n' :: fmt g.leaf ++ '\n' :: decimal g.shape.ndims ++
  g.shape.dims.flatMap (fun d => '\n' :: decimal d ++ ['\t'])

/-- `saveVelocities(filename, grid)` (io/gridwriter.hpp:80-97): the content of the file. -/
def saveVelocities (fmt : F → Str) (g : Grid F) : Str :=
  header fmt g ++ (List.range g.size).flatMap (fun i => '\n' :: fmt (g.vel i))

/-- `saveGridValues(filename, grid)` (io/gridwriter.hpp:46-63). -/
def saveGridValues (fmt : F → Str) (g : Grid F) : Str :=
  header fmt g ++ (List.range g.size).flatMap (fun i => '\n' :: fmt (g.value i))

/-- `savePath(filename, grid, path)` (io/gridwriter.hpp:110-129). -/
def savePath (fmt : F → Str) (g : Grid F) (path : List (List F)) : Str :=
  fmt g.leaf ++ '\n' :: decimal g.shape.ndims ++ g.shape.dims.flatMap (fun d => '\n' :: decimal d ++ ['\t']) ++
  path.flatMap (fun p => '\n' :: p.flatMap (fun x => fmt x ++ ['\t']))

/-- `savePathVelocity(filename, grid, path, path_velocity)` (io/gridwriter.hpp:142-162), for a `path_velocity` of the length of `path`. -/
def savePathVelocity (fmt : F → Str) (g : Grid F) (path : List (List F × F)) : Str :=
  fmt g.leaf ++ '\n' :: decimal g.shape.ndims ++ g.shape.dims.flatMap (fun d => '\n' :: decimal d) ++
  path.flatMap (fun p => '\n' :: p.1.flatMap (fun x => fmt x ++ ['\t']) ++ fmt p.2)

/-! ### Images -/

/-- A `CImg<double>` with one channel: width, height and the pixels. -/
structure Img (α : Type) where
  w : Nat
  h : Nat
  px : Nat → Nat → α

/-- `cimg_forXY(img,x,y)`: rows from top to bottom, in each row from left to right. -/
def forXY (w h : Nat) : List (Nat × Nat) := (List.range h).flatMap (fun y => (List.range w).map (fun x => (x, y)))

/-- The index of the cell of pixel `(x,y)` (io/maploader.hpp:62 and io/gridplotter.hpp:65,88,109): `int` arithmetic converted to `unsigned`. -/
def pixelCell (w h x y : Nat) : Nat := u32 (w * (h - y - 1) + x)

/-- The loop of `loadMapFromImg` (io/maploader.hpp:60-66). -/
def imgCells (img : Img F) : List (Nat × Nat) → Grid F → List Nat → Grid F × List Nat
  | [], g, obs => (g, obs)
  | p :: ps, g, obs =>
    let idx := pixelCell img.w img.h p.1 p.2
    let g' := g.setVelocity idx (div (img.px p.1 p.2) (ofNat 255))
    imgCells img ps g' (if g'.occ idx then obs ++ [idx] else obs)

/-- `loadMapFromImg(filename, grid)` for an image with this content and a two-dimensional grid (io/maploader.hpp:49-68).  Simplification: the decoding of the file by CImg
is not modelled, and sizes are such that `int` arithmetic does not overflow. -/
def loadMapFromImg (img : Img F) (g : Grid F) : Grid F :=
  let c := imgCells img (forXY img.w img.h) (g.resize [img.w, img.h]) []
  c.1.setOccupiedCells c.2

/-- The image shown by `plotMap` (io/gridplotter.hpp:59-71). -/
def plotMap (g : Grid F) : Img Bool :=
  let w := g.shape.dims.getD 0 0
  let h := g.shape.dims.getD 1 0
  { w := w, h := h, px := fun x y => !g.occ (pixelCell w h x y) }

/-- The image shown by `plotOccupancyMap` (io/gridplotter.hpp:82-91). -/
def plotOccupancyMap (g : Grid F) : Img F :=
  let w := g.shape.dims.getD 0 0
  let h := g.shape.dims.getD 1 0
  { w := w, h := h, px := fun x y => mul (g.vel (pixelCell w h x y)) (ofNat 255) }

/-- The image shown by `plotArrivalTimes` before the colour table is applied (io/gridplotter.hpp:102-113). -/
def plotArrivalTimes (g : Grid F) : Img F :=
  let w := g.shape.dims.getD 0 0
  let h := g.shape.dims.getD 1 0
  { w := w, h := h, px := fun x y => mul (div (g.value (pixelCell w h x y)) g.getMaxValue) (ofNat 255) }

end FMV.IO
