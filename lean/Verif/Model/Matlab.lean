import Verif.Model.IO
/-
Model of the MATLAB scripts that read and write the library's text files (scripts/*.m).

Numbers of MATLAB are of the type `F`; `num` is the value of a text that is a number (`none` if it is not), `nat` the natural number that a number used as a size or an
index is (`none` if it is none, which stops the script).  A script gives `none` if it stops with an error.  Simplifications: numbers used as sizes or as indices are
computed with natural numbers; a text that only begins with a number ends `fscanf` without this number; in `reshape` and `size` the dimensions of size 1 at the end
are dropped as MATLAB does (at least two dimensions remain).
-/
namespace FMV.Matlab
open Console Text Arith FMV.IO
variable {F : Type} [Arith F]

/-- The words of a text, `cur` being the beginning of the first one. -/
def wordsFrom (cur : Str) : Str → List Str
  | [] => if cur = [] then [] else [cur]
  | c :: cs => if isSpace c then (if cur = [] then wordsFrom [] cs else cur :: wordsFrom [] cs) else wordsFrom (cur ++ [c]) cs

/-- the words of a text, separated by white space -/
def words (s : Str) : List Str := wordsFrom [] s

/-- The numbers at the beginning of a list of words. -/
def numbers (num : Str → Option F) : List Str → List F
  | [] => []
  | w :: ws => match num w with
    | some x => x :: numbers num ws
    | none => []

/-- `fscanf(fid, '%f')` (scripts/parseGrid.m:5, parsepath.m:4, parsepathvel.m:4) -/
def fscanf (num : Str → Option F) (s : Str) : List F := numbers num (words s)

/-- `data(i)`: MATLAB counts from 1 -/
def elem (data : List F) (i : Nat) : Option F := if i = 0 then none else data[i - 1]?

/-! ### Arrays -/

/-- A matrix; `get` counts from 0. -/
structure Mat (F : Type) where
  rows : Nat
  cols : Nat
  get : Nat → Nat → F

/-- `zeros(r, c)` -/
def zeros (r c : Nat) : Mat F := { rows := r, cols := c, get := fun _ _ => zero }

/-- `m(r,c) = x` (here counted from 0): a matrix that is too small is extended -/
def Mat.set (m : Mat F) (r c : Nat) (x : F) : Mat F :=
  { rows := max m.rows (r + 1), cols := max m.cols (c + 1), get := fun i j => if i = r ∧ j = c then x else m.get i j }

/-- An array with several dimensions; `get` has the subscripts counted from 0. -/
structure Arr (F : Type) where
  dims : List Nat
  get : List Nat → F

/-- the linear index of the subscripts `cs` (the first one runs fastest) -/
def linear : List Nat → List Nat → Nat
  | d :: ds, c :: cs => c + d * linear ds cs
  | _, _ => 0

/-- the subscripts of the linear index `k` -/
def subscripts : List Nat → Nat → List Nat
  | [], _ => []
  | d :: ds, k => k % d :: subscripts ds (k / d)

/-- the sizes of an array without the ones at the end (at least two remain) -/
def trim (dims : List Nat) : List Nat :=
  dims.take 2 ++ ((dims.drop 2).reverse.dropWhile (· = 1)).reverse

/-- `reshape(data, dims)`: fails for less than two sizes and for another number of elements -/
def reshape (data : List F) (dims : List Nat) : Option (Arr F) :=
  if dims.length < 2 ∨ data.length ≠ dims.prod then none
  else some { dims := trim dims, get := fun cs => data.getD (linear dims cs) zero }

/-- `a'` for a matrix -/
def transpose (a : Arr F) : Arr F := { dims := a.dims.reverse, get := fun cs => a.get cs.reverse }

/-- `a(:)` -/
def Arr.column (a : Arr F) : List F := (List.range a.dims.prod).map (fun k => a.get (subscripts a.dims k))

/-! ### The scripts -/

/-- What `parseGrid` gives. -/
structure ParsedGrid (F : Type) where
  celltype : Str
  leafsize : F
  ndims : Nat
  dimsize : List Nat
  cells : Arr F

/-- The loop reading the sizes (scripts/parseGrid.m:10-13, parsepath.m:10-13, parsepathvel.m:10-13) -/
def sizes (nat : F → Option Nat) (data : List F) (nd : Nat) : Option (List Nat) :=
  (List.range nd).mapM (fun i => (elem data (i + 1 + 2)).bind nat)

/-- `parseGrid(filename)` for a file with this content (scripts/parseGrid.m:1-25).  Simplification: a grid without dimensions is an error (in MATLAB the variable `i`
is empty then). -/
def parseGrid (num : Str → Option F) (nat : F → Option Nat) (file : Str) : Option (ParsedGrid F) := do
  let celltype := file.takeWhile (· ≠ '\n')
  let data := fscanf num ((file.dropWhile (· ≠ '\n')).drop 1)
  let leafsize ← elem data 1
  let nd ← (elem data 2).bind nat
  if nd = 0 then none else
  let dimsize ← sizes nat data nd
  let cells := data.drop (nd + 2)
  let a ← reshape cells dimsize
  some { celltype := celltype, leafsize := leafsize, ndims := nd, dimsize := dimsize, cells := if nd = 2 then transpose a else a }

/-- The inner loop of `parsepath` and `parsepathvel` (scripts/parsepath.m:19-21, parsepathvel.m:19-21): row `count` (from 1 on) gets the elements from `i` on, plus one. -/
def fillRow (data : List F) (nd i count : Nat) (m : Mat F) : Option (Mat F) :=
  (List.range nd).foldlM (fun m j => (elem data (i + (j + 1) - 1)).map (fun x => m.set (count - 1) j (add x (ofNat 1)))) m

/-- the number of values of the range `a:step:b` -/
def rangeLen (a step b : Nat) : Nat := if b < a then 0 else (b - a) / step + 1

/-- `(a - b) / c`, if it is a natural number (`zeros` fails for another number of rows) -/
def rowCount (a b c : Nat) : Option Nat := if b ≤ a ∧ c ≠ 0 ∧ (a - b) % c = 0 then some ((a - b) / c) else none

/-- `parsepath(filename)` for a file with this content (scripts/parsepath.m:1-22) -/
def parsepath (num : Str → Option F) (nat : F → Option Nat) (file : Str) : Option (Mat F) := do
  let data := fscanf num file
  let _ ← elem data 1
  let nd ← (elem data 2).bind nat
  let _ ← sizes nat data nd
  let rows ← rowCount data.length (nd + 2) nd
  (List.range (rangeLen (nd + 3) nd data.length)).foldlM (fun m k => fillRow data nd (nd + 3 + k * nd) (k + 1) m) (zeros rows nd)

/-- `parsepathvel(filename)` for a file with this content (scripts/parsepathvel.m:1-23): the path and the velocities. -/
def parsepathvel (num : Str → Option F) (nat : F → Option Nat) (file : Str) : Option (Mat F × List F) := do
  let data := fscanf num file
  let _ ← elem data 1
  let nd ← (elem data 2).bind nat
  let _ ← sizes nat data nd
  let rows ← rowCount data.length (nd + 2) nd
  (List.range (rangeLen (nd + 3) (nd + 1) data.length)).foldlM (fun m k => do
    let p ← fillRow data nd (nd + 3 + k * (nd + 1)) (k + 1) m.1
    let v ← elem data (nd + 3 + k * (nd + 1) + nd)
    some (p, m.2 ++ [v])) (zeros rows nd, [])

/-- `saveGridToFile(grid, filename, leafsize)` (scripts/saveGridToFile.m:4-23): the content of the file; `leaf` is the text of the leaf size (`1.0` without the third
argument, otherwise what `%f` prints), `fmt2` is what `%.2f` prints. -/
def saveGridToFile (fmt2 : F → Str) (leaf : Str) (a : Arr F) : Str :=
  "FMCell - Fast Marching Cell".toList ++ '\n' :: (leaf ++ '\n' :: (decimal a.dims.length ++ '\n' ::
    (a.dims.flatMap (fun d => decimal d ++ ['\n']) ++ a.column.flatMap (fun x => fmt2 x ++ ['\n']))))

/-- The loop of `idx2coord.m` (scripts/idx2coord.m:13-19) for the dimensions `k, k-1, ..., 1` (from 0 on), `aux` being what remains. -/
def idx2coordLoop (d : List Nat) : Nat → Nat → List Nat
  | 0, aux => [aux]
  | k + 1, aux => idx2coordLoop d k (aux - aux / d.getD k 0 * d.getD k 0) ++ [aux / d.getD k 0]

/-- the products of the sizes (scripts/idx2coord.m:5-9) -/
def products (acc : Nat) : List Nat → List Nat
  | [] => []
  | d :: ds => acc * d :: products (acc * d) ds

/-- One row of the result of `idx2coord(ndims, dimsize, path)` (scripts/idx2coord.m:11-23), for `ndims` at least 2.  Simplification: natural numbers instead of floating-point
ones (all numbers are integers). -/
def idx2coord (dimsize : List Nat) (idx : Nat) : List Nat :=
  (idx2coordLoop (products 1 dimsize) (dimsize.length - 1) idx).map (· + 1)

/-! ### The benchmark log -/

/-- `regexprep(txt, '\s+', '\t')` (scripts/parseBenchmarkLog.m:4): `sp` tells that the last character was white space. -/
def collapse (sp : Bool) : Str → Str
  | [] => []
  | c :: cs => if isSpace c then (if sp then collapse true cs else '\t' :: collapse true cs) else c :: collapse false cs

/-- `regexp(txt, '[\t\n]', 'split')` (scripts/parseBenchmarkLog.m:5), `cur` being the beginning of the first piece -/
def splitFrom (cur : Str) : Str → List Str
  | [] => [cur]
  | c :: cs => if c = '\t' ∨ c = '\n' then cur :: splitFrom [] cs else splitFrom (cur ++ [c]) cs

/-- What `parseBenchmarkLog` gives.  `exp` has the name of each solver and the times of its runs. -/
structure ParsedLog (F : Type) where
  name : Str
  nruns : Nat
  ndims : Nat
  dimsize : List F
  startpoints : List F
  goalpoint : F
  nexp : Nat
  exp : List (Str × List F)

/-- `txt{i}` -/
def piece (txt : List Str) (i : Nat) : Option Str := if i = 0 then none else txt[i - 1]?

/-- `str2double`, given the value for a text that is not a number -/
def str2double (num : Str → Option F) (nan : F) (s : Str) : F := (num s).getD nan

/-- `parseBenchmarkLog` from the pieces of the file on (scripts/parseBenchmarkLog.m:7-44).  Left out: the numbers of the runs (`id`), which are not part of the
result. -/
def parsePieces (num : Str → Option F) (nan : F) (nat : F → Option Nat) (txt : List Str) : Option (ParsedLog F) := do
  let name ← piece txt 1
  let nruns ← (piece txt 2).bind (fun s => nat (str2double num nan s))
  let nd ← (piece txt 3).bind (fun s => nat (str2double num nan s))
  let dimsize ← (List.range nd).mapM (fun i => (piece txt (i + 1 + 3)).map (str2double num nan))
  let ns ← (piece txt (4 + nd)).bind (fun s => nat (str2double num nan s))
  let starts ← (List.range ns).mapM (fun i => (piece txt (4 + nd + (i + 1))).map (str2double num nan))
  let goal ← (piece txt (5 + nd + ns)).map (str2double num nan)
  let hs := 5 + nd + ns
  let nexp ← rowCount txt.length hs 3
  let solvers ← (List.range nexp).mapM (fun i => piece txt (hs + i * 3 + 1 + 1))
  let times ← (List.range nexp).mapM (fun i => (piece txt (hs + i * 3 + 1 + 2)).map (str2double num nan))
  let groups ← rowCount nexp 0 nruns
  let exp ← (List.range groups).mapM (fun i => (piece solvers (i * nruns + 1)).map (fun s => (s, (times.drop (i * nruns)).take nruns)))
  some { name := name, nruns := nruns, ndims := nd, dimsize := dimsize, startpoints := starts, goalpoint := goal, nexp := nexp, exp := exp }

/-- `parseBenchmarkLog(path_to_file)` for a file with this content (scripts/parseBenchmarkLog.m:1-44). -/
def parseBenchmarkLog (num : Str → Option F) (nan : F) (nat : F → Option Nat) (file : Str) : Option (ParsedLog F) :=
  parsePieces num nan nat (splitFrom [] (collapse false file))

end FMV.Matlab
