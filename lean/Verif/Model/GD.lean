import Verif.Model.FM2
/-
Model of `GradientDescent::apply` (include/fast_methods/gradientdescent/gradientdescent.hpp) and of `FM2::computePath` (include/fast_methods/fm2/fm2.hpp:163-168).

Undefined behaviour (reading a cell outside the grid, converting a number to `int` that does not fit) is the outcome `none`.
The write `d_[ndims_-1]` one past the end of the local array `d_` (gradientdescent.hpp:77-79) happens in every call (`fillD`, C48_refuted_gradient) and is therefore not
part of `init`; the value written is never read.
-/
namespace FMV
open Arith
variable {F : Type} [Arith F]
namespace GD

/-- Distance between the indices of neighbours in dimension `i`: 1 in dimension 0, `d_[i-1]` otherwise (gradientdescent.hpp:77-79, 94, 100). -/
def stride (s : Shape) (i : Nat) : Nat := if i = 0 then 1 else (partials 1 s.dims).getD (i - 1) 0

/-- `grid[k].getValue()` (ndgridmap/ndgridmap.hpp:104-107): `none` outside the grid. -/
def read (g : Grid F) (k : Nat) : Option F := if k < g.shape.ncells then some (g.value k) else none

/-- `sgn<double>` (gradientdescent.hpp:37-39) -/
def sgn (x : F) : F := ofRat ((if lt zero x then 1 else 0) - (if lt x zero then 1 else 0)) 1

/-- `grads[i]` (gradientdescent.hpp:94-96, 100-102) -/
def grad (g : Grid F) (idx i : Nat) : Option F :=
  match read g (u32sub idx (stride g.shape i)), read g (u32 (idx + stride g.shape i)) with
  | some a, some b =>
    let r := add (div (neg a) (ofRat 2 1)) (div b (ofRat 2 1))
    some (if isInf r then sgn r else r)
  | _, _ => none

/-- all gradients: the loop of gradientdescent.hpp:94-105 without `max_grad` -/
def grads (g : Grid F) (idx : Nat) : Option (List F) := (List.range g.shape.ndims).mapM (grad g idx)

/-- `max_grad` (gradientdescent.hpp:97, 103-104) -/
def maxGrad : List F → F
  | [] => zero
  | x :: xs => xs.foldl (fun m y => if lt (abs m) (abs y) then y else m) (abs x)

/-- The variables of the loop: `idx`, `current_point`, `path`, `path_velocity`. -/
structure St (F : Type) where
  idx : Nat
  point : List F
  path : List (List F)
  vels : List F

/-- Coordinates as a point: `std::copy_n(current_coord, current_point)`. -/
def toPoint (cs : List Nat) : List F := cs.map ofNat

/-- Everything before the loop (gradientdescent.hpp:81-84). -/
def init (g : Grid F) (idx : Nat) : Option (St F) :=
  if idx < g.shape.ncells then some ⟨idx, toPoint (g.shape.idx2coord idx), [toPoint (g.shape.idx2coord idx)], [g.vel idx]⟩ else none

/-- The loop condition `grid[idx].getArrivalTime() != 0` (gradientdescent.hpp:88) fails. -/
def Done (g : Grid F) (s : St F) : Prop := eq (g.value s.idx) zero = true

/-- `int` to `unsigned` -/
def toU32 (z : Int) : Nat := (z % 4294967296).toNat

/-- New coordinates: `current_coord[i] = int(current_point[i]+0.5)` (gradientdescent.hpp:111). -/
def toCoord (p : List F) : Option (List Nat) := (p.mapM (fun x => truncInt (add x (ofRat 1 2)))).map (fun l => l.map toU32)

/-- `current_point[i] - step*grads[i]/std::abs(max_grad)` (gradientdescent.hpp:110) -/
def move (step : F) (p gr : List F) : List F := List.zipWith (fun x y => sub x (div (mul step y) (abs (maxGrad gr)))) p gr

/-- The body of the loop (gradientdescent.hpp:89-116) followed by the read of the arrival time in the loop condition. -/
def next (g : Grid F) (step : F) (s : St F) : Option (St F) :=
  match grads g s.idx with
  | none => none
  | some gr =>
    match toCoord (move step s.point gr) with
    | none => none
    | some cs =>
      let idx := g.shape.coord2idx cs
      if idx < g.shape.ncells then some ⟨idx, move step s.point gr, s.path ++ [move step s.point gr], s.vels ++ [g.vel s.idx]⟩ else none

/-- One iteration. -/
def Step (g : Grid F) (step : F) (s s' : St F) : Prop := ¬ Done g s ∧ next g step s = some s'

/-- `apply(grid, idx, path, path_velocity, step)` with empty `path` and `path_velocity` returns (gradientdescent.hpp:69-123); `idx'` is the value left in the
reference parameter `idx`. -/
def Runs (g : Grid F) (idx : Nat) (step : F) (path : List (List F)) (vels : List F) (idx' : Nat) : Prop :=
  ∃ s0 n s, init g idx = some s0 ∧ FMM.Steps (Step g step) n s0 s ∧ Done g s ∧ path = s.path ++ [toPoint (g.shape.idx2coord s.idx)] ∧
    vels = s.vels ++ [g.vel s.idx] ∧ idx' = s.idx

/-- Assignment to an element of a `std::array`: `none` if there is no such element. -/
def put (a : List Nat) (i v : Nat) : Option (List Nat) := if i < a.length then some (a.set i v) else none

/-- The loop `for (size_t i = 1; i < ndims_; ++i) d_[i] = dimsize[i]*d_[i-1];` (gradientdescent.hpp:78-79), `n` iterations from `i` on. -/
def fillLoop (dims : List Nat) : Nat → Nat → List Nat → Option (List Nat)
  | 0, _, a => some a
  | n + 1, i, a => match a[i-1]? with
    | none => none
    | some p => match put a i (u32 (dims.getD i 0 * p)) with
      | none => none
      | some b => fillLoop dims n (i + 1) b

/-- The initialisation of the local array `d_`, whose declared size is the length of `a` (gradientdescent.hpp:76-79); `none` if an element is accessed that does not exist. -/
def fillD (dims a : List Nat) : Option (List Nat) :=
  match put a 0 (dims.getD 0 0) with
  | none => none
  | some b => fillLoop dims (dims.length - 1) 1 b

end GD

/-- `FM2::computePath(path, path_velocity, step)` (fm2/fm2.hpp:163-168): `apply` gets `init_points_[0]` by reference. -/
def FM2.Obj.ComputesPath (o : FM2.Obj F) (g : Grid F) (step : F) (path : List (List F)) (vels : List F) (o' : FM2.Obj F) : Prop :=
  ∃ idx', GD.Runs g (o.pts.headD 0) step path vels idx' ∧ o' = { o with pts := o.pts.set 0 idx' }

end FMV
