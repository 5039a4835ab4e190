import Verif.Model.Solver
import Verif.Model.IO
/-
What the library prints about a cell, a grid, coordinates and a solver (console/console.cpp:148-157,165-170; ndgridmap/cell.cpp:25-33; ndgridmap/fmcell.cpp:25-47;
ndgridmap/ndgridmap.hpp:49-63,225-249; `printRunInfo`).  `fmt` is `os << x` for a `double` with the stream's default format.
-/
namespace FMV.Print
open Console
variable {F : Type} [Arith F]

/-- `console::info(val)`, `console::str_info(val)` (console.cpp:148-151, 165-170): a coloured line -/
def info (s : Str) : Str := "\x1b[1;34m[INFO] ".toList ++ s ++ "\x1b[0m".toList ++ ['\n']

/-- `console::warning(val)` (console.cpp:154-157) -/
def warning (s : Str) : Str := "\x1b[1;33m[WARNING] ".toList ++ s ++ "\x1b[0m".toList ++ ['\n']

/-- the name of a state (ndgridmap/fmcell.cpp:34-44) -/
def stateName : FMState → Str
  | .opn => "OPEN".toList
  | .narrow => "NARROW".toList
  | .frozen => "FROZEN".toList

/-- `os << c` for a `Cell` (ndgridmap/cell.cpp:25-33) -/
def cellText (fmt : F → Str) (c : Cell F) : Str :=
  info "Basic cell information:".toList ++ "\tIndex: ".toList ++ (Text.decimal c.index ++ '\n' :: ("\tValue: ".toList ++ (fmt c.value ++ '\n' ::
    ("\tOccupancy: ".toList ++ (fmt c.occupancy ++ ['\n'])))))

/-- `os << c` for an `FMCell` (ndgridmap/fmcell.cpp:25-47) -/
def fmCellText (fmt : F → Str) (c : Cell F) : Str :=
  info "Fast Marching cell information:".toList ++ "\tIndex: ".toList ++ (Text.decimal c.index ++ '\n' :: ("\tValue: ".toList ++ (fmt c.value ++ '\n' ::
    ("\tVelocity: ".toList ++ (fmt c.occupancy ++ '\n' :: ("\tState: ".toList ++ (stateName c.state ++ ['\n'])))))))

/-- the lines with the sizes of the dimensions from dimension `i` on (ndgridmap/ndgridmap.hpp:58-59) -/
def dimLines : Nat → List Nat → Str
  | _, [] => []
  | i, d :: ds => "\t\td".toList ++ (Text.decimal i ++ ("\tsize: ".toList ++ (Text.decimal d ++ '\n' :: dimLines (i + 1) ds)))

/-- `os << g` for a grid of `FMCell`s (ndgridmap/ndgridmap.hpp:49-63); `none`: the type is asked of `getCell(0)`, which a grid without cells does not have. -/
def gridText (fmt : F → Str) (g : Grid F) : Option Str :=
  if g.shape.ncells = 0 then none else
  some (info "Grid cell information".toList ++ "\tFMCell - Fast Marching cell\n\t".toList ++ (Text.decimal g.shape.ncells ++ ' ' :: ("cells.\n\t".toList ++
    (fmt g.leaf ++ ' ' :: ("leafsize (m).\n\t".toList ++ (Text.decimal g.shape.ndims ++ ' ' :: ("dimensions:\n".toList ++ dimLines 0 g.shape.dims)))))))

/-- `showCoords(coords)` (ndgridmap/ndgridmap.hpp:236-241) -/
def coordsText (cs : List Nat) : Str := cs.flatMap (fun c => Text.decimal c ++ ['\t']) ++ ['\n']

/-- `showCoords(idx)` (ndgridmap/ndgridmap.hpp:226-233) -/
def showCoords (s : Shape) (idx : Nat) : Str := coordsText (s.idx2coord idx)

/-- `showIdx(coords)` (ndgridmap/ndgridmap.hpp:244-249) -/
def showIdx (s : Shape) (cs : List Nat) : Str := Text.decimal (s.coord2idx cs) ++ ['\n']

/-- the number printed for a `HeurStrategy` (fm/fmm.hpp:62) -/
def heurCode : Heur → Nat
  | .none => 0
  | .time => 1
  | .distance => 2

/-- the end of the information: `time_` is a `double` -/
def elapsed (fmt : F → Str) (time : F) : Str := "\tElapsed time: ".toList ++ (fmt time ++ " ms\n".toList)

/-- `printRunInfo()` of a solver with the name `name` and the last measured time `time` (fm/fmm.hpp:217-223, inherited by FMM*, SFMM, SFMM*; fm/fsm.hpp:106-113; fm/lsm.hpp:87-94; fm/ddqm.hpp:163-168;
fm/ufmm.hpp:99-106; fm/solver.hpp:192-195, inherited by FIM and GMM). -/
def runInfo (fmt : F → Str) (o : Obj F) (name : Str) (time : F) : Str :=
  match o.kind with
  | .fmm _ _ => info "Fast Marching Method".toList ++ '\t' :: (name ++ '\n' :: ("\tHeuristic type: ".toList ++ (Text.decimal (heurCode o.heur) ++ '\n' :: elapsed fmt time)))
  | .fsm m => info "Fast Sweeping Method".toList ++ '\t' :: (name ++ '\n' :: ("\tMaximum sweeps: ".toList ++ (Text.decimal m ++ '\n' :: ("\tSweeps performed: ".toList ++
      (Text.decimal o.sweeps ++ '\n' :: elapsed fmt time)))))
  | .lsm m => info "Lock Sweeping Method".toList ++ '\t' :: (name ++ '\n' :: ("\tMaximum sweeps: ".toList ++ (Text.decimal m ++ '\n' :: ("\tSweeps performed: ".toList ++
      (Text.decimal o.sweeps ++ '\n' :: elapsed fmt time)))))
  | .ddqm => info "Double Dynamic Queue Method".toList ++ '\t' :: (name ++ '\n' :: elapsed fmt time)
  | .ufmm s inc _ => info "Untidy Fast Marching Method".toList ++ '\t' :: (name ++ '\n' :: ("\tNumber of buckets: ".toList ++ (Text.decimal s ++ '\n' :: ("\tMaximum increment ".toList ++
      (fmt inc ++ '\n' :: elapsed fmt time)))))
  | .fim _ => warning "No run info available.".toList
  | .gmm _ => warning "No run info available.".toList

end FMV.Print
