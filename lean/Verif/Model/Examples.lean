import Verif.Model.Own
/-
The example programs (examples/*.cpp) as histories of calls of the memory model.

The solvers of a program are given by the list of their classes, the n-th one has the name n.  Local variables are created with `new` when they are declared and deleted,
in reverse order, at the end of `main`.  Simplifications: `setup()` and `computePath()` are `run` (they use the solver, what it owns and the grid); output, plots and files
are left out, and so is what `exit` does.
-/
namespace FMV.Own

/-- one solver after the other is created (examples/test_fm.cpp:39-55, test_fm2.cpp:41-51, test_fmm3d.cpp:27-29), the first one having the name `n` -/
def createFrom (n : Nat) : List Kind → List Call
  | [] => []
  | k :: ks => .newSolver n k :: createFrom (n + 1) ks

/-- examples/test_fm.cpp:27-96 -/
def testFm (ks : List Kind) : List Call :=
  .newGrid 0 :: (createFrom 0 ks ++ ((List.range ks.length).flatMap (fun i => [.setEnvironment i 0, .setPoints i, .run i, .run i]) ++
    ((List.range ks.length).map .delete ++ [.deleteGrid 0])))

/-- examples/test_fm2.cpp:22-76; the map is loaded anew into the same grid for every solver.  Left out: `as<FM2<FMGrid2D>>()` (line 67) casts FM2 objects with
other heaps and FM2* objects to a class they do not have, which is undefined by itself. -/
def testFm2 (ks : List Kind) : List Call :=
  .newGrid 0 :: (createFrom 0 ks ++ ((List.range ks.length).flatMap (fun i => [.setEnvironment i 0, .setPoints i, .run i, .run i]) ++
    ((List.range ks.length).map .delete ++ [.deleteGrid 0])))

/-- examples/test_fmm3d.cpp:16-42: the solvers are not deleted -/
def testFmm3d (ks : List Kind) : List Call :=
  .newGrid 0 :: (createFrom 0 ks ++ ((List.range ks.length).flatMap (fun i => [.setEnvironment i 0, .setPoints i, .run i]) ++ [.deleteGrid 0]))

/-- `benchmark.addSolver(new S)` for one solver after the other (examples/test_fm_benchmark.cpp:61-75) -/
def addFrom (n : Nat) : List Kind → List Call
  | [] => []
  | k :: ks => .newSolver n k :: .addSolver 0 n :: addFrom (n + 1) ks

/-- examples/test_fm_benchmark.cpp:27-81 -/
def testFmBenchmark (ks : List Kind) : List Call :=
  [.newGrid 0, .newBench 0, .benchEnv 0 0] ++ (addFrom 0 ks ++ [.benchRun 0, .benchDestroy 0, .deleteGrid 0])

/-- examples/full_example.cpp:27-168: the solvers and the grids are local variables; 0 is `grid`, 1 is `grid_vels`, 2 is `grid3`. -/
def fullExample : List Call :=
  [.newGrid 0, .newSolver 0 .plain, .setEnvironment 0 0, .setPoints 0, .run 0,
   .newSolver 1 .fm2, .setEnvironment 1 0, .setPoints 1, .run 1, .run 1,
   .newSolver 2 .fm2star, .setEnvironment 2 0, .setPoints 2, .run 2, .run 2,
   .newGrid 1, .newSolver 3 .plain, .setEnvironment 3 1, .setPoints 3, .run 3,
   .newGrid 2, .newSolver 4 .plain, .setEnvironment 4 2, .setPoints 4, .run 4,
   .delete 4, .deleteGrid 2, .delete 3, .deleteGrid 1, .delete 2, .delete 1, .delete 0, .deleteGrid 0]

end FMV.Own
