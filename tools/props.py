#!/usr/bin/env python3
# Generates /verif/properties.jsonl (single place to edit the English property list).
import json
P=[]
def p(title, statement, quantifier, why, anchors):
    P.append(dict(id="C%02d"%(len(P)+1), title=title, statement=statement, quantifier=quantifier,
                  why_tests_cant=why, anchors=anchors))
GM="include/fast_methods/ndgridmap/ndgridmap.hpp"
SO="include/fast_methods/fm/solver.hpp"
EK="include/fast_methods/fm/eikonalsolver.hpp"
FM="include/fast_methods/fm/fmm.hpp"
FS="include/fast_methods/fm/fsm.hpp"
LS="include/fast_methods/fm/lsm.hpp"
DQ="include/fast_methods/fm/ddqm.hpp"
GMM="include/fast_methods/fm/gmm.hpp"
FI="include/fast_methods/fm/fim.hpp"
UF="include/fast_methods/fm/ufmm.hpp"
UQ="include/fast_methods/thirdparty/untidy_queue.hpp"
F2="include/fast_methods/fm2/fm2.hpp"
F2S="include/fast_methods/fm2/fm2star.hpp"
GD="include/fast_methods/gradientdescent/gradientdescent.hpp"
ML="include/fast_methods/io/maploader.hpp"
GW="include/fast_methods/io/gridwriter.hpp"
GP="include/fast_methods/io/gridplotter.hpp"
CO="src/console/console.cpp"
BM="include/fast_methods/benchmark/benchmark.hpp"
BC="include/fast_methods/benchmark/benchmarkcfg.hpp"
CE="include/fast_methods/ndgridmap/fmcell.h"
UT="include/fast_methods/utils/utils.h"

p("Index/coordinate conversion is a bijection",
  "For a grid with at least two dimensions whose cell count fits in 32 bits, idx2coord followed by coord2idx returns the same index for every index below size(), coord2idx followed by idx2coord returns the same coordinates for all in-range coordinates, every index maps to in-range coordinates and every in-range coordinate maps to an index below size().",
  "every number of dimensions >= 2, every vector of positive dimension sizes with product below 2^32, every index and every coordinate",
  "The set of dimension vectors and indices is unbounded and the 32-bit partial products only go wrong at extreme sizes no test allocates.",
  [GM+":idx2coord", GM+":coord2idx", GM+":resize"])
p("getNeighbors returns exactly the axis neighbours",
  "getNeighbors(idx) lists, without repetition, exactly the cells whose coordinates differ from those of idx by one in exactly one dimension; every listed index is below size(), and never more than 2*ndims are listed.",
  "every grid shape (ndims >= 2, positive sizes) with at most 2^31 cells and every in-range index",
  "The candidate test relies on unsigned wrap-around and integer division; it misbehaves only for index/size combinations near the 32-bit limit that cannot be allocated in a test.",
  [GM+":getNeighbors", GM+":getNeighborsInDim"])
p("Adjacency is symmetric",
  "Cell j is reported as a neighbour of i exactly when i is reported as a neighbour of j, and no cell is its own neighbour.",
  "every grid shape with at most 2^31 cells and every pair of in-range indices",
  "Quantifies over all pairs of cells of all grids.",
  [GM+":getNeighbors"])
p("getMinValueInDim is the minimum over the real neighbours of that dimension",
  "getMinValueInDim(idx, dim) returns the smaller of the values of the existing neighbours of idx along dim, independently of which neighbour queries were made before.",
  "every grid shape, cell contents, index, dimension and every previous content of the grid's scratch neighbour buffer",
  "The function reuses a scratch buffer from earlier calls, so its result could depend on the call history; tests only see some histories.",
  [GM+":getMinValueInDim", GM+":getNeighborsInDim"])
p("resize builds a complete fresh grid",
  "After resize(dims) the grid has exactly prod(dims) cells, cell i carries index i, every cell is in its default state (infinite time, unit speed, OPEN), getDimSizes returns dims and the grid reports clean, whatever it contained before.",
  "every dimension vector whose product fits in 32 bits and every previous grid content",
  "All sizes and all previous histories of the object.",
  [GM+":resize", GM+":nDGridMap", CE+":FMCell"])
p("getMaxValue and getMaxSpeed are true maxima, getAvgSpeed the mean of the free cells",
  "getMaxValue returns the largest finite arrival time stored (0 if there is none above 0), getMaxSpeed the largest velocity (0 if none above 0); each is attained by some cell or is 0. getAvgSpeed is the mean of the velocities of the cells that are not obstacles.",
  "every grid content, including infinite and NaN entries",
  "All contents of arrays of every length.",
  [GM+":getMaxValue", GM+":getMaxSpeed"])
p("Cleaning restores a pristine grid and keeps the map",
  "clean() on a grid that is not clean resets every cell to infinite time, zero heuristic, bucket 0 and OPEN while leaving velocities, indices, sizes, leaf size and obstacle list unchanged; on a grid flagged clean it changes nothing.",
  "every grid content and flag",
  "All grid contents.",
  [GM+":clean", CE+":setDefault", "src/ndgridmap/fmcell.cpp:setDefault"])
p("solveEikonal returns the upwind solution of the discretised Eikonal equation",
  "When at least one axis direction offers a finite neighbour time below the cell's own time and the speed is positive, solveEikonal(idx) returns a finite time U such that for the k smallest usable directional minima T1..Tk: sum (U-Tj)^2 = (leafsize/velocity)^2, U >= Tj for each of them, and every unused usable direction exceeds U - COMP_MARGIN.",
  "every grid, cell, number of dimensions, speed and leaf size > 0, every assignment of non-negative arrival times (exact real arithmetic with infinities); all dimensions of at least two cells",
  "Ranges over a continuum of neighbour values and all dimensions; the early-exit rule only matters on thin value sets.",
  [EK+":solveEikonal", EK+":solveEikonalNDims"])
p("solveEikonal bounds and definedness",
  "solveEikonal(idx) is +infinity exactly when no axis direction has a finite neighbour time below the cell's own; otherwise it is a finite number, strictly greater than the smallest usable neighbour time and at most that time plus leafsize/velocity; it is never NaN.",
  "every grid, cell, speed and leaf size > 0, non-negative arrival times (exact arithmetic); all dimensions of at least two cells",
  "Negative discriminants and NaN arise only for particular real triples.",
  [EK+":solveEikonal", EK+":solveEikonalNDims"])
p("Start points keep arrival time zero",
  "After compute() every given initial point has arrival time 0.",
  "every grid, set of initial points, solver (FMM, SFMM, FIM, GMM, UFMM, FSM, LSM, DDQM), every intermediate state of the run; all dimensions of at least two cells",
  "Depends on the geometry of the initial points relative to each other and on the order in which the queue releases them; example runs use one start.",
  [FM+":computeInternal", UF+":computeInternal", FI+":computeInternal", GMM+":computeInternal", FS+":computeInternal", LS+":computeInternal", DQ+":computeInternal"])
p("Obstacles are never entered",
  "No solver ever changes the arrival time of an occupied cell that is not itself an initial point; on a clean grid it stays infinite.",
  "every grid, obstacle layout, initial points, goal, solver, every state during the run, any floating-point semantics",
  "Holds for every intermediate state of every run.",
  [FM+":computeInternal", FS+":recursiveIteration", DQ+":computeInternal", GMM+":computeInternal", FI+":computeInternal", UF+":computeInternal", "include/fast_methods/ndgridmap/cell.h:isOccupied"])
p("A frozen cell is final in FMM",
  "In FMM/SFMM (with or without heuristics) once a cell has been marked FROZEN neither its arrival time nor its state changes for the rest of the run.",
  "every grid, run, pop order of the narrow band and any floating-point semantics",
  "All reachable states and all tie-breaking choices of the heap.",
  [FM+":computeInternal"])
p("FMM terminates with a linear number of expansions",
  "FMM::compute with a D-ary or Fibonacci narrow band always terminates; it pops the narrow band at most (number of cells + number of initial points) times.",
  "every grid, initial points, goal, velocities (including NaN/0/negative), pop order and any floating-point semantics",
  "Termination for all inputs is not testable.",
  [FM+":computeInternal"])
p("FMM freezes exactly the reachable cells",
  "When FMM runs without a goal, at the end the FROZEN cells are exactly the initial points plus the free cells that are connected to an initial point through free cells by axis moves.",
  "every grid, obstacle layout and set of initial points, any pop order and floating-point semantics",
  "Graph connectivity over all layouts.",
  [FM+":computeInternal", GM+":getNeighbors"])
p("FMM freezes cells in non-decreasing order of arrival time",
  "In FMM without heuristics cells are frozen in non-decreasing order of arrival time, and no cell still in the narrow band ever gets a time below that of an already frozen cell.",
  "every grid with positive speeds, non-adjacent initial points, every min-ordered heap (exact arithmetic); all dimensions of at least two cells",
  "Invariant over every step of every run; it depends on the margin-tolerant update rule.",
  [FM+":computeInternal", "include/fast_methods/datastructures/fmcompare.hpp:FMCompare"])
p("FMM computes the discrete Eikonal solution",
  "When FMM (no heuristics) finishes without goal, each cell's arrival time T satisfies T* <= T <= T* + 2*N*COMP_MARGIN where T* is the exact solution of the upwind discretised Eikonal equation and N the number of cells; unreachable cells are infinite in both.",
  "every grid shape (all dimensions at least 2 cells), positive speeds, leaf size, non-adjacent initial points, min-ordered heap (exact real arithmetic)",
  "Accuracy for all inputs cannot be enumerated, and no independent reference solution exists to test against.",
  [FM+":computeInternal", EK+":solveEikonal"])
p("The discrete Eikonal problem is well posed",
  "For every grid, obstacle layout and non-empty set of sources there is exactly one arrival-time map satisfying the upwind discretised Eikonal equation.",
  "every grid with positive speeds and leaf size and every set of sources",
  "Existence and uniqueness over a continuum; without it 'the' solution compared against is meaningless.",
  [EK+":solveEikonal"])
p("No solver underestimates arrival times",
  "At every moment of a run of FMM, FMM*, SFMM, GMM, FIM, UFMM, FSM, LSM or DDQM started on a clean grid, every arrival time is at least the exact discrete solution T*.",
  "every grid with positive speeds, initial points, goal, heuristic, queue order and solver parameters (exact arithmetic); all dimensions of at least two cells",
  "Every intermediate state of every solver.",
  [FM+":computeInternal", GMM+":computeInternal", FI+":computeInternal", UF+":computeInternal", FS+":solveForIdx", LS+":solveForIdx", DQ+":computeInternal"])
p("Stopping at the goal does not change the goal's arrival time",
  "Running FMM with a goal yields, for the goal and every other cell frozen by then, exactly the arrival time FMM without a goal yields.",
  "every grid, initial points, goal, pop order (same tie-breaking) and any floating-point semantics",
  "Relates two runs for every input.",
  [FM+":computeInternal"])
p("Solvers never modify the map",
  "compute() of any Eikonal solver leaves velocities/occupancies, cell indices, grid dimensions, leaf size and the obstacle list unchanged.",
  "every solver, grid and run, any floating-point semantics",
  "Frame property over every step.",
  [FM+":computeInternal", FS+":computeInternal", LS+":computeInternal", DQ+":computeInternal", GMM+":computeInternal", FI+":computeInternal", UF+":computeInternal"])
p("Every FSM sweep visits each cell exactly once",
  "In each sweep the nested iteration of FSM/LSM visits every index of the grid exactly once, for each of the 2^n direction combinations.",
  "every number of dimensions, every dimension sizes, every direction vector",
  "The nesting depth is a template parameter and sizes are arbitrary.",
  [FS+":recursiveIteration", FS+":setSweep"])
p("FSM sweep directions cycle through all combinations",
  "2^n consecutive sweeps of FSM use each of the 2^n direction combinations exactly once, starting with all-backward after initialisation; the pattern has period 2^n.",
  "every number of dimensions and every number of sweeps",
  "All dimensions and unbounded sweep counts.",
  [FS+":setSweep", FS+":initializeSweepArrays"])
p("FSM terminates",
  "FSM::compute performs finitely many sweeps, also with the default unlimited sweep budget, and never more than maxSweeps.",
  "every grid, initial points and goal; exact real arithmetic (all dimensions of at least two cells), and also any arithmetic with finitely many values in which an accepted update is a strict decrease (as in IEEE doubles)",
  "Termination for all inputs.",
  [FS+":computeInternal", FS+":solveForIdx", UT+":isTimeBetterThan"])
p("FSM stops only at a fixed point",
  "When FSM ends without goal and within its sweep budget, no free cell can be improved: for no free cell is solveEikonal smaller than the stored time by more than COMP_MARGIN.",
  "every grid with all dimensions of at least two cells, initial points, any floating-point semantics",
  "Quantifies over all cells of all final states.",
  [FS+":computeInternal", FS+":solveForIdx"])
p("FSM arrival times never increase",
  "During FSM, LSM and DDQM runs the arrival time of a cell never increases, and each change is a decrease by more than COMP_MARGIN.",
  "every grid, every pair of consecutive states in a run",
  "All intermediate states.",
  [FS+":solveForIdx", LS+":solveForIdx", DQ+":computeInternal"])
p("LSM's locking loses nothing",
  "When LSM ends without goal and within its sweep budget, no free cell (locked or not) can be improved by more than COMP_MARGIN, i.e. LSM stops at the same kind of fixed point as FSM; and LSM terminates.",
  "every grid with positive speeds and every set of initial points (exact arithmetic); all dimensions of at least two cells",
  "Locks skip work; whether skipped work mattered depends on value patterns not enumerable by tests.",
  [LS+":computeInternal", LS+":solveForIdx"])
p("DDQM stops at a fixed point and terminates",
  "DDQM terminates for every input and, without goal, no free cell can then be improved by more than COMP_MARGIN; the dynamic threshold affects only the processing order.",
  "every grid with positive speeds, initial points and threshold values (exact arithmetic); all dimensions of at least two cells",
  "Queue contents and thresholds evolve in unboundedly many ways.",
  [DQ+":computeInternal", DQ+":increaseThreshold"])
p("Exact solvers agree with each other",
  "On the same problem (clean grid, no goal, sufficient sweep budget) the final arrival times of any two of FMM, SFMM, FSM, LSM, DDQM and FIM (default threshold 0) differ by at most 2*N*COMP_MARGIN in every cell and are infinite in the same cells.",
  "every grid with positive speeds, non-adjacent initial points, min-ordered heap (exact arithmetic); all dimensions of at least two cells",
  "Relates different algorithms on all inputs.",
  [FM+":computeInternal", FS+":computeInternal", LS+":computeInternal", DQ+":computeInternal", FI+":computeInternal"])
p("FIM stops and has then converged to the discrete solution",
  "FIM always stops (with or without a goal); without a goal every arrival time T then satisfies T* <= T <= T* + N*(2*COMP_MARGIN + error threshold). With a negative threshold it would never stop.",
  "every grid with positive speeds, non-adjacent initial points, error threshold >= 0 (exact arithmetic); all dimensions of at least two cells",
  "Order-dependent relaxation over all grids.",
  [FI+":computeInternal"])
p("Untidy queue returns an almost-minimal element",
  "As long as every inserted key lies within the queue's window, top() returns an element whose key is less than the minimum key in the queue plus one bucket width (inc_max/size).",
  "every sequence of push/increase/top/pop operations, every bucket count and increment (exact arithmetic)",
  "All operation histories of a circular buffer with moving origin.",
  [UQ+":push", UQ+":top", UQ+":pop", UQ+":increase_priority"])
p("Untidy queue neither loses nor invents elements",
  "size() always equals the number of stored elements, pop() removes exactly the element last shown by top() even if other elements are pushed or re-prioritised in between, elements of one bucket leave in insertion order, and clear() empties the queue.",
  "every operation history in which each element is queued at most once",
  "Unbounded operation histories.",
  [UQ+":push", UQ+":pop", UQ+":increase_priority", UQ+":clear", UQ+":size"])
p("FM2 velocities are normalised to [0,1]",
  "After the velocity-map phase of FM2 every cell's velocity lies in [0,1], obstacles get velocity 0, and (without saturation) some cell has velocity 1, and the second wave starts from a grid whose times are infinite and states OPEN.",
  "every map with at least one obstacle and one free cell whose obstacle list is complete (exact arithmetic)",
  "Division by a run-time maximum; NaN/inf arise only for special maps.",
  [F2+":computeVelocitiesMap"])
p("FM2 saturation distance",
  "With a saturation distance d, cells at least d away from obstacles get full speed and nearer ones a speed proportional to their distance.",
  "every map, leaf size and saturation distance",
  "Depends on the relation between real units and normalised units for every map.",
  [F2+":computeVelocitiesMap"])
p("FM2 runs only on a well-posed planning problem",
  "FM2/FM2* compute() terminates the program with an error unless the grid has obstacles, exactly one start and a valid goal; otherwise the second wave starts at the goal and stops at the start.",
  "every combination of points, obstacle list and grid state",
  "All call histories and argument combinations, including the reserved index -1.",
  [F2+":setup", F2+":computeInternal", F2S+":setup"])
p("Gradient-descent paths are well formed",
  "A path returned by GradientDescent::apply starts at the coordinates of the given index, ends at the coordinates of a cell with arrival time 0, has as many velocities as points, and consecutive points before the final snap differ by at most `step` per coordinate with equality in a coordinate of steepest slope.",
  "every grid, start index and step size for which the descent terminates (exact arithmetic)",
  "All vector fields and path lengths.",
  [GD+":apply"])
p("Grid text files round-trip",
  "Loading with loadMapFromText a file written by saveVelocities restores leaf size, dimension sizes and every velocity (as printed), and the obstacle list is exactly the list of cells whose velocity counts as occupied.",
  "every grid shape and content, for every number formatter whose output the stream parser reads back",
  "All grid contents and sizes at character level.",
  [GW+":saveVelocities", ML+":loadMapFromText"])
p("Image loading is a flip bijection with a complete obstacle list",
  "loadMapFromImg assigns each pixel to exactly one cell (bottom row first), each cell to exactly one pixel, and records as obstacles exactly the occupied cells, each once; plotting with the same flip shows the original image.",
  "every image size and content",
  "All image sizes.",
  [ML+":loadMapFromImg", GP+":plotOccupancyMap"])
p("setup() accepts exactly the valid problems",
  "setup() (and hence the first compute()) proceeds iff the grid is flagged clean, there is at least one initial point, a single initial point is not in an obstacle, a given goal is not in an obstacle, and the goal is not an initial point; otherwise the program exits with the documented reason.",
  "every grid state, list of initial points and goal index",
  "All combinations of arguments, including the 2^32-1 sentinel.",
  [SO+":setup", SO+":sanityChecks"])
p("Reset makes a solver reusable",
  "After reset() a compute() produces the same arrival times as the same solver run for the first time on a fresh grid with the same map and points.",
  "every history of setEnvironment / setInitialAndGoalPoints / setup / compute / reset calls before the reset",
  "Unbounded call histories.",
  [SO+":reset", SO+":setEnvironment", FM+":reset", GM+":clean"])
p("Solvers can share a grid",
  "Using one solver on a grid (including its reset()) does not change the result of another solver used afterwards on the same grid after setEnvironment.",
  "every pair of solvers and every history",
  "All combinations of solvers and histories.",
  [LS+":reset", SO+":setEnvironment", GM+":clean", BM+":run"])
p("Heuristic distance is the Euclidean cell distance to the goal",
  "The heuristic distance used by FMM*/SFMM* for a cell is the Euclidean distance, in cells, between that cell and the goal.",
  "every grid shape with sizes up to 65535, every cell and goal",
  "Unsigned wrap-around in coordinate differences and squared sums appears only for particular pairs and large coordinates.",
  [FM+":precomputeDistances", FM+":getPrecomputedDistance", UT+":absUI"])
p("Command-line parsing",
  "parseArguments(flag) returns the position after the first occurrence of the flag and stores the argument found there; when the flag is absent the output variable is untouched (in both forms); the list form collects the arguments following the flag up to the next one starting with '-'.",
  "every argument vector",
  "All argument vectors, including missing values.",
  [CO+":findArguments", CO+":parseArguments"])
p("Benchmark CFG parameters are split at every comma",
  "The constructor parameters of a solver line are split into the comma-separated items, none lost and none duplicated.",
  "every parameter string",
  "All strings; errors depend on item counts and lengths.",
  [BC+":split"])
p("Benchmark CFG creates the named solver",
  "Each recognised solver line of a CFG file yields a solver of the named kind with the given name and parameters, in file order.",
  "every solver name and parameter list",
  "All combinations of names and parameter counts.",
  [BC+":configure", BC+":readOptions"])
p("Benchmark executes and logs every run",
  "Benchmark::run performs exactly nruns runs of every added solver, in order, each preceded by a reset, and logs one row per run with consecutive run IDs starting at 1, padded to at least four digits.",
  "every number of solvers and runs (fewer than 2^32 runs in all)",
  "All counts.",
  [BM+":run", BM+":logRun", BM+":formatID"])
p("isTimeBetterThan is a strict partial order with margin",
  "isTimeBetterThan is irreflexive, asymmetric and transitive, false whenever an argument is NaN, and implies a difference greater than COMP_MARGIN.",
  "all pairs and triples of values including infinities and NaN",
  "Continuum of values.",
  [UT+":isTimeBetterThan"])
p("SFMM's duplicate queue entries, released in order, are harmless",
  "In SFMM, a cell popped a second time changes no arrival time of a frozen cell, and if the queue always releases a minimal element SFMM gives the same accuracy guarantee as FMM; SFMM terminates.",
  "every grid with positive speeds, non-adjacent initial points and pop order; all dimensions of at least two cells",
  "All histories of duplicates.",
  ["include/fast_methods/datastructures/fmpriorityqueue.hpp:increase", "include/fast_methods/fm/sfmm.hpp:SFMM", FM+":computeInternal"])
p("Memory safety of the solvers",
  "If the initial points are valid indices, no solver ever accesses a cell outside the grid.",
  "every grid shape with at least two cells per dimension and at most 2^31 cells, every run, any floating-point semantics",
  "Undefined behaviour may stay invisible in tests.",
  [FM+":computeInternal", GM+":getNeighbors", GM+":getCell", FS+":recursiveIteration"])
p("GMM processes every reachable cell",
  "If GMM stops without a goal, every free cell connected to an initial point has been frozen, and no other free cell has.",
  "every grid, initial points and group step, any floating-point semantics",
  "Graph connectivity and list mutation over all layouts.",
  [GMM+":computeInternal"])
p("UFMM expands exactly the reachable cells",
  "If UFMM stops without a goal, every free cell connected to an initial point has been frozen and no other free cell has, whatever the queue's bucket parameters.",
  "every grid, initial points, bucket count and increment",
  "Queue order depends on real-valued bucket arithmetic.",
  [UF+":computeInternal", UQ+":push"])
p("Extracting a path does not change the planning problem",
  "After computePath() of FM2 or FM2* the object still holds the same initial and goal points, so the same problem can be set up and solved again.",
  "every grid, problem and step size for which the descent terminates",
  "The effect is on hidden object state and shows only on the next use.",
  ["include/fast_methods/fm2/fm2.hpp:computePath", "include/fast_methods/gradientdescent/gradientdescent.hpp:apply"])
p("UFMM freezes cells in almost increasing order",
  "With a queue window wide enough for the map, at any moment of a UFMM run no frozen cell has an arrival time more than one bucket width above that of a cell that is not frozen yet.",
  "every grid with positive speeds, non-adjacent initial points, every bucket count and window wider than the slowest cell's crossing time plus a bucket and the comparison margin, every moment of the run; all dimensions of at least two cells",
  "The order depends on real-valued bucket arithmetic over all maps.",
  [UF+":computeInternal", UQ+":push"])
p("UFMM's arrival times are accurate up to the bucket width",
  "With a queue window wide enough for the map, UFMM's final arrival times lie between the exact solution of the discretised Eikonal equation and that solution plus a bucket width and two comparison margins per cell; cells the wave cannot reach stay at infinity.",
  "every grid with positive speeds, non-adjacent initial points, every bucket count and adequate window; all dimensions of at least two cells",
  "All maps and all untidy orders.",
  [UF+":computeInternal", UQ+":push"])
p("GMM always stops",
  "GMM with a positive group step stops after finitely many steps.",
  "every grid with positive speeds, initial points and group step; all dimensions of at least two cells",
  "Termination is about infinite executions; it depends on how the growing bound is rounded.",
  [GMM+":computeInternal"])
p("FM2 and FM2* can be used again after reset()",
  "After reset(), setting a problem and calling compute() on an FM2 or FM2* object gives the same grids as a new object given the same grid, problem and parameters.",
  "every grid, every history of computations, setups and resets, every later problem",
  "Quantifies over all histories of calls on one object.",
  ["include/fast_methods/fm2/fm2.hpp:reset", "include/fast_methods/fm2/fm2star.hpp:setup", FM+":reset"])
p("Plots of paths show the path and the map",
  "plotMapPath, plotOccupancyPath, plotArrivalTimesPath and plotMapPaths mark exactly the pixels of the path points (row 0 of the map at the bottom), show the map elsewhere, and never write outside the image.",
  "every map, every number of paths and every path inside the map",
  "All paths and pictures; a write past the image buffer may go unnoticed.",
  ["include/fast_methods/io/gridplotter.hpp:plotMapPath", "include/fast_methods/io/gridplotter.hpp:plotMapPaths", "include/fast_methods/io/gridplotter.hpp:plotArrivalTimesPath"])
p("FMM's binary and Fibonacci heaps always release a cell with the smallest key",
  "With the D-ary heap (the default) and with the Fibonacci heap, whatever keys FMM or FMM* lowers during a run, each cell it takes from the narrow band has the smallest sum of arrival time and heuristic of all cells in it; no stale or out-of-range heap handle is used; without a heuristic the run ends with the accuracy of C16. A heap that was cleared by reset() behaves like a new one.",
  "every grid with positive speeds, every set of separate initial points, every finite heuristic (one initial point), every history of pushes, key changes and pops; all dimensions of at least two cells",
  "All sequences of heap operations and all tie-breakings; a wrong parent index or a stale handle shows only on particular histories.",
  ["include/fast_methods/datastructures/fmdaryheap.hpp:push", "include/fast_methods/datastructures/fmdaryheap.hpp:increase", "include/fast_methods/datastructures/fmdaryheap.hpp:popMinIdx", "include/fast_methods/datastructures/fmfibheap.hpp:push", "include/fast_methods/datastructures/fmfibheap.hpp:increase", "include/fast_methods/datastructures/fmfibheap.hpp:popMinIdx", "include/fast_methods/fm/fmm.hpp:computeInternal"])
p("SFMM's priority queue releases cells in order and its results are accurate",
  "With its priority queue, which stores a cell again when its time improves instead of moving it, SFMM ends, freezes exactly the reachable cells, never underestimates, takes the cells from the queue in order of their times, and computes the same arrival times as FMM.",
  "every grid with positive speeds and every set of initial points; all dimensions of at least two cells",
  "The order of the elements in the queue's array after in-place key changes depends on the whole history.",
  ["include/fast_methods/datastructures/fmpriorityqueue.hpp:increase", "include/fast_methods/fm/sfmm.hpp:SFMM", "include/fast_methods/fm/fmm.hpp:computeInternal"])
p("Arrival times computed in double precision are accurate",
  "Computed in 64-bit floating point, with every operation rounded (in any rounding mode), the arrival times left by FMM, FSM, LSM and DDQM are +inf exactly in the cells that cannot be reached, and elsewhere differ from the exact solution of the discretised equation by at most an explicit relative error: one part COMP_MARGIN, one part accumulated rounding. No value is NaN.",
  "every grid of doubles whose cell-crossing times are bounded away from COMP_MARGIN and whose size keeps accumulated rounding below a cell crossing, all initial points, all pop orders among equal keys, all rounding modes; all dimensions of at least two cells, initial points not adjacent for FMM",
  "All inputs and all rounding errors: accumulation over long ways and cancellation in the quadratic formula cannot be sampled.",
  [FM+":computeInternal", "include/fast_methods/fm/eikonalsolver.hpp:solveEikonal", FS+":computeInternal", "include/fast_methods/fm/lsm.hpp:solveForIdx", "include/fast_methods/fm/ddqm.hpp:computeInternal"])
p("Clicking selects the displayed cell",
  "selectMapPoints returns, for every sequence of mouse events, the cells of the map displayed at the pixels of the first and the second click of the user.",
  "every two-dimensional map, both orientations, every sequence of mouse events",
  "All event sequences, including motion with the button held and clicks at the border of the window.",
  ["include/fast_methods/io/gridpoints.hpp:selectMapPoints"])
p("GMM computes the arrival times of the other solvers",
  "After a finished run without goal, with the default group step or any positive one, the arrival times left by GMM are those of the exact solution of the discretised equation up to the comparison margin.",
  "every grid with positive speeds, every cell size, every set of initial points, every positive step; all dimensions of at least two cells",
  "Whether two passes over each group are enough depends on the order of the whole narrow band; errors show only on particular maps.",
  ["include/fast_methods/fm/gmm.hpp:computeInternal", "include/fast_methods/fm/gmm.hpp:setup"])
p("FMM* and SFMM* leave the same time at the goal as FMM",
  "When FMM* or SFMM* stops at the goal, the arrival time of the goal is the one FMM computes (the heuristic only saves work). In particular it never exceeds the travel time of any route along the axes to the goal.",
  "every map, start, goal, heuristic and tie-breaking of the queue; every route; all dimensions of at least two cells",
  "whether a heuristic changes the result depends on the order in which the queue releases cells, for every map and every tie; a test sees one map",
  ["include/fast_methods/fm/fmm.hpp:FMM::computeInternal", "include/fast_methods/fm/fmm.hpp:FMM::getPrecomputedDistance", "include/fast_methods/fm/fmmstar.hpp:FMMStar", "include/fast_methods/fm/sfmmstar.hpp:SFMMStar", "include/fast_methods/datastructures/fmcompare.hpp:FMCompare"])
p("FMM* and SFMM* use the requested heuristic of the current problem",
  "Whenever an FMM*/SFMM* solver computes with a goal, the heuristic values it stores in the cells are those of the strategy requested when the solver was constructed, measured to the goal and on the grid of the current problem, whatever the solver was used for before.",
  "every history of calls on every number of solvers sharing a grid, every goal, every grid size, both strategies",
  "The strategy, the goal coordinates and the distance table are cached in the object by different calls; only all call histories show when a stale value survives.",
  ["include/fast_methods/fm/fmm.hpp:setup", "include/fast_methods/fm/fmm.hpp:setHeuristics", "include/fast_methods/fm/fmm.hpp:precomputeDistances", "include/fast_methods/fm/fmm.hpp:clear"])
p("Easier maps are never slower",
  "If a map is made easier - starting points added, obstacles removed, speeds raised or cells made smaller, all other things equal - no arrival time computed by FMM, FSM, LSM, DDQM or FIM becomes larger (beyond 2*COMP_MARGIN per cell of the grid), even if the two maps are solved by different solvers.",
  "every pair of maps of the same size related in this way, every pair of solvers, every cell; all dimensions of at least two cells, initial points not adjacent for FMM",
  "compares two complete runs on two arbitrary maps; no finite set of maps settles it",
  ["include/fast_methods/fm/eikonalsolver.hpp: solveEikonal", "include/fast_methods/fm/fmm.hpp: FMM::computeInternal", "include/fast_methods/fm/fsm.hpp: FSM::computeInternal", "include/fast_methods/fm/lsm.hpp", "include/fast_methods/fm/ddqm.hpp", "include/fast_methods/fm/fim.hpp"])
p("Arrival times have the right units",
  "Multiplying the leaf size by k (or dividing all speeds by k) multiplies every arrival time by k, up to the comparison margin.",
  "every map, every k > 0, every pair of solvers among FMM, FSM, LSM, DDQM, FIM, every cell; all dimensions of at least two cells, initial points not adjacent for FMM",
  "relates two runs for every real factor and every map",
  ["include/fast_methods/ndgridmap/ndgridmap.hpp: setLeafSize, getLeafSize", "include/fast_methods/fm/eikonalsolver.hpp: solveEikonalNDims"])
p("Arrival times are travel times along straight lines",
  "No arrival time is smaller than the straight-line distance to the nearest start divided by the largest speed; on a map without obstacles and with uniform speed v it is at most dist/v + (1 + 2*sqrt(D)) * (h/v) * ln(1 + dist/h) (plus the comparison margin), so refining the grid makes the arrival times converge to the true travel times.",
  "every map, cell size, start and cell; for the second part every open map in any number D of dimensions; all dimensions of at least two cells",
  "an analytic statement about all grid sizes and resolutions",
  ["include/fast_methods/fm/eikonalsolver.hpp: solveEikonal", "include/fast_methods/fm/fmm.hpp: FMM::computeInternal", "include/fast_methods/ndgridmap/ndgridmap.hpp: getMinValueInDim"])
p("Mirrored and transposed maps give mirrored and transposed times",
  "If a map is a copy of another one with axes permuted and/or mirrored (speeds, obstacles and starts moved along), the arrival times computed on it are the moved arrival times, up to the comparison margin.",
  "every map in any number of dimensions, every permutation and mirroring of the axes, every pair of solvers among FMM, FSM, LSM, DDQM, FIM, every cell; all dimensions of at least two cells, initial points not adjacent for FMM",
  "relates runs that visit the cells in entirely different orders, for all maps",
  ["include/fast_methods/ndgridmap/ndgridmap.hpp: getNeighborsInDim, getMinValueInDim", "include/fast_methods/fm/eikonalsolver.hpp: solveEikonal", "include/fast_methods/fm/fsm.hpp: setSweep"])
p("fm_benchmark runs the problem its configuration file describes",
  "Given a configuration file, fm_benchmark runs every solver of its solver lines, on the map (sizes, image or text file) and leaf size it describes, from the start to the goal cell it gives, as many times as it says, and saves the resulting grids under the solvers' names; a file that does not describe a problem (unreadable, wrong number of dimensions, coordinates missing or outside the map) is reported as an error and nothing is run.",
  "every configuration file, every set of option values, every map",
  "All combinations of present, absent and malformed options; the result depends on conversions, defaults and index arithmetic together.",
  ["src/benchmark/fm_benchmark.cpp:main", "include/fast_methods/benchmark/benchmarkcfg.hpp:readOptions", "include/fast_methods/benchmark/benchmarkcfg.hpp:configure", "include/fast_methods/benchmark/benchmarkcfg.hpp:getValue", "include/fast_methods/benchmark/benchmarkcfg.hpp:splitAndCast"])
p("Arrival times have no false basins: descending always reaches a starting point",
  "At any moment of a run every reached cell that is not a starting point has an axis neighbour that is reached earlier, by at least (h/v)/sqrt(D) with h/v the time to cross the cell, so that moving again and again to the neighbour with the smallest time leads from every reached cell to a starting point, through free cells only and in fewer moves than there are cells; and in a finished result the time never rises by more than the crossing time of the entered cell from one free cell to the next.",
  "every map, every set of starting points, every solver FMM, FSM, LSM, DDQM (and FIM for results), every number of steps, every starting cell of the descent; exact arithmetic and rounded doubles; all dimensions of at least two cells, initial points not adjacent for FMM",
  "Path extraction relies on the absence of local minima in every map; tests can only look at a few maps.",
  ["include/fast_methods/fm/eikonalsolver.hpp:solveEikonal", "include/fast_methods/fm/fmm.hpp:computeInternal", "include/fast_methods/fm/fsm.hpp:solveForIdx", "include/fast_methods/fm/ddqm.hpp:computeInternal", "include/fast_methods/gradientdescent/gradientdescent.hpp:apply"])
p("Arrival times are as accurate as the speeds",
  "If on a second map everything free stays free, no starting point is lost and no cell takes more than k times as long to cross, no arrival time grows by more than the factor k; so if all crossing times are known with a relative error of at most delta, all arrival times are off by a relative error of at most delta, and the same cells are reached.",
  "every pair of maps of the same sizes, every factor, every cell, results of any two of FMM, FSM, LSM, DDQM, FIM; exact arithmetic and rounded doubles; all dimensions of at least two cells, initial points not adjacent for FMM",
  "A statement about all pairs of maps; it excludes any amplification of errors by the solver.",
  ["include/fast_methods/fm/eikonalsolver.hpp:solveEikonal", "include/fast_methods/ndgridmap/fmcell.h:getVelocity", "include/fast_methods/fm/solver.hpp:compute"])
p("Far-away changes of the map do not matter",
  "If two maps are the same (starting points, obstacles, crossing times) in every cell that one of the results reaches before time theta, then all cells reached before theta have the same time in both results, whatever the maps look like elsewhere: arrival times depend only on the part of the map the wave has crossed by then.",
  "every pair of maps of the same sizes, every time theta, every cell, results of any two of FMM, FSM, LSM, DDQM, FIM; exact arithmetic and rounded doubles; all dimensions of at least two cells, initial points not adjacent for FMM",
  "A statement about all pairs of maps; it is what justifies stopping at the goal and replanning locally.",
  ["include/fast_methods/fm/eikonalsolver.hpp:solveEikonal", "include/fast_methods/fm/fmm.hpp:computeInternal", "include/fast_methods/fm/solver.hpp:compute"])
p("DDQM's threshold follows the documented rule",
  "DDQM starts with a threshold and a step of one and a half times the time needed to cross a cell at the mean speed of the free cells. While the lower queue is worked off, every cell that is queued is a locked neighbour, of the cell being treated, that its new time improves, and it goes into the lower queue exactly if that new time is better than the threshold, and into the higher queue otherwise. When the lower queue is empty (or the goal has been reached) the queues change roles and the threshold is raised by the step, after the step has been made 1.5 times larger if at most 65 % of the cells queued since the last change went to the lower queue, halved if at least 75 % did or nothing was queued, and kept otherwise. The threshold therefore never falls and rises at every change.",
  "every grid, start set, goal, local solver, state reached by the algorithm and turn of the queues (with fewer than 2^64 cells queued in it)",
  "The number of turns and of cells queued per turn is unbounded and depends on the map; an observed run exercises a handful of ratios.",
  ["include/fast_methods/fm/ddqm.hpp:DDQM::computeInternal", "include/fast_methods/fm/ddqm.hpp:DDQM::increaseThreshold", "include/fast_methods/fm/ddqm.hpp:DDQM::setEnvironment"])
p("Memory ownership: no use after free, no double free, no leak",
  "A program that creates grids, solvers and benchmarks, gives solvers a grid before running them, deletes each solver and grid it created exactly once, except that solvers handed to a benchmark (and everything a benchmark configured from a file creates) are left to the benchmark, and does not itself call clear() on UFMM, FM2, FM2* solvers or on a configured benchmark, never touches or frees memory that is not allocated, and when all its solvers, grids and benchmarks are gone, nothing allocated by the library is left. The property fails as soon as the public clear() of UFMM, FM2, FM2* or of a configured benchmark is called (the pointers to the freed memory are kept, and used again by the next call or by the destructor), or if a solver is run before it has been given a grid (the pointer is uninitialised).",
  "every history of calls, of any length, over any number of grids, solvers of all classes and benchmarks",
  "Dangling pointers and leaks depend on the whole history of construction, hand-over, clear and destruction; a test runs one history and often does not notice undefined behaviour.",
  ["include/fast_methods/fm/ufmm.hpp: UFMM::clear, ~UFMM", "include/fast_methods/fm2/fm2.hpp: FM2::clear, ~FM2", "include/fast_methods/fm/solver.hpp: Solver::clear, ~Solver, Solver()", "include/fast_methods/benchmark/benchmark.hpp: Benchmark::clear, ~Benchmark, addSolver", "include/fast_methods/benchmark/benchmarkcfg.hpp: BenchmarkCFG::configure", "include/fast_methods/datastructures/fmuntidyqueue.hpp: FMUntidyQueue", "include/fast_methods/thirdparty/untidy_queue.hpp: untidy_queue"])
p("Setting a goal only saves time, in every solver",
  "Running a solver with a goal gives the goal the same arrival time as running it without one (and stops no later). Proved for GMM and UFMM (for FMM and SFMM see C19): the run with a goal is a prefix of the run without, every cell frozen by it keeps its value, and if the goal is not reached the two runs give the same grid. False for FSM, LSM and DDQM, which print a warning that stopping at the goal is experimental, and for FIM, which prints none: they can stop while the goal's time is still too large. What FSM and LSM guarantee: they never sweep more often than without the goal, a goal that stopped them has a finite time, and if it did not stop them the result is the same.",
  "every grid, set of initial points, goal and length of run; GMM, FSM, LSM any arithmetic and local solver, UFMM any arithmetic, window and number of buckets",
  "Whether the goal's value is already final when the solver stops depends on the whole map: the counterexamples are maps where a detour through a fast corridor arrives at the goal from behind; a test with a uniform map never sees the difference.",
  ["include/fast_methods/fm/gmm.hpp: GMM::computeInternal", "include/fast_methods/fm/ufmm.hpp: UFMM::computeInternal", "include/fast_methods/fm/fsm.hpp: FSM::solveForIdx, FSM::computeInternal", "include/fast_methods/fm/lsm.hpp: LSM::solveForIdx, LSM::computeInternal", "include/fast_methods/fm/ddqm.hpp: DDQM::computeInternal", "include/fast_methods/fm/fim.hpp: FIM::computeInternal"])
p("On open maps arrival times depend only on the offset from the start, and are reciprocal",
  "On a map without obstacles, with one speed everywhere and one start, the arrival time of a cell depends only on how many cells it is away from the start along each axis, and does not decrease when an offset grows: it does not depend on the size of the map, on where the start is, on the direction, or on the solver (up to the comparison margin per cell). So the travel time from s to t equals the travel time from t to s. With obstacles or varying speed reciprocity is not guaranteed: there is a 2x2 map without obstacles where going from one cell to its neighbour takes at least 7 and coming back at most 2.",
  "every two open maps of the same number of dimensions (any sizes), speed, leaf size, starts, pair of cells and pair of solvers among FMM, FSM, LSM, DDQM, FIM; all dimensions of at least two cells",
  "a test compares two given cells on a given map; this ranges over all map sizes, dimension counts, starts and cells",
  ["include/fast_methods/fm/eikonalsolver.hpp: EikonalSolver::solveEikonal", "include/fast_methods/fm/fmm.hpp: FMM::computeInternal", "include/fast_methods/fm/fsm.hpp: FSM::computeInternal", "include/fast_methods/fm/lsm.hpp: LSM::computeInternal", "include/fast_methods/fm/ddqm.hpp: DDQM::computeInternal", "include/fast_methods/fm/fim.hpp: FIM::computeInternal"])
p("On an open map 2^n sweeps are enough for FSM and LSM",
  "On a map of n dimensions without obstacles, with one speed and one start, a sweep budget of 2^n (maxSweeps in the constructor, beyond the sweeps already recorded in the object) is enough: whenever FSM or LSM stops, at a fixed point or because the budget is used up, every arrival time is between the exact one and the exact one plus twice the comparison margin per cell, whatever sweep direction the object starts with. With obstacles it is not: on a 3x7 map FSM and LSM with a budget of 4 leave the end of a corridor unreached.",
  "every open map (any number and size of dimensions, speed, leaf size), start, budget of at least 2^n, initial sweep direction and moment of stopping; all dimensions of at least two cells",
  "a test fixes the number of dimensions and the map; the claim is about the order in which sweeps visit cells on all of them",
  ["include/fast_methods/fm/fsm.hpp: FSM::recursiveIteration, FSM::setSweep, FSM::solveForIdx, FSM::computeInternal", "include/fast_methods/fm/lsm.hpp: LSM::solveForIdx, LSM::computeInternal"])
p("The MATLAB scripts read what the library writes, and the library reads what they write",
  "parsepath.m returns one row per point of a path saved with savePath, with the coordinates plus one; parsepathvel.m does the same for savePathVelocity and returns the velocities; parseGrid.m returns the leaf size, the sizes and every cell's value (or velocity) of a saved grid at the cell's coordinates, exchanged for two dimensions; idx2coord.m gives the coordinates of an index plus one; parseBenchmarkLog.m recovers from a benchmark's log its name, sizes, initial points, goal and, per solver, the name and the times of its runs; a map written by saveGridToFile.m is loaded by loadMapFromText with the same sizes and every element in the cell with its subscripts; and a map taken through parseGrid.m and saveGridToFile.m comes back unchanged up to the digits printed. (False in part: parsepathvel.m fails unless the number of dimensions divides the number of points and otherwise appends points of zeros; two-dimensional maps come back transposed; a last dimension of size 1 is lost and loading the file then ends the program; solver names with a space make the log unreadable.)",
  "every grid (at least two dimensions, fewer than 2^32 cells), path, benchmark run and array; every way of printing and reading numbers that reads decimal digits as the number and printed numbers as words",
  "the tests never run the scripts; the claim ranges over all files the library can write",
  ["scripts/parsepath.m: parsepath", "scripts/parsepathvel.m: parsepathvel", "scripts/parseGrid.m: parseGrid", "scripts/saveGridToFile.m: saveGridToFile", "scripts/idx2coord.m: idx2coord", "scripts/parseBenchmarkLog.m: parseBenchmarkLog", "include/fast_methods/io/gridwriter.hpp: GridWriter::saveGridValues, GridWriter::saveVelocities, GridWriter::savePath, GridWriter::savePathVelocity", "include/fast_methods/io/maploader.hpp: MapLoader::loadMapFromText", "include/fast_methods/benchmark/benchmark.hpp: Benchmark::logConfig, Benchmark::logRun"])
p("A benchmark leaves each result in its own file and the log of the run in the log file",
  "After Benchmark::run with savegrid 2, the file path/name/NNNN.grid holds, for every run number NNNN, the grid computed in that run; with savegrid 1, the file path/name/<solver name>.grid holds, for every solver, the grid computed in its last run; with savelog, path/name.log holds exactly the log of the last call of run(), also if run() is called several times on one benchmark.",
  "all benchmarks: any number of solvers and runs, all names of solvers and of the benchmark, all grids, all paths, all previous contents of the disk, any number of calls of run()",
  "a test writes a few files with names chosen by its author; whether two results can end up in the same file depends on all names the user can give (the extension of the name is replaced), on the number of runs and on what earlier runs left.",
  ["include/fast_methods/benchmark/benchmark.hpp: saveGrid, saveLog, formatID, run", "include/fast_methods/io/gridwriter.hpp: saveGridValues"])
p("The extraction of a path always succeeds",
  "After a solver has computed the arrival times, GradientDescent::apply called from any reachable cell returns, after finitely many iterations and without undefined behaviour, a path that ends in a starting point, with the default step 1 as well as with smaller steps.",
  "all maps, numbers of dimensions, starts, cells to extract from and steps in (0,1]",
  "Tests extract paths on a few maps; an endless loop or a NaN appears only on maps with the right symmetry or with passages one cell wide, and neither finite testing nor waiting can distinguish a slow extraction from one that never ends.",
  ["include/fast_methods/gradientdescent/gradientdescent.hpp: apply", "include/fast_methods/fm2/fm2.hpp: computePath"])
p("GMM: a smaller group step gives a smaller error, without limit except the comparison margin",
  "The step of the Group Marching Method controls its error. For every number of dimensions, every lower bound of the times needed to cross a cell and every relative tolerance (above a small multiple of the comparison margin) there is a step such that GMM without goal, run with that or any smaller positive step on any map with such crossing times and from any starting points, ends; the arrival times it leaves are never below the solution of the discretised Eikonal equation and exceed it by at most the tolerance, relatively; unreachable cells keep infinity.",
  "every number of dimensions, map, obstacles, speeds, starting points, tolerance and every step below the bound that depends only on dimensions, crossing time and tolerance",
  "a test fixes a map and a step; the bound must hold for all maps at once, and for every step below it",
  ["include/fast_methods/fm/gmm.hpp: GMM::computeInternal", "include/fast_methods/fm/gmm.hpp: GMM (constructor, dt)", "include/fast_methods/fm/eikonalsolver.hpp: EikonalSolver::solveEikonal"])
p("Only the set of starting points matters, not their order or repetitions",
  "Giving the same starting points in another order, or some of them several times, does not change the result: the arrival times of two such runs, of the same or of different solvers, differ by at most the comparison margin per cell of the grid and are infinite in the same cells. For FSM and LSM the runs are identical step by step in any arithmetic, doubles included.",
  "every map, every two lists of starting points with the same members, every pair of finished runs of FMM, FSM, LSM, DDQM, FIM; for FSM and LSM every arithmetic, goal and number of sweeps",
  "the number of orders grows factorially and the effect of the order depends on the map; a test tries a few",
  ["include/fast_methods/fm/solver.hpp: Solver::setInitialPoints", "include/fast_methods/fm/fmm.hpp: FMM::computeInternal", "include/fast_methods/fm/fsm.hpp: FSM::computeInternal", "include/fast_methods/fm/lsm.hpp: LSM::computeInternal", "include/fast_methods/fm/ddqm.hpp: DDQM::computeInternal", "include/fast_methods/fm/fim.hpp: FIM::computeInternal"])
p("Arrival times satisfy the triangle inequality (way points)",
  "Going through a way point is never faster than the computed time: for every cell w, the time computed from the starting points to a cell is at most the time computed from the starting points to w plus the time computed from w alone to that cell (up to the comparison margin per cell), whatever the map and whichever of the solvers computed each of the three. In particular a cell that can be reached in two stages can be reached.",
  "every map with obstacles and any speeds, every list of starting points, way point and cell, every pair of finished runs of FMM, FSM, LSM, DDQM, FIM",
  "the claim relates three values over all triples of cells of all maps",
  ["include/fast_methods/fm/eikonalsolver.hpp: EikonalSolver::solveEikonal", "include/fast_methods/fm/fmm.hpp: FMM::computeInternal", "include/fast_methods/fm/fsm.hpp: FSM::computeInternal", "include/fast_methods/fm/lsm.hpp: LSM::computeInternal", "include/fast_methods/fm/ddqm.hpp: DDQM::computeInternal", "include/fast_methods/fm/fim.hpp: FIM::computeInternal"])
p("Several starting points: at most the best of them, and at most a factor sqrt(n) better",
  "With several starting points the computed time of a cell is at most the time computed from any one of them alone, and for every reached cell there is one starting point from which alone the cell is reached in at most sqrt(n) times that time (n the number of dimensions; both up to the comparison margin per cell). The time is not in general the minimum over the starting points: with two starts in opposite corners of a 2x2 map it is smaller (C66).",
  "every map with obstacles and any speeds, every list of starting points and cell, all finished runs of FMM, FSM, LSM, DDQM, FIM",
  "a test compares given starts on a given map; this holds for any number of starts and cells",
  ["include/fast_methods/fm/eikonalsolver.hpp: EikonalSolver::solveEikonal", "include/fast_methods/fm/fmm.hpp: FMM::computeInternal", "include/fast_methods/fm/fsm.hpp: FSM::computeInternal", "include/fast_methods/fm/lsm.hpp: LSM::computeInternal", "include/fast_methods/fm/ddqm.hpp: DDQM::computeInternal", "include/fast_methods/fm/fim.hpp: FIM::computeInternal"])
p("From a picture to arrival times, in 64-bit arithmetic",
  "Loading a picture and running FMM on it gives the right times in the arithmetic the library uses. For every black and white picture, any starting cells no two of which are neighbours, and either heap, FMM without goal ends after at most as many iterations as there are pixels and starts, and the time of every cell is the solution of the discretised Eikonal equation with unit speed on the white pixels up to a relative error of 2e-10 + 1.2e-11 (K+1)^2, where K bounds the number of steps needed to reach the reachable cells; it is infinite exactly for black pixels and cells that cannot be reached. For grey pictures the same holds with the speeds brightness/255, rounded, and the error 2e-10 + 8e-7 (K+1)^2.",
  "every picture of at least 2x2 and at most 2^31 pixels, every list of starting cells, every rounding of doubles that is monotone and exact on doubles, every K below 200000 (grey: up to 780)",
  "all pictures and all accumulated rounding errors; a test fixes one picture and compares with a tolerance that was tuned to it",
  ["include/fast_methods/io/maploader.hpp: MapLoader::loadMapFromImg", "include/fast_methods/fm/fmm.hpp: FMM::computeInternal", "include/fast_methods/fm/eikonalsolver.hpp: EikonalSolver::solveEikonal", "include/fast_methods/datastructures/fmdaryheap.hpp: FMDaryHeap", "include/fast_methods/datastructures/fmfibheap.hpp: FMFibHeap"])
p("Solver objects can be copied",
  "Solver objects have public copy constructors (none is declared or deleted). Copying a solver, using original and copy, and destroying both, in any order and interleaved with any other calls, never touches freed memory, frees nothing twice and leaks nothing.",
  "all histories of calls and copies of solvers, grids and benchmarks, of any length",
  "The fault depends on the order of destruction of two objects in an arbitrary program; a test covers one history and a double delete may go unnoticed.",
  ["include/fast_methods/fm/solver.hpp: Solver", "include/fast_methods/fm/ufmm.hpp: UFMM, clear, narrow_band_", "include/fast_methods/fm2/fm2.hpp: FM2, clear, solver_"])
p("Arrival times are at most the travel times along clear lines",
  "Whatever the map, if a polygonal line starts at a starting point and every piece of it is the diagonal of a box of free cells each crossed in time at most tau, the computed time at its end is at most tau times its length in cells, plus (1+2*sqrt(D))*tau*ln(1+length) per piece. In particular every cell in sight of the only start (all cells of the box between them free and at the top speed) gets the straight-line travel time up to a logarithmic number of cells, whatever the rest of the map is.",
  "all maps (sizes, dimensions, obstacles, speeds), starting points, polygonal lines with any number of pieces; results of FMM, FSM, LSM, DDQM, FIM; also with 64-bit rounding",
  "Accuracy must hold on all maps and for all lines; tests compare single maps with single expected numbers.",
  ["include/fast_methods/fm/eikonalsolver.hpp: solveEikonal", "include/fast_methods/fm/fmm.hpp: computeInternal", "include/fast_methods/fm/fsm.hpp: computeInternal"])
p("Arrival times compared with shortest walks on the grid",
  "The computed time of a cell is at most the duration of every walk from a starting point to that cell through neighbouring free cells (each step taking the time to cross the cell entered), so the solvers are never worse than a shortest-path search (Dijkstra) on the grid; and for every reached cell there is a walk from some starting point that takes at most sqrt(D) times the computed time, so they are at most that factor better.",
  "all maps, dimensions D, sets of starting points, walks of any length; results of FMM, FSM, LSM, DDQM, FIM; also with 64-bit rounding",
  "The walks of a grid cannot be enumerated, nor the maps.",
  ["include/fast_methods/fm/eikonalsolver.hpp: solveEikonal", "include/fast_methods/fm/fmm.hpp: computeInternal", "include/fast_methods/fm/fsm.hpp: computeInternal"])
p("The table of distances of FMM* and SFMM* is accessed only inside its storage",
  "In every history of setting grids, set-ups, runs, resets, clears and copies of an FMM*/SFMM* (or FM2* inner) solver, every element of the table of heuristic distances that is written or read lies inside the table.",
  "all histories of calls, all grid sizes up to 2^32 cells with sides up to 65536, all goals and visited cells",
  "An access beyond the end of a vector usually does not crash; the histories cannot be enumerated.",
  ["include/fast_methods/fm/fmm.hpp: precomputeDistances, getPrecomputedDistance, setHeuristics, clear, distances_, precomputed_"])
p("FM2's speeds follow the clearance",
  "After the velocity phase of FM2 or FM2* the speed of every cell is, up to one common scale, its clearance: at least the distance to the nearest obstacle divided by sqrt(n) (n the number of dimensions) and at most that distance plus (1+2*sqrt(n)) times the logarithm of one plus the distance in cells (and the comparison margin), the largest being 1; with a saturation distance it is that value rescaled and cut off at 1. So a cell that is far enough from all obstacles is faster than a cell near one, and the robot is slowed down near walls only.",
  "all maps with at least one obstacle and one free cell, all sizes and numbers of dimensions from 2, all leaf sizes, all speeds of the free cells, FM2 and FM2*, all heap orders",
  "The arrival times of the wave from the obstacles are only comparable with Euclidean clearances through a comparison principle; a test sees single maps.",
  ["include/fast_methods/fm2/fm2.hpp: computeVelocitiesMap", "include/fast_methods/fm/fmm.hpp: computeInternal"])
p("FM2 reaches the start exactly when it can be reached",
  "When compute() of FM2 or FM2* returns, the start has a finite arrival time (and is FROZEN, so that a path can be extracted from it) exactly when start and goal are connected through free cells of the map the user gave. In particular the velocity phase, which overwrites the occupancies, neither opens a wall nor closes a free cell: the cells the second wave regards as obstacles are those of the given map.",
  "all maps with at least one obstacle and one free cell, all sizes and numbers of dimensions from 2, all leaf sizes and speeds, all starts and goals, all saturation distances, FM2 and FM2*, all heap orders",
  "Whether a normalised speed falls below COMP_MARGIN depends on the largest clearance of the whole map and on the ratio of its speeds; tests with uniform maps never see it.",
  ["include/fast_methods/fm2/fm2.hpp: computeInternal, computeVelocitiesMap", "include/fast_methods/fm2/fm2star.hpp: computeInternal", "include/fast_methods/ndgridmap/fmcell.h: isOccupied"])
p("FM2 in double precision: speeds are clean and no cell is lost",
  "Computed in 64-bit floating point, with every operation rounded (in any rounding mode), the velocity phase of FM2 and FM2* leaves speeds that are doubles in [0,1], never NaN or infinite: exactly 0 in every obstacle, at least COMP_MARGIN in every free cell, so that the second wave sees exactly the obstacles of the given map; without saturation the largest speed is exactly 1 and every speed is the exact arrival time of the wave from the obstacles divided by the largest one, up to an explicit relative error. compute() returns, and the start is FROZEN afterwards exactly when start and goal are connected through free cells.",
  "every map of doubles with at least one obstacle and one free cell whose cell-crossing times are bounded away from COMP_MARGIN and whose size keeps accumulated rounding below a cell crossing (as C59), all dimensions of at least two cells, all starts and goals, no saturation or any saturation distance from 2^-200 up to ten thousand cells, FM2 and FM2*, all heap orders, all rounding modes",
  "All maps and all rounding errors of two chained computations, the second of which compares rounded quotients of the first with COMP_MARGIN.",
  ["include/fast_methods/fm2/fm2.hpp: computeVelocitiesMap, computeInternal", "include/fast_methods/fm2/fm2star.hpp: computeInternal", "include/fast_methods/fm/fmm.hpp: computeInternal", "include/fast_methods/ndgridmap/fmcell.h: isOccupied"])
p("FIM stops in double precision",
  "On every grid with positive speeds and for every non-negative convergence threshold (the default is 0), compute() of FIM returns when it computes with double-precision numbers.",
  "all grids, start points, goals, speeds, thresholds >= 0 and roundings of double arithmetic",
  "Whether the active list ever becomes empty depends on the last bits of sums, products and square roots along an unbounded run; a test that passes on one map says nothing about another, and a non-terminating run cannot be observed by a test.",
  ["include/fast_methods/fm/fim.hpp: FIM::computeInternal, FIM::FIM", "include/fast_methods/fm/eikonalsolver.hpp: EikonalSolver::solveEikonal, solveForNDims"])
p("In double precision no solver ever underestimates an arrival time beyond rounding",
  "Computing in 64-bit doubles, at every moment of every run of FMM, SFMM, FMM*, SFMM* (any heuristic, any goal, even with a queue that returns cells in a wrong order or several adjacent starting points), UFMM (any buckets), GMM (any step), FSM, LSM, DDQM (any thresholds) and FIM (any threshold, as long as its number of iterations keeps the rounding bound meaningful), every stored arrival time is either +infinity or a non-negative number that is below the exact solution of the discretised Eikonal equation by at most the relative rounding error 140 D^3 2^-51 (A/cm)^2; a finite time is never stored for a cell the exact wave cannot reach, and NaN never. The comparison margin does not enter: it can only make times too large.",
  "all grids of any size and dimension >= 2 whose sizes and speeds satisfy the stated scale conditions, all starting sets, all rounding modes, all heuristics, goals, queue orders, thresholds and steps, every reachable state of every run (not only the final one)",
  "rounding errors accumulate along every path of updates and depend on the order of the updates; testing compares a few maps at the end of a run",
  ["include/fast_methods/fm/eikonalsolver.hpp: solveEikonal", "include/fast_methods/fm/fmm.hpp: computeInternal", "include/fast_methods/fm/gmm.hpp: computeInternal", "include/fast_methods/fm/fim.hpp: computeInternal", "include/fast_methods/fm/ufmm.hpp"])
p("The example programs use memory properly",
  "Each example program (test_fm, test_fm2, test_fm_benchmark, test_fmm3d, full_example), for any list of solver classes in the programs that have one, uses no solver, grid or memory owned by a solver before it is created or after it is deleted, deletes nothing twice, and has freed every block it allocated when main ends.",
  "all example programs, and for those with a list of solvers every list of solver classes of any length",
  "A test runs the programs with the lists that are written there and does not see leaks or uses after deletion that happen to do no harm.",
  ["examples/test_fm.cpp: main", "examples/test_fm2.cpp: main", "examples/test_fm_benchmark.cpp: main", "examples/test_fmm3d.cpp: main", "examples/full_example.cpp: main"])
p("UFMM is accurate in double precision, up to the width of a bucket",
  "Run UFMM (constructor parameters: maximum queue size n, maximum increment inc) in IEEE doubles, every operation of the local solver, of the comparisons, of the bucket computation and of the moving beginning of the queue being rounded, on a map with no two initial points next to each other, with a window longer than two cell crossings plus two buckets and buckets wider than the accumulated rounding errors, and let the run perform no undefined conversion to unsigned (C98 is about those). Then at any moment no FROZEN cell has an arrival time that exceeds that of a cell which is not FROZEN by more than two bucket widths; and when the queue is empty every arrival time is the exact solution of the discretised Eikonal equation up to a relative error that is that of FMM in doubles plus 2*D*(bucket width + rounding of the queue)/(shortest cell crossing), and +inf exactly where the exact solution is infinite, never NaN.",
  "all monotone rounding modes that are exact on doubles, grids of any number of dimensions and size, speed maps, initial points, goals, numbers of buckets up to 2^30, windows, and all states of all runs",
  "The beginning of the queue is accumulated by repeated rounded additions and the bucket of a cell depends on it: how far the order of expansion can drift over a whole run, and what this does to the times, cannot be sampled.",
  ["include/fast_methods/fm/ufmm.hpp: UFMM::computeInternal", "include/fast_methods/thirdparty/untidy_queue.hpp: PriorityQueue::push, increase_priority, top, pop", "include/fast_methods/datastructures/fmuntidyqueue.hpp"])
p("FIM in double precision: when it stops, its times are accurate",
  "Run FIM with a stop threshold e >= 0 in IEEE doubles, every operation rounded, on a map with no two initial points next to each other, without a goal. FIM stores every recomputed time without comparing it and gives a cell up as soon as a recomputation changes it by at most e (a rounded difference). Whenever the run stops, every arrival time is the exact solution of the discretised Eikonal equation up to a relative error: that of FMM in doubles plus 2*D*(e + rounding of the difference)/(shortest cell crossing); it is +inf exactly where the exact solution is infinite, and never NaN. In every state of the run, finished or not, the initial points have time 0.",
  "all monotone rounding modes that are exact on doubles, grids of any number of dimensions and size, speed maps, initial points, thresholds e >= 0, and all runs of any length (the bound on times, hence the error, grows with the number of iterations)",
  "A cell is abandoned on the evidence of one small change; whether neighbours changed later can leave it with a stale time, for any order of activation and any rounding, is not something a sample of maps can show.",
  ["include/fast_methods/fm/fim.hpp: FIM::computeInternal", "include/fast_methods/fm/eikonalsolver.hpp: solveEikonal", "include/fast_methods/utils/utils.h: isTimeBetterThan"])
p("GMM in doubles with a small step ends and is accurate",
  "On a map whose values keep the arithmetic away from overflow and whose size keeps accumulated rounding below one cell crossing, GMM with a time step d that is larger than the rounding error of the front's time (d > A / 2^49, where A bounds all times) and small against the least cell crossing time cm (sqrt(n) * (d + rounding) <= 3/4 * cm) ends for every goal and every choice of starting points, in double precision with any rounding mode; without a goal, when it has ended every arrival time is the exact solution up to the relative error 2n(1+sqrt n) d/cm plus (3+sqrt n) times the rounding error of the local solver, +inf exactly on cells that cannot be reached, and never NaN.",
  "every map within the stated range, every set of starting points (adjacent ones included), every goal, every step that fits, every monotone rounding",
  "termination depends on rounding of the accumulated front time over unboundedly many rounds, and accuracy on all orders in which groups of cells are updated with inexact times",
  ["include/fast_methods/fm/gmm.hpp: GMM::computeInternal, GMM::setup", "include/fast_methods/fm/eikonalsolver.hpp: EikonalSolver::solveEikonal"])
p("UFMM never performs an undefined conversion when it computes a bucket",
  "With a window adequate for the map (longer than any single cell crossing plus one bucket), initialisation and every iteration of UFMM only convert to unsigned int values floor(x) that are representable there, so that the bucket of every inserted or moved cell is determined by the C++ standard.",
  "all maps, initial points that are not adjacent, queue sizes, window lengths that fit, goals, and all iterations of all runs",
  "whether a key can lie below the beginning of the queue depends on the whole history of insertions and on rounding in the moving beginning; the compiled program gives some value on each platform, so a test cannot see that it is undefined",
  ["include/fast_methods/thirdparty/untidy_queue.hpp: PriorityQueue::push, increase_priority", "include/fast_methods/fm/ufmm.hpp: UFMM::computeInternal"])
p("In double precision all solver classes agree, each up to its own error",
  "Run any two of the solvers (FMM, SFMM with an ordered queue, FSM, LSM, DDQM, UFMM, FIM, GMM), the same or different, in IEEE doubles on the same map from the same initial points, without goal, until they end. They leave +inf in the same cells, never NaN, and in every other cell the two times x and y satisfy |y - x| <= (r + s)/(1 - r) * x, where r and s are explicit errors that depend only on the map's extremes and on the solver's own parameter: rounding alone for FMM, FSM, LSM and DDQM; plus the bucket width for UFMM; plus the stop threshold for FIM; plus the group step for GMM.",
  "all monotone rounding modes that are exact on doubles, grids of any number of dimensions and size within range, speed maps, initial points, sweep orders, queue tie-breaking, thresholds, bucket counts, steps, and all finished runs",
  "it compares two executions that process cells in completely different orders with different rounding histories, over all maps",
  ["include/fast_methods/fm/fmm.hpp", "include/fast_methods/fm/sfmm.hpp", "include/fast_methods/fm/fsm.hpp", "include/fast_methods/fm/lsm.hpp", "include/fast_methods/fm/ddqm.hpp", "include/fast_methods/fm/ufmm.hpp", "include/fast_methods/fm/fim.hpp", "include/fast_methods/fm/gmm.hpp"])
p("Stopping early does not cost accuracy in double precision; FM2's time is that of the speeds it computed",
  "In IEEE doubles, at any moment of a run of FMM (SFMM with an ordered queue), with or without a goal, the arrival time of every FROZEN cell is the exact solution of the discretised Eikonal equation up to the relative error of C59; when a run with a goal has ended, the goal's time is (and it is +inf exactly when the goal cannot be reached). When compute() of FM2 returns, the time at the start is, up to the same kind of error, the exact arrival time of a wave that starts at the goal and travels with the speeds that FM2 has left in the grid, around the obstacles of the given map; without saturation distance these speeds are at most 1 and, for N cells in n dimensions, at least (least crossing time)/(3 sqrt(n) N (largest crossing time)).",
  "all monotone rounding modes that are exact on doubles, grids of any number of dimensions and size within range, speed maps, initial points that are not adjacent, goals, tie-breaking of the queue, and all states of all runs",
  "a run stopped at the goal has used only part of the map, and FM2's second wave runs on speeds that are themselves rounded results of a first wave; that neither loses accuracy must hold for all maps and orders",
  ["include/fast_methods/fm/fmm.hpp: FMM::computeInternal, setInitialAndGoalPoints", "include/fast_methods/fm2/fm2.hpp: FM2::computeInternal, computeVelocitiesMap"])
p("FSM and LSM need at most one sweep per cell to be accurate, and at most 2N^2+N+1 sweeps in all",
  "On any map of N cells, with any obstacles, speeds, starts and first sweep direction: after N sweeps of FSM or LSM every arrival time is between the exact one and the exact one plus twice the comparison margin per cell, and stays so while the solver goes on, whether it has stopped or not; so without goal a sweep budget of N (maxSweeps in the constructor, beyond the sweeps already recorded in the object) is always enough. With any goal and any budget, also the default unlimited one, compute performs at most 2N^2+N+1 sweeps, a number that does not depend on sizes of speeds, cell size or arrival times.",
  "every map that fits in 2^31 cells (all dimensions of at least two cells, any number of dimensions, obstacles, positive speeds and leaf size), start points, goal, sweep budget, sweeps recorded before, first sweep direction and number of sweeps performed (exact real arithmetic)",
  "a test fixes the map; worst-case numbers of sweeps and accuracy of an interrupted run are claims over all maps and all budgets",
  ["include/fast_methods/fm/fsm.hpp: FSM::computeInternal, FSM::recursiveIteration, FSM::setSweep, FSM::solveForIdx, maxSweeps_", "include/fast_methods/fm/lsm.hpp: LSM::computeInternal, LSM::solveForIdx", "include/fast_methods/utils/utils.h: isTimeBetterThan"])
p("In doubles too, one sweep per cell is enough for FSM and LSM",
  "In 64-bit doubles with every operation rounded, on any map of N cells of moderate scale: after N sweeps of FSM or LSM every arrival time is the exact solution up to the relative error of C59 (infinite exactly where the exact solution is, never NaN), and stays so while the solver goes on, whether it has stopped or not; so without goal a sweep budget of N, beyond the sweeps already recorded in the object, is always enough, whatever the first sweep direction.",
  "every rounding of the operations to doubles, every map of moderate scale (the conditions of C59: bounded crossing times, number of cells and dimensions), obstacles, starts, goal (running) or no goal (budget), budget, sweeps recorded before, first sweep direction and number of sweeps performed",
  "a test fixes one map and one machine; interruption after any number of sweeps and all roundings are out of its reach",
  ["include/fast_methods/fm/fsm.hpp: FSM::computeInternal, FSM::recursiveIteration, FSM::setSweep, FSM::solveForIdx, maxSweeps_", "include/fast_methods/fm/lsm.hpp: LSM::computeInternal, LSM::solveForIdx", "include/fast_methods/fm/eikonalsolver.hpp: solveEikonal"])
p("The laws of travel times hold for the doubles actually computed",
  "Whatever solver class computed them in double precision, the arrival times obey, up to the relative errors of the runs compared: an easier map (more starts, fewer obstacles, faster or smaller cells) is never slower; multiplying all crossing times by k multiplies the times by k; mirroring or transposing the map moves the times along; only the set of starting points matters; a way over a way point is never shorter than the direct one; several starts are at most as slow as the best of them, and at least 1/sqrt(n) times as slow; on an open map the time grows with the offsets from the start, and travelling is reciprocal.",
  "all rounding modes, all maps within the double range stated by the input conditions, all lists of starting points, all pairs (triples) of finished runs of FMM, SFMM with ordered queue, FSM, LSM, DDQM, UFMM, FIM and GMM, all cells",
  "A test compares a few maps with a tolerance chosen by trial; that the laws hold with a stated tolerance for every map, rounding mode and pair of solvers needs the exact laws together with an error bound for every run.",
  ["include/fast_methods/fm/fmm.hpp: FMM::computeInternal", "include/fast_methods/fm/sfmm.hpp", "include/fast_methods/fm/fsm.hpp, lsm.hpp, ddqm.hpp, ufmm.hpp, fim.hpp, gmm.hpp: computeInternal", "include/fast_methods/fm/eikonalsolver.hpp: solveEikonal"])
p("The analysis script reports the mean times of every solver and benchmark",
  "For a results directory that has the logs of any number of benchmarks with the same solvers in the same order, scripts/analyzeBenchmark.m gives for every benchmark the number of cells of its grid and for every solver the mean of its times. Refuted where it is not so: if a benchmark saved its grids in the same directory (the directory made by run() is taken for a log), and if the log of a benchmark has a name that sorts before the dot (the first two entries, which the script drops, are then not the special ones): the script stops with an error.",
  "every number of benchmarks, every log written by a finished run (names without white space, at least one run), all number formats that can be read back; every listing with a directory of grids; every sorted listing with such a name",
  "the failures depend on what else is in the directory and on the order of names; a test has one directory",
  ["scripts/analyzeBenchmark.m", "scripts/parseBenchmarkLog.m", "include/fast_methods/benchmark/benchmark.hpp: Benchmark::run, Benchmark::saveLog, Benchmark::saveGrid"])
p("FIM and GMM keep their list iterators inside the list",
  "FIM and GMM move iterators of their lists only between the first element and end(), and read them only where there is an element. Refuted: FIM moves its iterator before the first element in every run that ends without meeting its goal (at the latest when the last cell converges: x = erase(x); --x), GMM in every iteration of its main loop (q = begin(); q--): undefined behaviour by the C++ standard. Proved: the second pass of GMM never does so, and on a circular list with one extra node for end(), as in libstdc++ and libc++, both loops visit exactly the elements that the other properties assume.",
  "every map, number of dimensions, set of starts, goal, threshold and time step, every arithmetic and every run",
  "with the usual libraries the undefined moves have no visible effect, so no test can find them; that they have none needs a proof for every list",
  ["include/fast_methods/fm/fim.hpp: FIM::computeInternal, active_list_", "include/fast_methods/fm/gmm.hpp: GMM::computeInternal, gamma_"])
p("Basins, slowdowns, far changes, clear lines and walks in doubles, whichever solver computed the times",
  "The results of FMM (every heap), FSM, LSM, DDQM, UFMM, FIM and GMM in 64-bit doubles, with rounding, obey up to their relative errors: every reached cell that is not a start has an axis neighbour whose time is lower by the crossing time over sqrt(D), and under a condition on the input alone (relative error small against smallest over largest crossing time and the number of moves) walking to the lowest neighbour reaches a start; the time of a free cell exceeds that of a neighbour by at most its crossing time; slowing all cells by a factor k slows no arrival by more; changes behind the wave do not matter; times are at most those along clear lines and along walks on the grid, some walk is at most sqrt(D) times slower, and no time exceeds the longest hop count times the longest crossing time.",
  "every map, number of dimensions, set of starts, all crossing times in the range of C59, every conforming rounding, every finished run of every solver named, every pair of solvers and maps for the laws that compare two results",
  "the laws are inequalities between runs on different maps with rounding in every operation; a test can look at a few maps",
  ["include/fast_methods/fm/fmm.hpp: FMM::computeInternal", "include/fast_methods/fm/ufmm.hpp: UFMM", "include/fast_methods/fm/fim.hpp: FIM::computeInternal", "include/fast_methods/fm/gmm.hpp: GMM::computeInternal", "include/fast_methods/fm/eikonalsolver.hpp: EikonalSolver::solveEikonal"])
p("FMM* and SFMM* in doubles: the time at the goal is at most that of any axis route, up to a loss per move",
  "Run in 64-bit doubles with one starting point, FMM, SFMM, FMM* and SFMM* leave at every cell they freeze, in particular at the goal when the run stops there, a time that is not below the exact arrival time by more than rounding, and not above the travel time of any route along the axes by more than an explicit small amount per move (three comparison margins, three local rounding errors and the rounding of the heuristic). This holds for the DISTANCE heuristic with the library's table when no cell is crossed in less than the time 1, for the TIME heuristic when all speeds are equal and the cells at least 1 wide, for no heuristic, and for any heuristic that loses little more than the time of a move. When some route along the axes leads to the goal, the run ends with the goal frozen.",
  "every map in the range of C59, number of dimensions, start, goal, every conforming rounding, every tie-breaking of the queue, every route and its number of moves",
  "rounding enters the heuristic table, the total values compared by the queue and the local solver; whether the order of the queue is harmed depends on all of them at every step of every run",
  ["include/fast_methods/fm/fmm.hpp: FMM::computeInternal", "include/fast_methods/fm/fmm.hpp: FMM::precomputeDistances", "include/fast_methods/fm/fmm.hpp: FMM::getPrecomputedDistance", "include/fast_methods/fm/fmmstar.hpp: FMMStar", "include/fast_methods/fm/sfmmstar.hpp: SFMMStar", "include/fast_methods/ndgridmap/fmcell.h: FMCell::getTotalValue"])
p("A dimension of a single cell does not change the arrival times",
  "On a map that is one cell wide in some of its dimensions the arrival times are those of the map without these dimensions: a straight corridor of constant speed gets at each cell its distance divided by the speed.",
  "every length of corridor, number of dimensions of one cell, cell width, speed, solver of the FMM family with any queue and heuristic, any number of steps of the run",
  "in a dimension of one cell there is no neighbour and the value used for it is whatever a buffer shared by all cells and calls holds: a test sees one map, the property is about all of them and depends on the history of the buffer",
  ["include/fast_methods/ndgridmap/ndgridmap.hpp: getMinValueInDim", "include/fast_methods/fm/eikonalsolver.hpp: EikonalSolver::solveEikonal", "include/fast_methods/fm/fmm.hpp: FMM::computeInternal"])
p("A benchmark that is interrupted keeps what it has finished",
  "If the program ends at any moment during Benchmark::run() (crash, kill, a solver that never returns), what was finished before is on the disk: the grid of every finished run or solver, complete, in its file; the times of the finished runs in the log. No other file is damaged, and running the benchmark again gives the files of an uninterrupted run.",
  "every moment of every execution, including the middle of a file, every benchmark, number of solvers and runs, content of the disk before",
  "a test can stop the program at a few points only; the property is about every crash point of every execution",
  ["include/fast_methods/benchmark/benchmark.hpp: Benchmark::run", "include/fast_methods/benchmark/benchmark.hpp: Benchmark::saveGrid", "include/fast_methods/benchmark/benchmark.hpp: Benchmark::saveLog"])
p("The time a solver reports is the time its last run took",
  "After compute(), getTime() is the duration of that call in milliseconds, rounded down, whatever the solver did before; so the times a benchmark logs are those of the runs.",
  "every behaviour of the clock, every duration of every part of the run, every state of the solver before, every solver class",
  "durations differ in every execution: a test can only check that some number is printed",
  ["include/fast_methods/fm/solver.hpp: Solver::compute", "include/fast_methods/fm/solver.hpp: Solver::getTime", "include/fast_methods/fm2/fm2.hpp: FM2::computeInternal", "include/fast_methods/fm2/fm2.hpp: FM2::computeVelocitiesMap", "include/fast_methods/fm2/fm2star.hpp: FM2Star::computeInternal"])
p("Threads that use the library at the same time get correct results",
  "Several threads can use the library at the same time: solvers that run in different threads on their own grids give the results of running alone, and threads that only ask a grid (smallest value around a cell) get the correct answers.",
  "every schedule, every number of threads, every grid, all queried cells",
  "the number of schedules is astronomical and the wrong ones are rare: a test that passes a thousand times proves nothing",
  ["include/fast_methods/ndgridmap/ndgridmap.hpp: getMinValueInDim", "include/fast_methods/ndgridmap/ndgridmap.hpp: getNeighborsInDim", "include/fast_methods/benchmark/benchmark.hpp: Benchmark::saveGrid"])
p("Numbers written to files keep six significant digits",
  "A finite number that the library writes to a file or log is the number with six significant decimal digits nearest to it, hence off by at most 5 parts in a million; it can be read back, the order of numbers is kept, numbers with at most six significant digits (0, 1, 0.05, whole numbers below a million) come back exactly, and what was read is written as the same text again. A map saved with saveVelocities and loaded with loadMapFromText has the same shape, speeds with these properties, and no free cell has become occupied nor (if its speed is at most 2.22e-11) an occupied one free.",
  "every finite double (for the last two: 0 or between 1e-300 and 1e300 in absolute value), every map of such speeds, every rounding mode of the arithmetic",
  "there are 2^64 doubles, and the exceptions (ties, carries to the next power of ten, neighbours of the occupancy threshold) are rare",
  ["include/fast_methods/io/gridwriter.hpp: saveVelocities, saveGridValues, savePath, savePathVelocity", "include/fast_methods/io/maploader.hpp: loadMapFromText", "include/fast_methods/benchmark/benchmark.hpp: logRun", "include/fast_methods/ndgridmap/cell.h: isOccupied"])
p("Saving and loading a map hardly changes the arrival times",
  "If a map of finite speeds is saved with GridWriter::saveVelocities and loaded again with MapLoader::loadMapFromText, into any grid, then the arrival times computed on the loaded map are those of the original map up to 11 parts in a million (and the relative errors of the two computations), and exactly the same cells are reached, whichever solvers compute the two. If cell size and speeds have at most six significant digits, the loaded map is as fit for the solvers as the saved one.",
  "all maps of two or more dimensions with finite speeds (those of obstacles at most 2.22e-11, usually 0) within the range of C59, all grids loaded into, all starting points, all rounding modes, all solvers and schedules of C99, all cells",
  "Six digits are written, so every speed and the cell size change by a different amount; how such errors accumulate along a route depends on the whole map. A test sees one map, and the text it writes.",
  ["include/fast_methods/io/gridwriter.hpp: GridWriter::saveVelocities", "include/fast_methods/io/maploader.hpp: MapLoader::loadMapFromText", "include/fast_methods/fm/eikonalsolver.hpp: solveEikonal"])
p("What is printed identifies what it describes",
  "operator<< of cells and grids, showCoords, showIdx and printRunInfo print their subject completely and unambiguously: cells printed alike have the same index and state and values and velocities that agree to six digits; grids printed alike have the same sizes and leaf sizes that agree to six digits; showCoords of different cells differs, and showIdx of the coordinates shown is the index; the information of a solver shows its class, name, parameters, the number of sweeps of its last run and the time it took.",
  "all cells, grids, coordinates, solver objects, names without line breaks, numbers and times",
  "unambiguity is a statement about all pairs of objects; a test prints a few",
  ["src/ndgridmap/cell.cpp: operator <<", "src/ndgridmap/fmcell.cpp: operator <<", "include/fast_methods/ndgridmap/ndgridmap.hpp: operator <<, showCoords, showIdx", "include/fast_methods/fm/solver.hpp: printRunInfo", "include/fast_methods/fm/fmm.hpp: printRunInfo", "include/fast_methods/fm/fsm.hpp: printRunInfo", "include/fast_methods/fm/lsm.hpp: printRunInfo", "include/fast_methods/fm/ufmm.hpp: printRunInfo"])
p("A saved result, read by MATLAB, is the solution of the equation",
  "If the result of a run is saved with GridWriter::saveGridValues, parseGrid.m reads the dimensions of the map, and in every cell the exact arrival time up to the relative error of the run and 8 parts in a million: exactly Inf where no starting point is connected, and 0 in the starting points and nowhere else. The files of two runs on the same map, of the same or of different solvers, show Inf in the same cells and agree elsewhere up to the two errors.",
  "all maps, starting points, rounding modes, solvers and schedules of C99 for which the error of the run is at most 1/2, all cells",
  "It joins the whole pipeline: the solver's rounding errors over the whole map, printing with six digits, the row and column order of the file and reading it in another program. A test compares a file with another file.",
  ["include/fast_methods/io/gridwriter.hpp: GridWriter::saveGridValues", "scripts/parseGrid.m: parseGrid", "include/fast_methods/fm/eikonalsolver.hpp: solveEikonal"])
p("A map that goes to MATLAB and back stays the same map",
  "loadMapFromText of a file written by saveGridToFile.m gives a grid with the sizes of the array, whose speeds are the nearest numbers with two decimals and whose leaf size is the one given, to six decimals, or 1. So a map saved with saveVelocities, read with parseGrid.m, written with saveGridToFile.m and loaded again has the same speeds and obstacles if they have at most two decimals and six digits (three or more dimensions; for two dimensions see C77). Refuted for other maps: a free cell whose speed is below 0.0049 comes back as an obstacle.",
  "all arrays and maps of finite speeds, all leaf sizes given or not, all rounding modes, all grids loaded into",
  "The speeds pass through two formats with different numbers of digits and two roundings to doubles; whether a number or an obstacle survives depends on the number. A test tries some numbers.",
  ["scripts/saveGridToFile.m: saveGridToFile", "scripts/parseGrid.m: parseGrid", "include/fast_methods/io/maploader.hpp: loadMapFromText", "include/fast_methods/io/gridwriter.hpp: saveVelocities", "include/fast_methods/ndgridmap/cell.h: isOccupied"])
p("The mean times that are plotted are the means of the measured times",
  "If every run of the benchmarks took less than 1000 seconds (10^6 ms), scripts/analyzeBenchmark.m, computing in doubles, gives for every benchmark exactly the number of cells of its grid and for every solver the mean of the measured milliseconds with one single rounding, that of the division: neither the text of the log nor the sum loses anything. Refuted for longer times, which the log has with six digits only: a run of 1234567 ms is plotted as 1234570 ms.",
  "every number of benchmarks, solvers and runs (below 2^32), all times in whole milliseconds, all rounding modes, all grids with fewer than 2^32 cells",
  "Whether digits are lost depends on the sizes of all times and of their sum, and times differ in every execution; a test has short times.",
  ["scripts/analyzeBenchmark.m", "scripts/parseBenchmarkLog.m", "include/fast_methods/benchmark/benchmark.hpp: Benchmark::logRun", "include/fast_methods/fm/solver.hpp: Solver::getTime"])
p("A log whose writing was interrupted is not taken for a complete one",
  "If the program is stopped while saveLog writes, the file has a beginning of the log. Wherever it is cut, scripts/parseBenchmarkLog.m either stops with an error, or gives, for some of the first solvers, their names and all times of all their runs, except perhaps the very last time. Refuted for this last time: cut inside it, the script gives what is left of its digits (17 ms as 1 ms), or no number, without an error.",
  "every log written by a benchmark (names without white space, at least one run), every point at which it is cut, all number formats that can be read back",
  "The result depends on the position of the cut; a test tries none or a few of them.",
  ["scripts/parseBenchmarkLog.m", "include/fast_methods/benchmark/benchmark.hpp: Benchmark::saveLog", "include/fast_methods/benchmark/benchmark.hpp: Benchmark::logRun"])
p("Interrupted value and velocity files are not mistaken for complete ones by MATLAB",
  "If the writing of the file of a grid by saveGridValues or saveVelocities is interrupted, so that the file has only a beginning of its text, then parseGrid.m either fails on it or gives the leaf size, the sizes and the values of the grid; it never gives a grid with other cells. Limits: if the interruption falls inside the digits of the very last cell, the script accepts the file and gives that one cell a wrong number; all other cells are right.",
  "all grids with at least two dimensions, all sizes and values, every point at which the file may be cut (inside the header, a size or a cell)",
  "a crash can happen after any character; tests cut files at a few places",
  ["include/fast_methods/io/gridwriter.hpp: saveGridValues, saveVelocities", "scripts/parseGrid.m"])
with open('/verif/properties.jsonl','w') as f:
    for x in P: f.write(json.dumps(x)+"\n")
print(len(P))
