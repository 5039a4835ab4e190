# A machine-checked model of jvgomez/fast_methods in Lean 4

Property list: `properties.jsonl` (ids C01...).  Status per property: `MANIFEST.json`.
Bug-injection log: `seeded/LOG.jsonl`.  Model and proofs: `lean/Verif/`.

## 1. Layout

| module | contents |
|---|---|
| `Verif/Model/*` | the model, one definition per C++ function, each citing file:lines |
| `Verif/Spec/*` | small specifications independent of the model (adjacency in coordinates, exact discrete Eikonal solution, ...) |
| `Verif/Lemmas/*` | helper lemmas |
| `Verif/Props/*` | the property theorems `Cnn_...` with a non-vacuity example beside each |

## 2. Modelling decisions

* **Floating point.**  `class Arith F` only gives operations (add, mul, sqrt, `<`, isinf, ...), no laws.
  All model functions are generic in `F`.  A theorem about an arbitrary `[Arith F]` therefore
  holds for IEEE doubles with every rounding mode, NaNs and infinities.  Theorems that need a few order facts take them as hypotheses
  (`LtLaws`, `MarginLaws`, `Finite F`).  Quantitative
  theorems use the instance `XR` = real numbers + `+inf`, `-inf`, NaN with IEEE rules for the special
  values and *no rounding*.  The instance `F64 R` (Model/F64) is the set of IEEE binary64 values with every operation followed by an arbitrary monotone
  rounding `R` (`Rounding.nearest` is one); the signed zero is not distinguished.  `COMP_MARGIN` is its actual value 100000 * 2^-52.
* **Unsigned 32-bit arithmetic** of the grid is modelled on `Nat` with explicit `% 2^32`.
* **Grid** `std::vector<Cell>` is a total function from indices plus `ncells`; that no index outside
  `0..ncells-1` matters is a separate theorem family (C48).  An artefact: "fresh" grids are fresh in out-of-range cells too.
* **The narrow band** (Boost heaps) comes in two versions. In Model/FMM it is a multiset (list) of cell indices; which element `popMinIdx`
  returns is nondeterministic: *any* element in structural theorems (`StepAny`, `StepLib`), a minimal one w.r.t. the current keys (`StepMin`, `IsTop`) where
  the property needs the heap order.  In Model/Heap it is a parameter (`Band`) of the loop, with three concrete instances: `FMDaryHeap` over the array algorithms of
  `boost::heap::d_ary_heap` (sift up/down, handles), `FMFibHeap` over the node operations of `boost::heap::fibonacci_heap` (push, cut, cascading cut, consolidate; Model/Fib), and `FMPriorityQueue` over `std::push_heap`/`std::pop_heap` of libstdc++.  For the first two it is proved that
  the loop refines the multiset version with minimal pops (C57), so there the heap order is no assumption.  The array `aux` of Boost's `consolidate` (64 entries, indexed by
  numbers of children) is a total function in the model: that no node ever has 64 children is not proved.
  For `FMPriorityQueue` it is *false* (C58): only the theorems that allow any pop order apply to SFMM.
* **Concrete witnesses**: `XQ` (Model/XQ) is a computable rational copy of `XR`; Lemmas/Reflect proves that a run over `XQ` whose square roots are all rational is the
  run over `XR`, so concrete runs are evaluated by the kernel (`decide +kernel`, no compiled code).
* **Loops** are iterated step functions/relations (`Steps step n s s'`); termination is a theorem, never assumed.
  FIM, GMM and DDQM, whose loops are nested and change the list they iterate over, are small-step machines; the lists of FIM/GMM are split at the
  iterator, and `--begin()` (undefined by the standard, C105) behaves as in the circular lists of libstdc++/libc++ (proved equivalent over Model/ListIter).
* **Scratch buffer.** `getMinValueInDim` leaves old data in the member array `n_` and reads it when a
  dimension has size 1.  The solvers use this faithful, stateful version (`eikS`); it is shown equal to a pure function if all sizes are >= 2.
* **Untidy queue** (`levelset::PriorityQueue`): buckets as lists, counters as `Nat` (no wrap), the out-of-range conversion double -> unsigned as an
  arbitrary function `ub`, cell pointers identified with cell indices.
* **Solver life cycle** (Model/Solver): several solver objects share one grid; an object is one flat record with the members of all classes;
  uninitialised members are an arbitrary `Junk`; `exit(1)` is an error outcome.  A null or uninitialised grid pointer is not modelled.
* **FM2/FM2\***: two runs of an inner FMM object, as in the code.  **GradientDescent**: undefined behaviour (index outside the grid, `int(NaN)`) is the
  outcome `none`; the write past the end of the local array `d_` is modelled separately (`fillD`).
* **Console**: `argv` is a list of strings (`argc` < 2^31); `atoi`/`atof` are a parameter `conv`.  **BenchmarkCFG**: `std::getline` on a stringstream is
  modelled, `boost::program_options` delivers the unregistered options, `lexical_cast` is a parameter; uninitialised pointers, exceptions and
  out-of-range accesses are explicit outcomes.
* **Benchmark**: directories, the progress bar and the console are left out; written grids are a list of (name, grid); the measured time of a run is an arbitrary text.
* **IO**: files are lists of characters; `operator>>` for numbers is modelled after libstdc++ in the "C" locale (which characters are consumed, stream state), the
  conversion of a numeral to a double (`conv`) and the formatting of a double (`fmt`) are parameters with a stated contract; decoding of image
  files by CImg is not modelled, a picture is a pixel function.
* Undefined behaviour and `exit` are explicit outcomes in the API-level functions.

## 3. How each property is modelled and proved

| id | modelled | proof |
|---|---|---|
| C01 | idx2coord, coord2idx, d_ with wrap | arithmetic induction over dims |
| C02,C03 | getNeighborsInDim (both overloads), getNeighbors | characterisation through coordinates; counterexample above 2^31 |
| C04 | getMinValueInDim with its scratch buffer | case split; counterexample for size-1 dims |
| C05,C06,C07 | resize, getMaxValue/getMaxSpeed, clean | induction |
| C08,C09 | solveEikonal, solveEikonalNDims | loop invariant over the sorted list, real quadratics |
| C10 | all solvers | run invariants; counterexamples for adjacent starts in FMM/FIM |
| C11,C12,C20 | all solvers | run invariants, any arithmetic |
| C13,C14 | FMM | counting/connectivity invariants, any arithmetic, any pop order |
| C15,C16 | FMM | ghost-snapshot invariant (`Mid`), comparison with the exact solution |
| C17 | spec only | least fixed point for existence, comparison argument for uniqueness |
| C18 | all solvers | invariant T >= T* |
| C19 | FMM with/without goal | prefix simulation + C12 |
| C21,C22 | recursiveIteration, setSweep | induction over dims; binary counter |
| C23..C27 | FSM, LSM, DDQM | well-founded descent (finite arithmetic: rank of values; exact: margin); lock invariants |
| C28,C29 | FMM, SFMM, FSM, LSM, DDQM, FIM | fixed-point residual bounds; FIM terminates by induction over value levels (a gap lemma for the local solver: two different updates below a level differ by a fixed amount) |
| C30,C31 | levelset::PriorityQueue | refinement to a multiset; window invariant for the order |
| C32,C33,C34 | FM2/FM2* | phase-wise through C16; saturation counterexample |
| C35,C51 | GradientDescent::apply, computePath | induction over steps, UB as outcome; refutations for flat and border cells; init point overwritten |
| C36 | GridWriter, MapLoader text | tokenisation lemmas for the stream model; round trip for every grid and formatter |
| C37 | MapLoader/GridPlotter images | flip bijection over pixels |
| C56 | GridPlotter with paths | image buffer as a flat array, a write outside it is an outcome; induction over the path |
| C55 | FM2/FM2* lifecycle | invariant over all histories; two objects that agree on the relevant members produce the same grids |
| C38,C39,C40 | Solver lifecycle | case analysis; agreement relation between used and new objects; history counterexamples |
| C41 | precomputeDistances/getPrecomputedDistance | C01 + square root; overflow counterexample |
| C42..C45 | console, BenchmarkCFG, Benchmark | list induction; counterexamples for split; LSM counterexample |
| C46 | utils | order facts |
| C47 | SFMM = FMM with duplicating queue | as C12, C16, for a queue that releases minima |
| C57 | FMDaryHeap, FMFibHeap, FMM/FMM* loop over them | heap-order invariant of the sift operations; forest invariant (parents/children/roots, order, top) of the Fibonacci heap through cuts, links and consolidation; simulation of the loop by the multiset version; handle invariant |
| C58 | FMPriorityQueue, SFMM loop over it | simulation by the any-order version (positive part); kernel-evaluated 3×3 run whose time is too large (refutation); heap invariant of `std::pop_heap` and equality with a correct queue while no cell is stored twice (accuracy) |
| C59 | solveEikonal, isTimeBetterThan, FMM/FSM/LSM/DDQM loops in rounded 64-bit arithmetic | forward error analysis of the local solver, approximate versions of the invariants behind C16, relative comparison with the exact solution |
| C60 | GridPoints::selectMapPoints over the list of events reported by the display | the loops select the first two events that end them (equation), comparison with the clicks; refuted for the first column and for drags |
| C61 | GMM runs evaluated over exact rationals, transferred to the model by a homomorphism (`Lemmas/ReflectGMM`); the general run of the model | positive part from C18, C49; small steps: invariant of a round (`Lemmas/GMMSmall`): nothing below tm − step − √n·(step+margin) − 2·margin changes any more, each frozen cell satisfies its local equation up to that width, then the comparison theorem `accuracy_rel`; refuted for the default step by two kernel-evaluated runs compared with FMM's accuracy (C57) |
| C62 | the FMM loop with heuristic and an ordered queue, exact arithmetic; routes and their times in Spec/Route | A*-style invariant: some queued cell lies below every promise of a route; refuted beyond the route bound by an explicit run on the empty 3 x 3 map and on rings |
| C63 | object life cycle with `heurStrategy_`, `precomputed_`, `distances_`, `heur_coord_` | C39 reduces a careful history to a new object, then the run invariant of C41; refuted after a run without goal, for a second grid of another shape, and for a changed goal without reset |
| C64 | final grids of FMM, FSM, LSM, DDQM, FIM on two maps | comparison principle: the exact solution of the harder map is a supersolution of the easier one; C28 accuracy on both sides |
| C65 | final grids on a map and its rescaled copy | the rescaled exact solution solves the rescaled problem; uniqueness (C17), C28 accuracy |
| C66 | final grids of all exact solvers, every state of FMM*, SFMM*, GMM and UFMM runs; distance from C41's specification | the distance is a subsolution (Cauchy-Schwarz), distance plus a logarithm a supersolution; also in 64-bit rounding through C59; refuted for two starts |
| C67 | final grids on a map and its image under any symmetry of the axes (Spec/Symmetry) | neighbour sets commute with the symmetry; uniqueness of the exact solution (C17), C28 accuracy |
| C68 | `main` and `configure` (Model/Program.lean) on top of the models of the solver lines, the loaders and `Benchmark::run` | described problems are run as described, also end to end down to the times in the saved grids; refuted for coordinates out of range or missing, for unreadable files (exit code 0), for other numbers of dimensions and for the leaf size of text maps |
| C69 | grids at any moment of FMM, FSM, LSM, DDQM runs (exact and 64-bit rounding), final grids incl. FIM | invariant: every written time is explained by times of neighbours that only decrease later; pigeonhole over the dimensions; well-founded descent; accuracy of C28, C59 |
| C70 | final grids on two maps | the exact solution times k is a supersolution of the second problem; C28, C59 accuracy on both sides |
| C71 | final grids on two maps | the exact solution cut off at theta is a supersolution of the other problem (causality), in both directions; C28, C59 accuracy |
| C72 | Model/DDQM.lean (both queues, counters, threshold and step); Spec/DDQMRule.lean gives the rule of the paper over the reals and defines a turn | invariants: counters are zero at the head of the outer loop, and during a turn they equal (mod 2^64) the growth of the queues; then the arithmetic of increaseThreshold |
| C73 | `Model/Own`: the heap blocks created with `new`, all constructors, destructors, `clear`, `setEnvironment`, `reset`/`compute`, benchmark functions as uses, allocations and frees | simulation between the memory and a ledger without addresses (`Spec/Own`), over all histories; counterexample families |
| C74 | the models of GMM, UFMM, FSM, LSM, DDQM, FIM with and without goal | lock step of the two runs (the goal only touches the stop flag), determinism; counterexamples on a 4x4 and a 3x3 map, runs evaluated over the rationals by the kernel and reflected into the real model |
| C75 | The final grids of the five solvers on two open maps with one start each | The exact solution of an open map is written down as a function of the offsets (recursively, Lemmas/Offsets) and shown to solve the discrete equation; uniqueness (C17) and accuracy (C27 and others, `FinalGrid.exact`) transfer it to the solvers; monotone by induction on the sum of offsets. Refutation: the 2x2 map of C61 |
| C76 | The runs of FSM and LSM on an open map with a bounded number of sweeps | In a sweep the upwind neighbours of a cell are visited before it (Lemmas/Upwind: order of `recursiveIteration`); so a sweep makes the cells of its quadrant accurate by induction along the visiting order, later sweeps keep it, and the directions run through all 2^n (C22). Refutation with obstacles: rational run lifted to the reals |
| C77 | the six scripts on top of the model of the text files and of the benchmark log (Model/Matlab); MATLAB numbers abstract | words and numbers of the files computed by induction over the lists written; loops of the scripts by induction; the faulty cases as theorems over all files of that kind |
| C78 | paths as texts with boost's operator/, filename, extension and replace_extension, a disk as a map from paths to contents, `ofstream` truncating, the read position of the log's stringstream | the result files from the theorems of C45 and injectivity of the path in the stem of the name (run numbers and names with different stems); refuted for names that differ in the extension only, such as FIM_0.01 and FIM_0.02: one file, holding the later result; the log by induction on the calls |
| C79 | GD.Runs on the grids FMM, FSM, LSM, DDQM and FIM leave (FinalGrid) and on a grid holding the exact solution | on open maps (no obstacles, one speed, one start at least two cells from the border): potential function for the drift of the coordinates, with the rounding margin for steps below 1, exact times for steps up to 1; refuted in general: endless loop between two cells (general condition and a run of FMM on a 3x5 map), NaN in passages one cell wide (all solvers, all maps) |
| C80 | GMM's main loop over the reals, runs without goal | corollary of the invariant of C61_small_step_partial (frozen cells are converged up to a delay of step + sqrt(n)(step + margin)) and of C49_GMM_total; the step is the smaller of two explicit quotients |
| C81 | final grids of FMM, FSM, LSM, DDQM, FIM over the reals; initialisation of FSM and LSM over any arithmetic | both results lie within the margin above the unique exact solution, whose source set is the same; for FSM/LSM the initialised grids are shown equal as functions |
| C82 | final grids of FMM, FSM, LSM, DDQM, FIM over the reals | the pointwise minimum of the exact solution and of the shifted exact solution from w is a supersolution (ExSol.triangle), comparison principle, then FinalGrid.exact |
| C83 | final grids of FMM, FSM, LSM, DDQM, FIM over the reals | upper part from C64; lower part by induction on the rank of the exact time: some direction carries 1/n of the squared crossing time (ExSol.one_of) |
| C84 | loadMapFromImg, FMM with FMDaryHeap/FMFibHeap, all in rounded doubles | the loaded grid is shown to be an input of the error analysis of C59 whose exact problem is the one described by the picture (Spec: pictureProblem); composition of C37, C57, C59 |
| C85 | implicit copy constructors added to the memory model (`Model/OwnCopy.lean`) | for the solvers that own nothing: the invariant of C73 extended by copies, induction over all histories; for UFMM, FM2, FM2*: refuted for every history: once one of the two objects is destroyed the other can never again be used or destroyed (freed blocks do not come back, by induction over the rest of the program) |
| C86 | exact solution of the discretised equation and the results of the solvers (C16, C24, C26-C29, C59) | a logarithmic barrier that is finite only inside the box is a supersolution, comparison principle; pieces joined by the triangle inequality (C82); induction over the line; lower bound from C66 |
| C87 | exact solution and results of the solvers | induction over the walk with the one-step bound of the discretised equation; conversely a walk is built backwards: the residual equation gives one direction at least a share 1/sqrt(D), induction over the rank of the time |
| C88 | size and capacity of `distances_` through all calls (`Model/DistTable.lean`) | invariant over histories for grids that do not grow; refuted for larger grids, for copies, and (by the letter of the standard: `reserve` instead of `resize`) everywhere |
| C89 | velocity phase as in C32 (rescale, VelMap) | obstacle wave lies above the distance to one of the obstacles over sqrt(n) (C83, C66) and below the barrier around every obstacle (C86 with obstacles as sources) |
| C90 | FM2.compute (velocity phase + second wave) on XR | lower bound of the obstacle wave next to an obstacle against the upper bound C89 of the largest clearance gives a normalised speed above COMP_MARGIN; then reachability of the second wave; counterexample corridor for extreme speed ratios |
| C91 | FM2.Obj over F64 R (same generic model, every operation rounded) | C59 for the wave from the obstacles (times between 3/4 of a crossing over sqrt(n) and the bound A), rounding of the quotients is monotone and exact at 0 and 1, the size condition keeps every quotient above 10^-6; then generic reachability of the second wave |
| C92 | FIM in double arithmetic (`F64`) | refuted: a 2 x 2 map without obstacles on which the time of one cell alternates for ever between two doubles (`C92_refuted_doubles`, rounding to nearest evaluated exactly by a half-ulp lemma, invariant of period 4); proved for exact arithmetic |
| C93 | the solver models over rounded doubles (F64) with the error analysis of C59 | invariant: every finite time is at least (1-error) times the exact solution and at most a constant times the number of cells ever reached (for FIM plus two per iteration), which keeps the error analysis of the local solver applicable; each write preserves it (Lemmas/LowF64, Props/LowF64) |
| C94 | Model/Examples: the programs as histories of calls of the memory model (Model/Own), for every list of solver classes | Props/Examples: the histories respect the rules of Spec/Own (induction over the list), then C73; refuted for test_fmm3d, which never deletes its solvers |
| C95 | `UQ` and `UFMM` over the doubles `F64 R` (any rounding `R`); exact solution and `DInput` as in C59; `Spec/QueueFits.lean` says which queues suit a map | Error analysis of the bucket computation and of the moving beginning (`UQ.bucketOf_f64`, `Placed64.advance`), an untidy-queue version of the approximate fast-marching invariants (`Lemmas/ApproxUntidy.lean`), simulation by FMM steps. Main theorems: runs that perform no undefined conversion (`UFMM.DStep`, Model/UQDefined.lean). The `_partial` theorems also cover runs in which rounding noise puts a key below the beginning of the queue, provided the undefined conversion of a number in (-1,0) gives 0 (`RoundsUp`). |
| C96 | FIM.lean over `F64 R` (every operation rounded by an arbitrary monotone rounding) | invariant `AInv64`: with active cells taken as unreached every other cell is converged up to 2β + e + rounding; bounds on all times from `fim_reach`; `accuracy_rel` |
| C97 | GMM model instantiated at F64 (every operation rounded), `tm_ += deltau_` included; `StepFits`, `stepErr` in Spec/StepFits | wave invariant with error terms (`GMMA.RB`), bound of `tm_` by counting non-OPEN cells, lexicographic termination measure; accuracy from the discrete comparison principle |
| C98 | `UQ.convDefined`, `UFMM.pushDefined`, `increaseDefined`, `relaxDefined`, `DStep` (Model/UQDefined.lean): the step relation restricted to defined conversions | exact arithmetic: the window invariant of C45 puts every key at or after the beginning of the queue, by induction over runs. Doubles: refuted by a 2 x 2 map on which `(0.2 - ulp) * 25 / 5` rounds up to 1 while bucket 1 begins at 0.2 |
| C99 | all solver models over `F64 R`; `Finished64` lists the finished runs with their error bounds | through the exact solution: C59, C95, C96, C97 combined with uniqueness (C17) |
| C100 | FMM and FM2 models over `F64 R` | the run with a goal is a prefix of one without (`drop_goal`), every run can be completed (`completes64`, no infinite runs in doubles), FROZEN cells are final (C12), C59 for the completed run. FM2: the second wave satisfies the range conditions `DInput` with the computed speeds (`second_input`) |
| C101 | FSM, LSM (Model/FSM) over exact reals, Eikonal solution of Spec/Eikonal | after sweep k the cells with at most k predecessors in the exact solution are near their exact time (induction on sweeps, inside a sweep along the visit order); after N sweeps the total excess is at most 2N^2 margins and every further sweep takes away more than one |
| C102 | FSM, LSM (Model/FSM) over F64 R, Eikonal solution of Spec/Eikonal, RelClose/relErr of C59 | as C101 with a factor instead of an excess: a visit leaves the cell converged up to rounding, and a converged cell whose predecessors are within the factor is within the factor (step_rel) |
| C103 | Finished runs in doubles of all solvers (C99 with its input conditions) on two maps | each exact law (C64, C65, C67, C75, C81, C82, C83) is transported through the relative error of either run: factor (1+σ)/(1-ρ) |
| C104 | analyzeBenchmark.m over a directory listing (Model/Analyze) on top of parseBenchmarkLog (C77) and Benchmark.run | induction over experiments and solvers for the growing matrix of times; refuted for directories of saved grids and for names before the dot (position in a sorted list) |
| C105 | std::list with an iterator (Model/ListIter) in two readings: the standard (moving out is `none`) and a circular list; the loop bodies of FIM and GMM over it | the body is computed in both readings and compared with FIM.next, GMM.pass1, GMM.next; FIM: the list can only become empty in an iteration that erases the last element; GMM: by definition of begin() |
| C106 | all solvers in doubles (`Computed64`) | transport of the exact laws C69, C70, C71, C86, C87 through the accuracy theorem C99; the gap condition turns the lower neighbour into a strict descent, hop counts bound the times |
| C107 | FMM with heuristics in doubles, table included | invariant of the run (`AGoal`): frozen cells are within the bound, and on the way to any cell waits a queued cell whose total keeps the route's promise; sums of squares are exact, one rounding in the root, one in the quotient |
| C108 | Shape/Grid with dimensions of size one, `solveEikonalS` with its scratch buffer, FMM.StepLib | refuted for every corridor of at least three cells, every number of extra dimensions and every queue: the time of cell k is k·h/(v·√(d+1)), by an invariant on the narrow band of one cell and on the buffer; proved for the corridor between walls two cells thick, all solver classes of C28, from C66 and C87 |
| C109 | Model/Crash: `Left`, the disks an interrupted `run()` can leave, on top of Bench.Loop/Rounds and Disk; a file being written holds a beginning of its text | inductions over solvers and rounds for the states reached, distinctness of the files (C78); refuted for the log, which is written only at the end and truncates the old one first |
| C110 | Model/Clock: the stopwatch members of Solver and FM2 and the moments at which they are read and written; the work in between takes any time from a given one on | arithmetic of truncated durations over all executions; refuted for FM2 and FM2*, whose getTime() leaves out the velocities map (0 ms reported for a run of any length) |
| C111 | Model/Threads: calls of getMinValueInDim statement by statement on the shared members n_neighs and n_, and threads in general with their own state | own grids: induction over the schedule, with FMM and FSM run at the same time as a corollary of C28; queries of one grid: refuted for every grid and every two cells with two neighbours by explicit schedules (write outside the member array, answer for the wrong cell) |
| C112 | Model/Decimal: operator<< (%g with six digits, fixed or scientific, zeros removed), strtod and the stream's conversion on concrete doubles | uniqueness and monotonicity of correct rounding to six digits, text lemmas for digits and exponents, rounding error of doubles for stability; combined with C36 for maps; refuted for digits beyond the sixth and for speeds just below the occupancy threshold |
| C113 | saveVelocities, loadMapFromText (C36) with the numbers of C112 on the grids of doubles of C99 | the loaded grid computed completely (`loaded_all`), error of a crossing time h/v at most 11e-6 from the nearest-six-digits bound and one rounding, then C106 in both directions |
| C114 | Model/Print: the printed texts (numbers by C112's fmtG), run information per class with inheritance | splitting at line breaks and tabs gives injectivity, with C01 for coordinates and C23/C26 for the sweeps; refuted for the class (FMM and SFMM print the same, FIM, GMM, FM2 and FM2* only a warning) and for times of a million milliseconds and more |
| C115 | saveGridValues and parseGrid.m (C77) with the numbers of C112, on the computed grids of C99 | positive times lie between 1e-20 and 2^300 (C106 bounds), so six digits and one rounding cost at most 5.1 parts in a million; combined with C99 and C20 |
| C116 | `%.2f` and `%f` on doubles (Model/MatlabSave), saveGridToFile.m and parseGrid.m (C77), loadMapFromText and the numbers of C112 | value of the printed text and nearest decimal (`fmtF_value`, `fixV_nearest`), instantiating C77_save and C77_roundtrip; numbers with two decimals and six digits survive both formats; speeds below 0.005 are printed 0.00 |
| C117 | analyzeBenchmark.m (C104) with MATLAB's numbers as doubles and the text of C112 (Model/MatlabNum) | instantiating C104_analysis; whole numbers below 10^6 survive the text, sums and products of whole numbers below 2^53 are exact (`sum_exact`, `prod_exact`); counterexample with 1234567 ms |
| C118 | parseBenchmarkLog.m (Model/Matlab) on every beginning of the log of a run (Model/Benchmark); the file after an interrupted write is a beginning of the text | decomposition of a beginning into complete lines and a part of one (`prefix_flat`, `prefix_line`); words of a text that ends in a part of a word (`pieces_last`); number of words modulo 3 and lines modulo the number of runs (`parse_ragged`, `parse_lines`) |
| C119 | every beginning of the text of `saveGridValues`/`saveVelocities`, read by the model of parseGrid.m (Model/Matlab.lean) | case analysis on where the text ends (Props/CutGrid.lean): fewer numbers than cells make `reshape` fail, a cut in the header leaves too few sizes or no cells; refuted for the last cell (17 becomes 1) |
| C48 | all solvers | non-interference: replacing everything beyond the last cell (`outside J`) commutes with every step; queue invariants |
| C49 | GMM | connectivity invariants; termination by the growing bound; zero step never ends |
| C54 | GMM | exact arithmetic: the bound grows by a fixed amount; doubles: a corridor on which `tm_ += deltau_` is absorbed |
| C50 | UFMM | simulation by FMM with arbitrary pop order (weak version for adjacent starts); counter-leak invariant and a concrete run for the endless loop |
| C52,C53 | UFMM | untidy-order generalisation of the FMM snapshot invariant (`UInv`): the pop order is monotone up to one bucket; comparison with the exact solution |

Properties that turn out to be false of the code get a theorem refuting them (a concrete witness) and a `_partial` positive theorem.

## 4. Trusted base

* Lean 4.33.0 kernel; axioms `propext`, `Classical.choice`, `Quot.sound` (via Mathlib), no others (`vcheck` prints the verdict; `#print axioms` on any theorem).
* The reading of the C++ source: every definition in `Verif/Model` cites the lines it models.
* Contracts taken as hypotheses or parameters: Boost's `d_ary_heap` and `fibonacci_heap` and libstdc++'s heap algorithms are as modelled in Model/Heap and Model/Fib (written from knowledge of those libraries, which are not in the repository); `std::list`, `std::sort`, `std::stringstream`, `boost::program_options`,
  `lexical_cast`, number formatting/parsing as described in section 2.
* Not modelled: rounding in the theorems about `XR` (the theorems `*_doubles` and `C59_*` are about rounded arithmetic); wall-clock timing and printing; CImg decoding and display; failures of the file system
  (which files a benchmark writes is modelled in Model/Disk); memory allocation failure; printing of cells; the MATLAB scripts that only display (showFM.m, plot_volumetric_data.m, test.m; of
  analyzeBenchmark.m the plot itself). The example programs are modelled as histories of calls (Model/Program, Model/Examples).
* Ownership (Model/Own) covers the blocks the library creates with `new`; copies of solver objects (the implicit copy constructors share the owned pointers) are in Model/OwnCopy; memory inside
  standard and Boost containers, and `exit` are not modelled there.
* C48 covers `computeInternal()`; the model's `cleanGrid` also touches out-of-range cells (artefact of the total cell function), so it is not part of C48.
