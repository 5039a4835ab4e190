[
 {
  "property": "C01",
  "status": "proved",
  "theorems": [
   "FMV.C01_idx_roundtrip",
   "FMV.C01_coord_roundtrip",
   "FMV.C01_size"
  ],
  "note": ""
 },
 {
  "property": "C02",
  "status": "proved",
  "theorems": [
   "FMV.C02_getNeighbors_exact",
   "FMV.C02_refuted_above_2_31"
  ],
  "note": "the bound 2^31 is needed: above it the 32-bit wrap reports a false neighbour"
 },
 {
  "property": "C03",
  "status": "proved",
  "theorems": [
   "FMV.C03_adjacency_symmetric"
  ],
  "note": ""
 },
 {
  "property": "C04",
  "status": "partial",
  "theorems": [
   "FMV.C04_min_in_dim_partial",
   "FMV.C04_refuted_size_one"
  ],
  "note": "true for dimensions with at least two cells; refuted for dimensions of size one (stale scratch buffer)"
 },
 {
  "property": "C05",
  "status": "proved",
  "theorems": [
   "FMV.C05_resize",
   "FMV.C05_wraps_above_32_bits"
  ],
  "note": ""
 },
 {
  "property": "C06",
  "status": "proved",
  "theorems": [
   "FMV.C06_getMaxValue",
   "FMV.C06_getMaxSpeed",
   "FMV.C06_getAvgSpeed"
  ],
  "note": ""
 },
 {
  "property": "C07",
  "status": "proved",
  "theorems": [
   "FMV.C07_clean"
  ],
  "note": ""
 },
 {
  "property": "C08",
  "status": "proved",
  "theorems": [
   "FMV.C08_solveEikonal_upwind",
   "FMV.C08_refuted_size_one",
   "FMV.C08_refuted_history"
  ],
  "note": "all dimensions with at least two cells; refuted otherwise"
 },
 {
  "property": "C09",
  "status": "proved",
  "theorems": [
   "FMV.C09_solveEikonal_bounds",
   "FMV.C09_never_nan"
  ],
  "note": "all dimensions with at least two cells"
 },
 {
  "property": "C10",
  "status": "partial",
  "theorems": [
   "FMV.C10_FMM_partial",
   "FMV.C10_refuted_adjacent_starts",
   "FMV.C10_FSM",
   "FMV.C10_LSM",
   "FMV.C10_DDQM",
   "FMV.C10_FIM_partial",
   "FMV.C10_FIM_refuted_adjacent_starts",
   "FMV.C10_GMM",
   "FMV.C10_UFMM_partial",
   "FMV.C10_refuted_star"
  ],
  "note": "FMM/SFMM/FIM/UFMM without heuristics: true for pairwise non-adjacent starts, refuted for adjacent free starts (FMM, FIM); FMM*: refuted even for non-adjacent starts (C10_refuted_star); FSM, LSM, DDQM, GMM: always"
 },
 {
  "property": "C100",
  "status": "proved",
  "theorems": [
   "FMV.C100_frozen",
   "FMV.C100_goal",
   "FMV.C100_FM2",
   "FMV.C100_FM2_speeds"
  ],
  "note": "FM2 (not FM2*, whose heuristic is inconsistent, C62). Range hypotheses: DInput for the given map and, for FM2, a bound W on the slowest computed crossing."
 },
 {
  "property": "C101",
  "status": "proved",
  "theorems": [
   "FMV.C101_FSM_sweeps",
   "FMV.C101_LSM_sweeps",
   "FMV.C101_FSM_running",
   "FMV.C101_LSM_running",
   "FMV.C101_FSM_budget",
   "FMV.C101_LSM_budget"
  ],
  "note": "exact arithmetic; the bound does not use the geometry of the map, C76 gives 2^n for open maps"
 },
 {
  "property": "C102",
  "status": "proved",
  "theorems": [
   "FMV.C102_FSM_running",
   "FMV.C102_LSM_running",
   "FMV.C102_FSM_budget",
   "FMV.C102_LSM_budget"
  ],
  "note": "the number of sweeps after which nothing changes is finite in doubles by C23/C26; the explicit bound of C101 is for exact arithmetic"
 },
 {
  "property": "C103",
  "status": "proved",
  "theorems": [
   "FMV.C103_easier_never_slower",
   "FMV.C103_units",
   "FMV.C103_symmetry",
   "FMV.C103_starts_as_set",
   "FMV.C103_way_points",
   "FMV.C103_at_most_best",
   "FMV.C103_best_alone",
   "FMV.C103_offsets",
   "FMV.C103_reciprocal"
  ],
  "note": "The laws C64, C65, C67, C75, C81, C82, C83 for the results of finished runs in doubles of any of the solvers (Computed64), up to the factor (1+sigma)/(1-rho) of the runs compared."
 },
 {
  "property": "C104",
  "status": "partial",
  "theorems": [
   "FMV.C104_analysis",
   "FMV.C104_refuted_saved_grids",
   "FMV.C104_refuted_names"
  ],
  "note": "Proved for directories with nothing but logs listed after the two special entries. Refuted if grids are saved there (C104_refuted_saved_grids) or for log names that sort before the dot (C104_refuted_names)."
 },
 {
  "property": "C105",
  "status": "partial",
  "theorems": [
   "FMV.C105_refuted_FIM",
   "FMV.C105_refuted_GMM",
   "FMV.C105_second_pass",
   "FMV.C105_circular_FIM",
   "FMV.C105_circular_GMM"
  ],
  "note": "Refuted by the letter of the standard (C105_refuted_FIM, C105_refuted_GMM). Proved for the second pass of GMM, and on circular lists, as in libstdc++ and libc++, for both solvers (C105_circular_FIM, C105_circular_GMM)."
 },
 {
  "property": "C106",
  "status": "proved",
  "theorems": [
   "FMV.C106_lower_neighbour",
   "FMV.C106_descent_arrives",
   "FMV.C106_no_false_basins",
   "FMV.C106_next_cell",
   "FMV.C106_slowdown",
   "FMV.C106_far_changes",
   "FMV.C106_clear_line",
   "FMV.C106_at_most_walk",
   "FMV.C106_some_walk",
   "FMV.C106_time_bound"
  ],
  "note": "Extends the doubles versions of C69, C70, C71, C86 and C87 from FMM, FSM, LSM and DDQM to UFMM, FIM and GMM and to pairs of different solvers. The relative error of each solver is that of C99."
 },
 {
  "property": "C107",
  "status": "proved",
  "theorems": [
   "FMV.C107_goal_time",
   "FMV.C107_goal_reached",
   "FMV.C107_no_heuristic",
   "FMV.C107_distance",
   "FMV.C107_time"
  ],
  "note": "Any frozen cell, any axis route, explicit loss per move; library tables for DISTANCE and TIME. Beside C62, whose equality with FMM is refuted."
 },
 {
  "property": "C108",
  "status": "partial",
  "theorems": [
   "FMV.C108_walled_partial",
   "FMV.C108_refuted_corridor"
  ],
  "note": "Refuted as stated: on a corridor of M>=3 cells declared with d further dimensions of one cell, FMM, FMM*, SFMM and SFMM* (any queue, any heuristic, exact arithmetic) give cell k the time k*h/(v*sqrt(d+1)) instead of k*h/v, because getMinValueInDim leaves the value of the previous dimension in its buffer when a dimension has no neighbours (C108_refuted_corridor). C108_walled_partial: with two cells in each further dimension and the other row not faster, the times are the distances divided by the speed up to the comparison margin, for all solver classes of C28."
 },
 {
  "property": "C109",
  "status": "partial",
  "theorems": [
   "FMV.C109_grids_partial",
   "FMV.C109_solvers_partial",
   "FMV.C109_again",
   "FMV.C109_refuted_log"
  ],
  "note": "Grids: proved for every crash point when the grid of every run is saved (C109_grids_partial: finished runs complete, nothing else damaged but the file in progress; conditions of C45: no LSM, no DDQM) and when one grid per solver is saved (C109_solvers_partial); running again removes every trace (C109_again). Log: refuted (C109_refuted_log): before the end no time is on the disk, and an interruption while the log is written can leave neither the old nor the new log."
 },
 {
  "property": "C11",
  "status": "proved",
  "theorems": [
   "FMV.C11_FMM",
   "FMV.C11_FSM",
   "FMV.C11_LSM",
   "FMV.C11_DDQM",
   "FMV.C11_FIM",
   "FMV.C11_GMM",
   "FMV.C11_UFMM"
  ],
  "note": "all solvers"
 },
 {
  "property": "C110",
  "status": "partial",
  "theorems": [
   "FMV.C110_getTime",
   "FMV.C110_FM2_partial",
   "FMV.C110_refuted_FM2"
  ],
  "note": "Proved for all solvers but FM2 and FM2* (C110_getTime). FM2 and FM2*: getTime() is the second wave only and getTimeVelocities() the velocities map, with the bounds of C110_FM2_partial; as the time of the run it is refuted (C110_refuted_FM2): 0 ms however long the call took, which is what a benchmark logs."
 },
 {
  "property": "C111",
  "status": "partial",
  "theorems": [
   "FMV.C111_own_grid",
   "FMV.C111_two_solvers",
   "FMV.C111_refuted_queries",
   "FMV.C111_alone"
  ],
  "note": "Own grids: proved for every schedule and any kind of solver (C111_own_grid), with FMM and FSM side by side (C111_two_solvers). A shared grid: refuted even for threads that only ask (C111_refuted_queries): getMinValueInDim works on members of the grid, so that for every two cells with two neighbours a schedule writes outside n_ and another gives one thread the answer for the other's cell. C111_alone: without another thread a call is the one of the sequential model."
 },
 {
  "property": "C112",
  "status": "proved",
  "theorems": [
   "FMV.C112_digits",
   "FMV.C112_order",
   "FMV.C112_keeps",
   "FMV.C112_again",
   "FMV.C112_whole",
   "FMV.C112_free",
   "FMV.C112_occupied",
   "FMV.C112_map",
   "FMV.C112_refuted_obstacle",
   "FMV.C112_refuted_digits",
   "FMV.C112_notation",
   "FMV.C112_matlab_numbers",
   "FMV.C112_matlab_grid",
   "FMV.C112_matlab_path",
   "FMV.C112_matlab_log",
   "FMV.C112_ties",
   "FMV.C112_matlab_pathvel"
  ],
  "note": "For every finite double and every rounding mode of the arithmetic (printing itself rounds to nearest, ties to even, as glibc does). C112_again and C112_keeps: for 0 and numbers between 1e-300 and 1e300. C112_occupied: an occupied cell stays occupied if its speed is at most 2.22e-11 (any map with speed 0 for obstacles); in the gap up to the threshold 2.220446e-11 it becomes free (C112_refuted_obstacle). C112_refuted_digits: more than six digits are lost (1000000 and 1000001 give the same text). The sign of zero is not modelled."
 },
 {
  "property": "C113",
  "status": "proved",
  "theorems": [
   "FMV.C113_saved_map",
   "FMV.C113_six",
   "FMV.C113_exists"
  ],
  "note": "Error of at most 11 parts in a million apart from the relative errors of the two computations; C113_exists shows that maps with six digits stay computable after loading."
 },
 {
  "property": "C114",
  "status": "partial",
  "theorems": [
   "FMV.C114_cell",
   "FMV.C114_plain_cell",
   "FMV.C114_numbers_one_line",
   "FMV.C114_number",
   "FMV.C114_grid",
   "FMV.C114_coords",
   "FMV.C114_run_fmm",
   "FMV.C114_run_sweeps",
   "FMV.C114_sweeps",
   "FMV.C114_time",
   "FMV.C114_refuted_long",
   "FMV.C114_refuted_class",
   "FMV.C114_run_ddqm",
   "FMV.C114_run_ufmm",
   "FMV.C114_heading",
   "FMV.C114_family"
  ],
  "note": "Proved for cells, grids, coordinates, and the information of FMM, FMM*, SFMM, SFMM*, FSM, LSM up to the class. Refuted: FMM and SFMM print the same information, FIM and GMM (and FM2, FM2*, not in this model) only a warning (C114_refuted_class); times of 10^6 ms and more are rounded (C114_refuted_long)."
 },
 {
  "property": "C115",
  "status": "proved",
  "theorems": [
   "FMV.C115_saved_result",
   "FMV.C115_files_agree"
  ],
  "note": "Composition of C77, C99, C106, C112 and C20 on the model of doubles; the error of the run must be at most 1/2, and the map within the range of C59. MATLAB's textscan is modelled, not executed (C77)."
 },
 {
  "property": "C116",
  "status": "partial",
  "theorems": [
   "FMV.C116_matlab_map",
   "FMV.C116_round_trip_partial",
   "FMV.C116_refuted_slow",
   "FMV.C116_refuted_2d",
   "FMV.C116_refuted_flat"
  ],
  "note": "Refuted for slow cells: saveGridToFile.m writes two decimals, so free cells slower than 0.0049 become obstacles (C116_refuted_slow). Proved: what is loaded from any written array (C116_matlab_map), and that maps of speeds with at most two decimals come back unchanged (C116_round_trip_partial; not two dimensions, where C77_refuted_2d applies, and not a last size of 1, where C77_refuted_flat applies)."
 },
 {
  "property": "C117",
  "status": "partial",
  "theorems": [
   "FMV.C117_means_partial",
   "FMV.C117_refuted_long"
  ],
  "note": "For times below 10^6 ms the means are correctly rounded and the cell counts exact (C117_means_partial); with longer times the English property is false of the code (C117_refuted_long)."
 },
 {
  "property": "C118",
  "status": "partial",
  "theorems": [
   "FMV.C118_cut_log_partial",
   "FMV.C118_refuted_last"
  ],
  "note": "Wherever the log is cut: error, or right results for some of the first solvers (none, if it is cut in the header) except perhaps for the last time (C118_cut_log_partial). That this time may be wrong without an error is C118_refuted_last."
 },
 {
  "property": "C119",
  "status": "partial",
  "theorems": [
   "FMV.C119_cut_values_partial",
   "FMV.C119_cut_velocities_partial",
   "FMV.C119_cut_doubles_partial",
   "FMV.C119_refuted_last"
  ],
  "note": "all cuts; refuted for the last cell, whose number may be cut (C119_refuted_last); C119_cut_doubles_partial is the statement in doubles"
 },
 {
  "property": "C12",
  "status": "proved",
  "theorems": [
   "FMV.C12_frozen_final",
   "FMV.C12_freezes_popped",
   "FMV.C12_GMM",
   "FMV.C12_UFMM"
  ],
  "note": ""
 },
 {
  "property": "C13",
  "status": "proved",
  "theorems": [
   "FMV.C13_FMM_linear",
   "FMV.C13_FMM_terminates",
   "FMV.C13_doubles"
  ],
  "note": ""
 },
 {
  "property": "C14",
  "status": "proved",
  "theorems": [
   "FMV.C14_only_reachable",
   "FMV.C14_frozen_iff_reachable",
   "FMV.C14_no_goal_ends_empty"
  ],
  "note": ""
 },
 {
  "property": "C15",
  "status": "proved",
  "theorems": [
   "FMV.C15_frozen_before_rest",
   "FMV.C15_monotone_freezing"
  ],
  "note": "exact arithmetic, no heuristic, starts pairwise non-adjacent; FMM with the real binary heap through C57; false of SFMM as it is (C58)"
 },
 {
  "property": "C16",
  "status": "proved",
  "theorems": [
   "FMV.C16_FMM_final",
   "FMV.C16_FMM_frozen",
   "FMV.C57_FMM_binary_heap_accurate",
   "FMV.C16_relative"
  ],
  "note": "exact arithmetic, no heuristic, starts pairwise non-adjacent; with the real binary heap: C57_FMM_binary_heap_accurate; false of SFMM as it is (C58)"
 },
 {
  "property": "C17",
  "status": "proved",
  "theorems": [
   "FMV.C17_unique_solution"
  ],
  "note": ""
 },
 {
  "property": "C18",
  "status": "proved",
  "theorems": [
   "FMV.C18_FMM",
   "FMV.C18_FSM",
   "FMV.C18_LSM",
   "FMV.C18_DDQM",
   "FMV.C18_FIM",
   "FMV.C18_GMM",
   "FMV.C18_UFMM"
  ],
  "note": "all solvers"
 },
 {
  "property": "C19",
  "status": "proved",
  "theorems": [
   "FMV.C19_goal_stop"
  ],
  "note": ""
 },
 {
  "property": "C20",
  "status": "proved",
  "theorems": [
   "FMV.C20_FMM",
   "FMV.C20_FSM",
   "FMV.C20_LSM",
   "FMV.C20_DDQM",
   "FMV.C20_FIM",
   "FMV.C20_GMM",
   "FMV.C20_UFMM"
  ],
  "note": "all solvers"
 },
 {
  "property": "C21",
  "status": "proved",
  "theorems": [
   "FMV.C21_sweep_visits_each_once",
   "FMV.C21_loop_ends"
  ],
  "note": "every dimension count, size and direction vector"
 },
 {
  "property": "C22",
  "status": "proved",
  "theorems": [
   "FMV.C22_direction_cycle"
  ],
  "note": "all numbers of dimensions"
 },
 {
  "property": "C23",
  "status": "proved",
  "theorems": [
   "FMV.C23_FSM_at_most_maxSweeps",
   "FMV.C23_FSM_finite_arithmetic",
   "FMV.C23_FSM_exact",
   "FMV.C23_doubles"
  ],
  "note": "bounded by maxSweeps; finite without budget in every finite arithmetic with the margin laws and any local solver, and in exact arithmetic"
 },
 {
  "property": "C24",
  "status": "proved",
  "theorems": [
   "FMV.C24_FSM_fixpoint"
  ],
  "note": "any arithmetic (no laws); dimensions of size >= 2 (see C04/C08 for size 1)"
 },
 {
  "property": "C25",
  "status": "proved",
  "theorems": [
   "FMV.C25_FSM",
   "FMV.C25_LSM",
   "FMV.C25_visit",
   "FMV.C25_DDQM"
  ],
  "note": "FSM, LSM, DDQM; any arithmetic with the margin laws (C46), any local solver"
 },
 {
  "property": "C26",
  "status": "proved",
  "theorems": [
   "FMV.C26_LSM_fixpoint",
   "FMV.C26_LSM_exact",
   "FMV.C26_LSM_finite_arithmetic",
   "FMV.C26_LSM_at_most_maxSweeps",
   "FMV.C26_doubles"
  ],
  "note": "fixed point in exact arithmetic; termination also in finite arithmetic"
 },
 {
  "property": "C27",
  "status": "proved",
  "theorems": [
   "FMV.C27_DDQM_fixpoint",
   "FMV.C27_DDQM_exact",
   "FMV.C27_DDQM_finite_arithmetic",
   "FMV.C27_doubles"
  ],
  "note": "arbitrary initial threshold and step; fixed point in exact arithmetic, termination also in every finite arithmetic with the margin laws"
 },
 {
  "property": "C28",
  "status": "partial",
  "theorems": [
   "FMV.C28_solvers_agree_partial",
   "FMV.C28_FSM_accuracy",
   "FMV.C28_LSM_accuracy",
   "FMV.C28_DDQM_accuracy",
   "FMV.C28_SFMM_disagrees",
   "FMV.C28_FMM_real_heap",
   "FMV.C16_relative"
  ],
  "note": "exact arithmetic; FMM needs non-adjacent starting points (C10). Proved for FMM (with its real heap), FSM, LSM, DDQM, FIM; refuted for SFMM, whose queue gets out of order (C28_SFMM_disagrees)"
 },
 {
  "property": "C29",
  "status": "proved",
  "theorems": [
   "FMV.C29_FIM_accuracy",
   "FMV.C29_FIM_terminates",
   "FMV.C29_FIM_total",
   "FMV.C29_FIM_negative_threshold"
  ],
  "note": "exact arithmetic, pairwise non-adjacent initial points; the starts hypothesis is needed (C10_FIM_refuted_adjacent_starts); in doubles termination fails (C92_refuted_doubles)"
 },
 {
  "property": "C30",
  "status": "proved",
  "theorems": [
   "FMV.C30_almost_min",
   "FMV.C30_reference",
   "FMV.C30_window_needed"
  ],
  "note": "real-number keys; C30_window_needed shows the window hypothesis cannot be dropped"
 },
 {
  "property": "C31",
  "status": "proved",
  "theorems": [
   "FMV.C31_bookkeeping",
   "FMV.C31_shown_is_stable",
   "FMV.C31_fifo",
   "FMV.C31_loop_ends",
   "FMV.C31_top_of_empty_never_ends"
  ],
  "note": "any arithmetic; each element queued at most once (std::list::remove would remove all copies)"
 },
 {
  "property": "C32",
  "status": "proved",
  "theorems": [
   "FMV.C32_velocities",
   "FMV.C32_velocities_are_times"
  ],
  "note": "Exact arithmetic; every heap order; FM2 and FM2*, with or without saturation. Velocities are arrival times (exact up to 2eps per cell) divided by the largest one."
 },
 {
  "property": "C33",
  "status": "partial",
  "theorems": [
   "FMV.C33_formula_partial",
   "FMV.C33_refuted",
   "FMV.C33_refuted_corridor"
  ],
  "note": "The formula is proved; the English property is refuted: the threshold is compared in normalised units (C33_refuted, concrete corridor in C33_refuted_corridor)."
 },
 {
  "property": "C34",
  "status": "partial",
  "theorems": [
   "FMV.C34_gate",
   "FMV.C34_second_wave_partial",
   "FMV.C34_returns",
   "FMV.C34_arrival_time_partial",
   "FMV.C34_refuted_single_obstacle",
   "FMV.C34_refuted_no_goal"
  ],
  "note": "Gate, second wave, termination and accuracy at the start proved. Two cases of the English property are refuted: a single listed obstacle makes the inner solver exit; plain FM2 without a goal is not rejected and starts its second wave outside the grid."
 },
 {
  "property": "C35",
  "status": "proved",
  "theorems": [
   "FMV.C35_descent",
   "FMV.C35_path",
   "FMV.C35_reads_neighbours",
   "FMV.C35_refuted_flat",
   "FMV.C35_refuted_border"
  ],
  "note": "Exact arithmetic; undefined behaviour (flat cells, int(NaN)) is the outcome none, so the theorem covers every call that returns normally. C35_descent also shows that the velocity stored for a point is that of the previous cell. Refutations: descent from a cell with equal neighbours has no defined result; in a border cell the 'neighbour' read belongs to the next row."
 },
 {
  "property": "C36",
  "status": "proved",
  "theorems": [
   "FMV.C36_roundtrip",
   "FMV.C36_format",
   "FMV.C36_obstacles",
   "FMV.C36_save_again",
   "FMV.C36_missing",
   "FMV.C36_wrong_dimension",
   "FMV.C36_truncated",
   "FMV.C36_values_format",
   "FMV.C36_path_format",
   "FMV.C36_pathVelocity_format",
   "FMV.C36_refuted_inf",
   "FMV.C36_refuted_negative_size",
   "FMV.C36_refuted_large_size"
  ],
  "note": "For every grid and every formatter whose output is number text that converts back; velocities as printed, obstacle list exact, file format line by line, truncated and missing files. C36_refuted_inf: infinite velocities, written as 'inf', are not read back: all cells from the first one on become 0 (outside the property's quantifier)."
 },
 {
  "property": "C37",
  "status": "proved",
  "theorems": [
   "FMV.C37_pixel_coordinates",
   "FMV.C37_bijection",
   "FMV.C37_load",
   "FMV.C37_plot",
   "FMV.C37_plot_exact",
   "FMV.C37_plot_times",
   "FMV.C37_plot_states"
  ],
  "note": "Every image size and content with fewer than 2^32 pixels; the decoding of image files by CImg is not modelled."
 },
 {
  "property": "C38",
  "status": "proved",
  "theorems": [
   "FMV.C38_setup_accepts_valid",
   "FMV.C38_exit_reason",
   "FMV.C38_setup_effect",
   "FMV.C38_first_compute_checks"
  ],
  "note": "Any arithmetic. The 'environment not set' test (a null pointer) is not modelled."
 },
 {
  "property": "C39",
  "status": "partial",
  "theorems": [
   "FMV.C39_reset_reusable_partial",
   "FMV.C39_reset_DDQM_partial",
   "FMV.C39_reset_DDQM_agrees",
   "FMV.C39_refuted_DDQM_threshold",
   "FMV.C39_refuted_stale_setup"
  ],
  "note": "Proved for all classes but DDQM as equality of the sets of possible results, in any careful history of any number of solvers; DDQM keeps another threshold after reset (explicit run characterisation, and equal times up to 2*N*COMP_MARGIN in exact arithmetic without goal). The unrestricted property is false: C39_refuted_stale_setup, C39_refuted_DDQM_threshold."
 },
 {
  "property": "C40",
  "status": "partial",
  "theorems": [
   "FMV.C40_shared_grid_partial",
   "FMV.C40_refuted_LSM_reset"
  ],
  "note": "Proved for careful histories without LSM::reset (with it: for LSM and DDQM); false otherwise, C40_refuted_LSM_reset."
 },
 {
  "property": "C41",
  "status": "proved",
  "theorems": [
   "FMV.C41_table_index_in_range",
   "FMV.C41_heuristic_is_euclidean",
   "FMV.C41_zero_iff_goal",
   "FMV.C41_refuted_large",
   "FMV.C41_heuristic_in_run",
   "FMV.C41_heuristic_value"
  ],
  "note": "Table index always in range and the heuristic equals the Euclidean cell distance, zero exactly at the goal, for every grid with coordinates below 65536; C41_refuted_large shows the 32-bit overflow beyond. Assumes sqrt/arith laws of the exact model."
 },
 {
  "property": "C42",
  "status": "partial",
  "theorems": [
   "FMV.C42_find",
   "FMV.C42_find_absent",
   "FMV.C42_scalar",
   "FMV.C42_scalar_last",
   "FMV.C42_scalar_absent",
   "FMV.C42_list_partial",
   "FMV.C42_args_unique",
   "FMV.C42_refuted_list_absent",
   "FMV.C42_refuted_list_last"
  ],
  "note": "Scalar forms fully proved. List forms proved when the flag is followed by something; refuted when it is absent (argv[0]... is collected) and when it is last (null pointer read). atoi/atof are the parameter conv."
 },
 {
  "property": "C43",
  "status": "partial",
  "theorems": [
   "FMV.C43_split_iff",
   "FMV.C43_split_partial",
   "FMV.C43_coordinates",
   "FMV.C43_refuted_long",
   "FMV.C43_refuted_short",
   "FMV.C43_refuted_tiny",
   "FMV.C43_refuted_hang"
  ],
  "note": "Exact characterisation of the parameter texts that are split correctly (C43_split_iff); the other cases are refuted: item lost, last item duplicated, endless loop. The coordinates (splitAndCast) are proved."
 },
 {
  "property": "C44",
  "status": "partial",
  "theorems": [
   "FMV.C44_default",
   "FMV.C44_params_partial",
   "FMV.C44_order",
   "FMV.C44_read",
   "FMV.C44_read_known",
   "FMV.C44_refuted_ddqm",
   "FMV.C44_refuted_digit",
   "FMV.C44_refuted_uninit",
   "FMV.C44_read_wanted",
   "FMV.C44_read_only",
   "FMV.C44_read_all",
   "FMV.C44_bad_number",
   "FMV.C44_refuted_heuristic",
   "FMV.C44_bad_stops"
  ],
  "note": "Proved for lines without parameters and for parameter texts that split handles (except ddqm); refuted for ddqm with a name (an LSM is created), one-digit parameters (ignored) and short names (uninitialised pointer). boost::program_options and lexical_cast are contracts."
 },
 {
  "property": "C45",
  "status": "proved",
  "theorems": [
   "FMV.C45_calls",
   "FMV.C45_log",
   "FMV.C45_names",
   "FMV.C45_results_partial",
   "FMV.C45_refuted_LSM",
   "FMV.C45_last_results_partial",
   "FMV.C45_no_grids"
  ],
  "note": "C45_calls and C45_log are the property (any number of solvers and runs below 2^32). C45_results_partial adds that saved grids equal those of fresh solvers (no LSM/DDQM, heuristics only with a goal); C45_refuted_LSM shows that a solver after an LSM gets a frozen grid."
 },
 {
  "property": "C46",
  "status": "proved",
  "theorems": [
   "FMV.C46_strict_order",
   "FMV.C46_margin",
   "FMV.C46_doubles"
  ],
  "note": ""
 },
 {
  "property": "C47",
  "status": "proved",
  "theorems": [
   "FMV.C47_no_infinite_run",
   "FMV.C47_terminates",
   "FMV.C47_SFMM_exact",
   "FMV.C47_doubles",
   "FMV.C58_no_infinite_run",
   "FMV.C12_frozen_final"
  ],
  "note": "for a queue that releases minima (accuracy) and for any order (termination, frozen cells final); the real queue does not release minima, see C58"
 },
 {
  "property": "C48",
  "status": "proved",
  "theorems": [
   "FMV.C48_FMM",
   "FMV.C48_FSM",
   "FMV.C48_LSM",
   "FMV.C48_DDQM",
   "FMV.C48_FIM",
   "FMV.C48_GMM",
   "FMV.C48_UFMM",
   "FMV.C48_refuted_thin",
   "FMV.C48_refuted_gradient",
   "FMV.C41_table_index_in_range"
  ],
  "note": "Memory safety as non-interference: for every run of every solver the result is the same whatever lies beyond the last cell, nothing there changes, and queues only hold cells of the grid; for UFMM also the buckets. computeInternal only. C48_refuted_thin: with a dimension of size 1 the first solveEikonal of a new grid reads a cell whose index is uninitialised memory. C48_refuted_gradient: GradientDescent::apply writes one element past its local array in every call."
 },
 {
  "property": "C49",
  "status": "proved",
  "theorems": [
   "FMV.C49_GMM_only_reachable",
   "FMV.C49_GMM_frozen_iff_reachable",
   "FMV.C49_GMM_no_goal_ends_empty",
   "FMV.C49_GMM_terminates",
   "FMV.C49_GMM_total",
   "FMV.C49_GMM_zero_step_never_ends"
  ],
  "note": "termination in exact arithmetic for every positive time step; a zero time step never ends"
 },
 {
  "property": "C50",
  "status": "partial",
  "theorems": [
   "FMV.C50_UFMM_linear",
   "FMV.C50_UFMM_only_reachable",
   "FMV.C50_UFMM_frozen_iff_reachable_partial",
   "FMV.C50_UFMM_terminates_partial",
   "FMV.C50_refuted_adjacent_starts"
  ],
  "note": "soundness and the linear step bound for all inputs; completeness and termination for pairwise non-adjacent initial points; with adjacent ones the queue's counter can leak and top() then loops for ever (C50_refuted_adjacent_starts)"
 },
 {
  "property": "C51",
  "status": "partial",
  "theorems": [
   "FMV.C51_refuted_computePath",
   "FMV.C51_only_goal_is_zero_partial"
  ],
  "note": "Refuted for the code: computePath passes init_points_[0] by reference and gradient descent overwrites it, so after the call the initial point is the goal and setup() refuses the problem."
 },
 {
  "property": "C52",
  "status": "proved",
  "theorems": [
   "FMV.C52_UFMM_order"
  ],
  "note": "exact arithmetic; the window condition is WindowFits (time to cross any free cell + bucket + margin < window), see C30_window_needed for why one is needed"
 },
 {
  "property": "C53",
  "status": "proved",
  "theorems": [
   "FMV.C53_UFMM_frozen",
   "FMV.C53_UFMM_final"
  ],
  "note": "exact arithmetic; window condition as in C52"
 },
 {
  "property": "C54",
  "status": "partial",
  "theorems": [
   "FMV.C54_GMM_stops_partial",
   "FMV.C54_refuted_doubles",
   "FMV.C49_GMM_zero_step_never_ends",
   "FMV.C97_GMM_ends"
  ],
  "note": "Proved in exact arithmetic for every positive step. Refuted for a step of zero (C49_GMM_zero_step_never_ends) and for 64-bit doubles with the default step (C54_refuted_doubles): tm_ += deltau_ can be absorbed by rounding. In doubles with a step that is not absorbed (StepFits) GMM does end: C97_GMM_ends."
 },
 {
  "property": "C55",
  "status": "proved",
  "theorems": [
   "FMV.C55_FM2_reset_reusable"
  ],
  "note": "For every history of calls on one object and one grid. Note that compute() overwrites the speeds of the grid, so the same problem solved again after reset() is a problem on the new speeds (the comparison is with a new object on that grid)."
 },
 {
  "property": "C56",
  "status": "partial",
  "theorems": [
   "FMV.C56_plotMapPath",
   "FMV.C56_plotOccupancyPath",
   "FMV.C56_plotArrivalTimesPath",
   "FMV.C56_plotMapPaths_two_partial",
   "FMV.C56_inside",
   "FMV.C56_refuted_three_paths",
   "FMV.C56_refuted_cell"
  ],
  "note": "Proved for one path and for two paths inside the map. Refuted: a third path in plotMapPaths writes beyond the image (a todo in the source); points are drawn by dropping decimals although the path's cells are found by rounding, so a point can be drawn next to its cell."
 },
 {
  "property": "C57",
  "status": "proved",
  "theorems": [
   "FMV.C57_binary_heap_right",
   "FMV.C57_binary_heap_handles",
   "FMV.C57_FMM_refines",
   "FMV.C57_FMM_accurate",
   "FMV.C57_FMM_binary_heap_accurate",
   "FMV.C57_FMMstar_refines",
   "FMV.C57_handles_safe",
   "FMV.C57_stale_handles",
   "FMV.C57_fib_heap_right",
   "FMV.C57_fib_heap_handles",
   "FMV.C57_FMM_fib_heap_accurate",
   "FMV.C57_FMM_refines_doubles",
   "FMV.C57_FMM_accurate_doubles",
   "FMV.C57_FMM_heaps_accurate_doubles",
   "FMV.C57_fib_handles_safe",
   "FMV.C57_fib_handles_safe_star",
   "FMV.C57_stale_handles_fib",
   "FMV.C57_refuted_clear",
   "FMV.C57_refuted_clear_fib"
  ],
  "note": "FMDaryHeap over the array algorithms of boost::heap::d_ary_heap, FMFibHeap over the node operations of boost::heap::fibonacci_heap; runs in exact arithmetic and in rounded doubles (under the conditions of C59), any weak order for the heap; C57_stale_handles shows that the handle table is too small if a larger grid is set without reset"
 },
 {
  "property": "C58",
  "status": "partial",
  "theorems": [
   "FMV.C58_SFMM_refines",
   "FMV.C58_no_infinite_run",
   "FMV.C58_SFMM_sound_partial",
   "FMV.C58_SFMM_inaccurate",
   "FMV.C58_SFMM_out_of_order",
   "FMV.C58_queue_in_order",
   "FMV.C58_SFMM_accurate_partial"
  ],
  "note": "termination, reachability and no underestimation proved for the real queue; order and accuracy refuted by a 3x3 map, and proved for every run in which no stored cell is improved (C58_queue_in_order, C58_SFMM_accurate_partial)"
 },
 {
  "property": "C59",
  "status": "proved",
  "theorems": [
   "FMV.C59_FMM",
   "FMV.C59_FMM_cells",
   "FMV.C59_FSM",
   "FMV.C59_LSM",
   "FMV.C59_DDQM",
   "FMV.C59_accuracy",
   "FMV.C59_solvers_agree",
   "FMV.C57_FMM_heaps_accurate_doubles"
  ],
  "note": "FMM (ordered queue, and its real heaps by C57_FMM_heaps_accurate_doubles; no heuristic, starts not adjacent), FSM and LSM within their sweep budget, DDQM with any thresholds; exact solution from C17; non-vacuity on a 3x3 grid with rounding to nearest (relative error below 2e-8)."
 },
 {
  "property": "C60",
  "status": "partial",
  "theorems": [
   "FMV.C60_select_partial",
   "FMV.C60_inside",
   "FMV.C60_first_column",
   "FMV.C60_drag"
  ],
  "note": "Proved for clicks without motion of the pointer while the button is down and outside the first column; refuted for the first column (clicks there are ignored for ever) and for drags (one click gives both points)."
 },
 {
  "property": "C61",
  "status": "partial",
  "theorems": [
   "FMV.C61_GMM_partial",
   "FMV.C61_GMM_far_off",
   "FMV.C61_GMM_not_exact",
   "FMV.C61_small_step_partial",
   "FMV.C97_GMM_accuracy"
  ],
  "note": "Proved: GMM ends, freezes exactly the reachable cells and is never below the exact time; for every step d with sqrt(n)*(d + margin) at most every crossing time h/v, the times exceed the exact ones by at most the factor 1 + 2n(d + sqrt(n)(d+margin) + 2 margin)/c (C61_small_step_partial), so the error vanishes with the step. Refuted: any such bound for the default step 1/vmax (which ignores the cell size): wrong by a factor of 3 on a map with cells of size 1/10, and by 0.2 percent on a 3x2 map with unit cells. For doubles with a small step: C97_GMM_accuracy."
 },
 {
  "property": "C62",
  "status": "partial",
  "theorems": [
   "FMV.C62_goal_time_partial",
   "FMV.C62_distance_partial",
   "FMV.C62_time_partial",
   "FMV.C62_star_not_exact",
   "FMV.C62_distance_far_off",
   "FMV.C62_time_not_route"
  ],
  "note": "proved: with one start and a heuristic that never drops by more than the time of a move, every FROZEN cell has at least the exact time and at most the time of any axis route (plus the comparison margin per move); so for DISTANCE with crossing times of at least 1 and for TIME with uniform speed and cells at least 1 wide. Refuted beyond that: on the empty 3 x 3 map FMM* leaves 3.328 instead of 3.253 at the goal; without the hypothesis DISTANCE is off by any factor and TIME by 25 instead of 13"
 },
 {
  "property": "C63",
  "status": "partial",
  "theorems": [
   "FMV.C63_current_goal_partial",
   "FMV.C63_no_goal_disables",
   "FMV.C63_refuted_no_goal",
   "FMV.C63_refuted_other_grid",
   "FMV.C63_stale_goal"
  ],
  "note": "Proved for careful histories on one grid. False otherwise: a run without goal switches the heuristics off for ever (C63_refuted_no_goal), a second grid of another shape is used with the distance table of the first (C63_refuted_other_grid), a goal changed without reset() keeps the old distances (C63_stale_goal)."
 },
 {
  "property": "C64",
  "status": "proved",
  "theorems": [
   "FMV.C64_easier_never_slower"
  ],
  "note": "FMM (no heuristics, starts not adjacent), FSM, LSM, DDQM, FIM in exact arithmetic"
 },
 {
  "property": "C65",
  "status": "proved",
  "theorems": [
   "FMV.C65_units"
  ],
  "note": "exact arithmetic; the set of obstacles must be the same (isOccupied compares speeds with an absolute margin)"
 },
 {
  "property": "C66",
  "status": "partial",
  "theorems": [
   "FMV.C66_FMM_partial",
   "FMV.C66_lower_partial",
   "FMV.C66_GMM_partial",
   "FMV.C66_UFMM_partial",
   "FMV.C66_open_map",
   "FMV.C66_refinement",
   "FMV.C66_open_map_doubles",
   "FMV.C66_refuted_two_starts",
   "FMV.C66_several_lower_partial",
   "FMV.C66_several_upper_partial"
  ],
  "note": "Proved for one start: lower bound for every solver on every map, upper bound and convergence under refinement on open maps (also with 64-bit rounding). For several starts: the upper bound from every start on open maps (C66_several_upper_partial), and the lower bound weakened by the factor sqrt(D) (C66_several_lower_partial), which cannot be dropped: two diagonal starts reach their common neighbour in less than 4/5 of the time of the straight line (C66_refuted_two_starts)."
 },
 {
  "property": "C67",
  "status": "proved",
  "theorems": [
   "FMV.C67_symmetry"
  ],
  "note": "exact arithmetic, all symmetries of the axes in any number of dimensions"
 },
 {
  "property": "C68",
  "status": "partial",
  "theorems": [
   "FMV.C68_described_partial",
   "FMV.C68_image_partial",
   "FMV.C68_end_to_end_partial",
   "FMV.C68_usage",
   "FMV.C68_rejects_text",
   "FMV.C68_refuted_exit_code",
   "FMV.C68_refuted_dimensions",
   "FMV.C68_refuted_range",
   "FMV.C68_refuted_few",
   "FMV.C68_refuted_leaf",
   "FMV.C68_no_start",
   "FMV.C68_bad_number",
   "FMV.C68_bad_image",
   "FMV.C68_bad_text_map",
   "FMV.C68_no_text_map",
   "FMV.C68_bad_line",
   "FMV.C68_refuted_line",
   "FMV.C68_bad_value"
  ],
  "note": "Proved for configurations that describe a problem (empty map or image), and end to end (configuration to saved times) for FMM and FIM on empty maps in exact arithmetic. The full property is false of the code: coordinates outside the map select another cell (C68_refuted_range), missing coordinates repeat the last one (C68_refuted_few), an unreadable file or an unsupported number of dimensions ends with exit code 0 (C68_refuted_exit_code, C68_refuted_dimensions), and the leaf size stored in a text map is overwritten (C68_refuted_leaf)."
 },
 {
  "property": "C69",
  "status": "proved",
  "theorems": [
   "FMV.C69_lower_neighbour",
   "FMV.C69_descent_arrives",
   "FMV.C69_next_cell",
   "FMV.C69_final_lower_neighbour",
   "FMV.C69_lower_neighbour_doubles",
   "FMV.C69_descent_arrives_doubles",
   "FMV.C69_next_cell_doubles"
  ],
  "note": "FMM requires starting points that are not adjacent (C10). In doubles under the size conditions of C59. FIM only for final results, up to the accuracy of C28."
 },
 {
  "property": "C70",
  "status": "proved",
  "theorems": [
   "FMV.C70_slowdown",
   "FMV.C70_small_errors",
   "FMV.C70_slowdown_doubles"
  ],
  "note": "Up to the comparison margin 2*COMP_MARGIN per cell; in doubles with the relative error of C59."
 },
 {
  "property": "C71",
  "status": "proved",
  "theorems": [
   "FMV.C71_far_changes",
   "FMV.C71_far_changes_doubles"
  ],
  "note": "The maps must agree up to theta plus the comparison margin; in doubles up to the relative error of C59."
 },
 {
  "property": "C72",
  "status": "proved",
  "theorems": [
   "FMV.C72_initial_threshold",
   "FMV.C72_queue_choice",
   "FMV.C72_threshold_rule",
   "FMV.C72_threshold_grows"
  ],
  "note": "the rule and the start in exact arithmetic, the choice of the queue in any arithmetic"
 },
 {
  "property": "C73",
  "status": "partial",
  "theorems": [
   "FMV.C73_no_bad_access",
   "FMV.C73_no_leak",
   "FMV.C73_refuted_clear",
   "FMV.C73_refuted_benchmark_clear",
   "FMV.C73_refuted_no_environment",
   "FMV.C73_refuted_fm2star_points"
  ],
  "note": "Proved for all careful histories (no bad access, no leak). The unconditional property is false for the code: refuted for the public clear() of solvers that own memory, for Benchmark::clear() of a configured benchmark, and for running a solver without environment."
 },
 {
  "property": "C74",
  "status": "partial",
  "theorems": [
   "FMV.C74_GMM",
   "FMV.C74_UFMM",
   "FMV.C74_refuted_FSM",
   "FMV.C74_refuted_LSM",
   "FMV.C74_refuted_DDQM",
   "FMV.C74_refuted_FIM",
   "FMV.C74_FSM_goal_finite_partial",
   "FMV.C74_LSM_goal_finite_partial",
   "FMV.C74_FSM_not_stopped_partial",
   "FMV.C74_LSM_not_stopped_partial"
  ],
  "note": "true for GMM and UFMM; refuted for FSM, LSM, DDQM and FIM, with what FSM and LSM still guarantee"
 },
 {
  "property": "C75",
  "status": "proved",
  "theorems": [
   "FMV.C75_offsets",
   "FMV.C75_reciprocal",
   "FMV.C75_refuted_reciprocal"
  ],
  "note": "Offsets and reciprocity on open maps in the reals (up to the comparison margin per cell); the general reciprocity is refuted by C75_refuted_reciprocal."
 },
 {
  "property": "C76",
  "status": "proved",
  "theorems": [
   "FMV.C76_FSM",
   "FMV.C76_LSM",
   "FMV.C76_refuted_obstacles"
  ],
  "note": "In the reals. With obstacles the claim is refuted by C76_refuted_obstacles."
 },
 {
  "property": "C77",
  "status": "partial",
  "theorems": [
   "FMV.C77_path",
   "FMV.C77_pathvel_partial",
   "FMV.C77_refuted_pathvel",
   "FMV.C77_grid",
   "FMV.C77_velocities",
   "FMV.C77_save",
   "FMV.C77_roundtrip",
   "FMV.C77_refuted_2d",
   "FMV.C77_refuted_flat",
   "FMV.C77_idx2coord",
   "FMV.C77_log",
   "FMV.C77_refuted_names",
   "FMV.C77_path_cut",
   "FMV.C112_matlab_grid",
   "FMV.C112_matlab_path"
  ],
  "note": "Partial because the English property is false of parsepathvel.m, of two-dimensional and flat maps taken through parseGrid.m and saveGridToFile.m, and of names with spaces (C77_refuted_*). Everything else is proved."
 },
 {
  "property": "C78",
  "status": "partial",
  "theorems": [
   "FMV.C78_run_files",
   "FMV.C78_solver_files_partial",
   "FMV.C78_refuted",
   "FMV.C78_log"
  ],
  "note": "The result files for savegrid 2 and the log file are proved in full; for savegrid 1 under the condition that the names of the solvers differ in more than their extension. Without it the property is false for the code (C78_refuted): saveGrid replaces the extension of the solver's name, so FIM_0.01 and FIM_0.02 share a file. Conditions on the solvers as in C45 (no LSM, no DDQM, heuristics only with a goal)."
 },
 {
  "property": "C79",
  "status": "partial",
  "theorems": [
   "FMV.C79_open_map_partial",
   "FMV.C79_exact_times_partial",
   "FMV.C79_refuted_loop",
   "FMV.C79_refuted_narrow",
   "FMV.C79_refuted_FMM"
  ],
  "note": "False for the code in general: C79_refuted_loop gives a condition under which the loop never ends, C79_refuted_FMM a run of FMM that meets it, C79_refuted_narrow shows undefined behaviour (NaN to int) in every passage one cell wide. Proved on open maps: for the grids of all five solvers and steps below 1 under an explicit condition on the rounding margin, and for the exact times for every step up to the default 1. Missing: positive conditions on maps with obstacles, the default step on rounded times."
 },
 {
  "property": "C80",
  "status": "proved",
  "theorems": [
   "FMV.C80_GMM_step_controls_error"
  ],
  "note": "over the reals; the condition on the tolerance keeps the comparison margin in view"
 },
 {
  "property": "C81",
  "status": "proved",
  "theorems": [
   "FMV.C81_starts_as_set",
   "FMV.C81_FSM_any_arithmetic",
   "FMV.C81_LSM_any_arithmetic"
  ],
  "note": "FMM, FIM: starting points not adjacent (FinalGrid)"
 },
 {
  "property": "C82",
  "status": "proved",
  "theorems": [
   "FMV.C82_way_points"
  ],
  "note": "FMM, FIM: starting points not adjacent (FinalGrid)"
 },
 {
  "property": "C83",
  "status": "proved",
  "theorems": [
   "FMV.C83_at_most_best",
   "FMV.C83_best_alone",
   "FMV.C66_refuted_two_starts"
  ],
  "note": "FMM, FIM: starting points not adjacent (FinalGrid)"
 },
 {
  "property": "C84",
  "status": "proved",
  "theorems": [
   "FMV.C84_black_white",
   "FMV.C84_grey"
  ],
  "note": "The decoding of image files by CImg is not modelled: a picture is a function from pixels to brightness."
 },
 {
  "property": "C85",
  "status": "partial",
  "theorems": [
   "FMV.C85_plain_copies_partial",
   "FMV.C85_refuted"
  ],
  "note": "Proved for FMM, FMM*, SFMM, SFMM*, GMM, FIM, FSM, LSM, DDQM; refuted for UFMM, FM2, FM2* (C85_refuted): the copy shares the owned pointer, and destroying both objects is undefined behaviour in every program. Only ownership of memory: that a copied FMM* or SFMM* reads its distance table outside its storage is C88_refuted_copy."
 },
 {
  "property": "C86",
  "status": "proved",
  "theorems": [
   "FMV.C86_clear_line",
   "FMV.C86_in_sight",
   "FMV.C86_clear_line_doubles"
  ],
  "note": "Upper bound along clear polygonal lines for every map (exact arithmetic and 64-bit rounding), two-sided bound for cells in sight of a single start."
 },
 {
  "property": "C87",
  "status": "proved",
  "theorems": [
   "FMV.C87_at_most_walk",
   "FMV.C87_some_walk",
   "FMV.C87_doubles"
  ],
  "note": ""
 },
 {
  "property": "C88",
  "status": "partial",
  "theorems": [
   "FMV.C88_inside_storage_partial",
   "FMV.C88_refuted_larger_grid",
   "FMV.C88_refuted_copy",
   "FMV.C88_refuted_standard"
  ],
  "note": "Proved for histories without copies in which no run uses a grid larger than the one the table was filled for; refuted otherwise: larger grid (C88_refuted_larger_grid), copies (C88_refuted_copy), and, judged by vector::size(), in every history (C88_refuted_standard)."
 },
 {
  "property": "C89",
  "status": "proved",
  "theorems": [
   "FMV.C89_speed_follows_clearance",
   "FMV.C89_two_cells"
  ],
  "note": "Exact arithmetic; non-saturated and saturated speeds; non-vacuity in the corridor of C33."
 },
 {
  "property": "C90",
  "status": "partial",
  "theorems": [
   "FMV.C90_same_obstacles_partial",
   "FMV.C90_reaches_partial",
   "FMV.C90_uniform_partial",
   "FMV.C90_refuted_contrast"
  ],
  "note": "Proved under a condition that bounds the ratio of the largest to the smallest free speed times the largest clearance (C90_reaches_partial), in particular for every map with one free speed in two or three dimensions, whatever its size (C90_uniform_partial). Refuted in general: with speeds 1 and 23e-12 a connected start ends with an infinite time (C90_refuted_contrast)."
 },
 {
  "property": "C91",
  "status": "proved",
  "theorems": [
   "FMV.C91_speeds",
   "FMV.C91_accuracy",
   "FMV.C91_reaches",
   "FMV.C91_returns"
  ],
  "note": "The condition on sizes is that of C59 (DInput: 640 n^4 2^-51 A^2 <= cm^2 with A = 2 cM N). The accuracy of the second wave's times is C59 applied to its grid and is not restated here."
 },
 {
  "property": "C92",
  "status": "partial",
  "theorems": [
   "FMV.C92_refuted_doubles",
   "FMV.C92_FIM_stops_partial"
  ],
  "note": "Refuted for doubles (finding): C92_refuted_doubles gives an obstacle-free 2x2 map with speeds in [1/1026,1] on which FIM with the default threshold 0 (or any threshold <= 1e-10) never leaves its loop, because solveEikonal ignores neighbours that are not earlier than the present time of the cell and FIM stores the result unconditionally. Proved for exact arithmetic."
 },
 {
  "property": "C93",
  "status": "proved",
  "theorems": [
   "FMV.C93_FMM",
   "FMV.C93_UFMM",
   "FMV.C93_GMM",
   "FMV.C93_FSM",
   "FMV.C93_LSM",
   "FMV.C93_DDQM",
   "FMV.C93_FIM"
  ],
  "note": "In doubles, every rounding mode. All solvers in every intermediate state; FIM for n iterations with 2cM(2n+cells) <= A, A being any bound satisfying the scale conditions."
 },
 {
  "property": "C94",
  "status": "partial",
  "theorems": [
   "FMV.C94_test_fm",
   "FMV.C94_test_fm2",
   "FMV.C94_test_fm_benchmark",
   "FMV.C94_full_example",
   "FMV.C94_refuted_3d"
  ],
  "note": "Holds for four of the five programs; C94_refuted_3d: test_fmm3d ends with all its solvers still allocated. Not in the model: plots, files, console input, and the cast of FM2 objects to a class they do not have in test_fm2."
 },
 {
  "property": "C95",
  "status": "proved",
  "theorems": [
   "FMV.C95_order_partial",
   "FMV.C95_accuracy_partial",
   "FMV.C95_order",
   "FMV.C95_accuracy"
  ],
  "note": "Hypotheses: ranges that keep doubles from overflow (DInput), a queue that suits the map (QueueFits), no undefined conversion in the run (initDefined, DStep). The _partial versions cover, in addition, runs with undefined conversions on platforms where those of a number in (-1,0) give 0."
 },
 {
  "property": "C96",
  "status": "proved",
  "theorems": [
   "FMV.C96_FIM_accuracy",
   "FMV.C96_FIM_starts"
  ],
  "note": "stated for runs that stop: C92 shows that some never do; the bound on times grows with the number of iterations"
 },
 {
  "property": "C97",
  "status": "proved",
  "theorems": [
   "FMV.C97_GMM_ends",
   "FMV.C97_GMM_accuracy"
  ],
  "note": "GMM in doubles with a step that fits ends for every goal (C97_GMM_ends) and, without a goal, is accurate up to stepErr (C97_GMM_accuracy). The default step does not satisfy the condition in general and for it the claim is false (C61)."
 },
 {
  "property": "C98",
  "status": "partial",
  "theorems": [
   "FMV.C98_exact_partial",
   "FMV.C98_refuted_doubles"
  ],
  "note": "Proved in exact arithmetic; in doubles the property is false of the code (C98_refuted_doubles: any bucket is possible for a cell)."
 },
 {
  "property": "C99",
  "status": "proved",
  "theorems": [
   "FMV.C99_accuracy",
   "FMV.C99_solvers_agree"
  ],
  "note": "Conditions: DInput (ranges), starting points not adjacent for FMM, UFMM and FIM; sweep budget not exhausted for FSM/LSM; suitable queue (UFMM), step (GMM), number of FIM steps covered by the range bound; UFMM runs without undefined conversions."
 }
]