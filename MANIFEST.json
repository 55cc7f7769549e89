{
 "claims": [
  {
   "property": "C01",
   "status": "proved",
   "theorems": [
    "Humoto.C01_checkLength_exact",
    "Humoto.C01_end_exact"
   ],
   "note": "Exact over all 64-bit words."
  },
  {
   "property": "C02",
   "status": "proved",
   "theorems": [
    "Humoto.C02_shift",
    "Humoto.C02_shift_rejects",
    "Humoto.C02_shift_shift"
   ],
   "note": ""
  },
  {
   "property": "C03",
   "status": "partial",
   "theorems": [
    "Humoto.C03_copyTo_partial",
    "Humoto.C03_rejects",
    "Humoto.C03_initFrom",
    "Humoto.C03_roundtrip",
    "Humoto.C03_copyTo_refuted",
    "Humoto.C03_setLoc"
   ],
   "note": "The length of the copied part is not compared with the length of the location, so a longer part is written out of range (C03_copyTo_refuted). Everything else in the claim is proved for parts whose length is that of the location."
  },
  {
   "property": "C04",
   "status": "proved",
   "theorems": [
    "Humoto.C04_count",
    "Humoto.C04_count_append",
    "Humoto.C04_count_zero"
   ],
   "note": ""
  },
  {
   "property": "C05",
   "status": "proved",
   "theorems": [
    "Humoto.C05_determineActiveSet"
   ],
   "note": "For constraints whose sizes fit and whose indices are in range."
  },
  {
   "property": "C06",
   "status": "proved",
   "theorems": [
    "Humoto.C06_computeViolations"
   ],
   "note": "For rows whose bounds do not contradict each other, as the claim says."
  },
  {
   "property": "C07",
   "status": "proved",
   "theorems": [
    "Humoto.C07_layout",
    "Humoto.C07_push_order"
   ],
   "note": ""
  },
  {
   "property": "C08",
   "status": "proved",
   "theorems": [
    "Humoto.C08_allConstraints",
    "Humoto.C08_generalConstraints"
   ],
   "note": "For levels whose simple indices are in range and whose offsets are not negative, which the consistency check of the code does not enforce. A missing bound becomes 1e20 in the container, so one direction holds for points within the library infinity."
  },
  {
   "property": "C09",
   "status": "proved",
   "theorems": [
    "Humoto.C09_split"
   ],
   "note": "For levels whose simple indices are in range and whose offsets are not negative, which the consistency check of the code does not enforce."
  },
  {
   "property": "C10",
   "status": "proved",
   "theorems": [
    "Humoto.C10_bounds",
    "Humoto.C10_unique",
    "Humoto.C10_feasible",
    "Humoto.C10_weighted_refuted"
   ],
   "note": "For levels without weighted simple tasks; with such a task no bounds are produced at all, the call throws (C10_weighted_refuted)."
  },
  {
   "property": "C11",
   "status": "proved",
   "theorems": [
    "Humoto.C11_objective",
    "Humoto.C11_reject"
   ],
   "note": "The class ConstraintsIB cannot be instantiated (its getATAandATb calls a missing function), so it is not in the list of classes; levels with inequality tasks are rejected (C11_reject)."
  },
  {
   "property": "C12",
   "status": "proved",
   "theorems": [
    "Humoto.C12_reject",
    "Humoto.C12_oneLevel",
    "Humoto.C12_twoLevels_ABAL",
    "Humoto.C12_twoLevels_ILUALU"
   ],
   "note": "Within the library infinity of 1e20 for missing bounds, and for levels without weighted simple inequality tasks, as in C08 and C10."
  },
  {
   "property": "C13",
   "status": "proved",
   "theorems": [
    "Humoto.C13_distribute",
    "Humoto.C13_distribute_short",
    "Humoto.C13_roundtrip",
    "Humoto.C13_hierarchy"
   ],
   "note": "C13_distribute for sets of the size of the level, C13_distribute_short for shorter ones; a longer set is accepted and its tail is ignored."
  },
  {
   "property": "C14",
   "status": "proved",
   "theorems": [
    "Humoto.C14_task",
    "Humoto.C14_default",
    "Humoto.C14_level",
    "Humoto.C14_hierarchy"
   ],
   "note": "Includes the exception for a stale guess of a wrong size."
  },
  {
   "property": "C15",
   "status": "proved",
   "theorems": [
    "Humoto.C15_location",
    "Humoto.C15_unknown",
    "Humoto.C15_cover",
    "Humoto.C15_duplicate"
   ],
   "note": "For distinct ids; C15_duplicate says what happens when an id is repeated (first location kept, variable count grows)."
  },
  {
   "property": "C16",
   "status": "proved",
   "theorems": [
    "Humoto.C16_warmStart",
    "Humoto.C16_unique"
   ],
   "note": "For an old solution whose vector has the size of its structure."
  },
  {
   "property": "C17",
   "status": "proved",
   "theorems": [
    "Humoto.C17_params",
    "Humoto.C17_status",
    "Humoto.C17_calls",
    "Humoto.C17_failure"
   ],
   "note": "The virtual methods of a solver are parameters of the model."
  },
  {
   "property": "C18",
   "status": "proved",
   "theorems": [
    "Humoto.C18_checkInputs"
   ],
   "note": "For formed hierarchies."
  },
  {
   "property": "C19",
   "status": "proved",
   "theorems": [
    "Humoto.C19_dense",
    "Humoto.C19_block",
    "Humoto.C19_agree",
    "Humoto.C19_reject",
    "Humoto.C19_unique"
   ],
   "note": ""
  },
  {
   "property": "C20",
   "status": "partial",
   "theorems": [
    "Humoto.C20_block",
    "Humoto.C20_dense",
    "Humoto.C20_pipeline",
    "Humoto.C20_groups_partial",
    "Humoto.C20_groups_call_partial",
    "Humoto.C20_groups_refuted"
   ],
   "note": "Block overload and dense overload proved. The overload with several groups of controls violates the claim in the first step (it stores E(0) in the last block instead of the first): C20_groups_refuted; all other steps and the part of the initial state are proved in C20_groups_partial and C20_groups_call_partial."
  },
  {
   "property": "C21",
   "status": "proved",
   "theorems": [
    "Humoto.C21_timeInvariant",
    "Humoto.C21_empty"
   ],
   "note": "For horizons of at least one step; an empty horizon is out of range (C21_empty)."
  },
  {
   "property": "C22",
   "status": "partial",
   "theorems": [
    "Humoto.C22_legal_walk_partial",
    "Humoto.C22_support_foot",
    "Humoto.C22_durations",
    "Humoto.C22_marks",
    "Humoto.C22_undefined_refuted",
    "Humoto.C22_accepted",
    "Humoto.C22_getNextStance"
   ],
   "note": "Proved for every parameter set and history except the corner case where the side of the first single support is left undefined although steps are requested: there the machine emits single supports without a side (C22_undefined_refuted)."
  },
  {
   "property": "C23",
   "status": "partial",
   "theorems": [
    "Humoto.C23_number_of_steps_partial",
    "Humoto.C23_steps_left"
   ],
   "note": "Same exclusion as C22 (undefined first side with a positive number of steps)."
  },
  {
   "property": "C24",
   "status": "partial",
   "theorems": [
    "Humoto.C24_additive",
    "Humoto.C24_additive_error",
    "Humoto.C24_deterministic",
    "Humoto.C24_time_in_range",
    "Humoto.C24_conservation",
    "Humoto.C24_history",
    "Humoto.C24_returns_partial",
    "Humoto.C24_returns_refuted"
   ],
   "note": "Additivity, range of the time, conservation and determinism are proved for all walks. Termination is proved whenever the last stance has a positive duration and refuted for a zero duration (C24_returns_refuted)."
  },
  {
   "property": "C25",
   "status": "partial",
   "theorems": [
    "Humoto.C25_preview_partial",
    "Humoto.C25_sum",
    "Humoto.C25_begins_partial",
    "Humoto.C25_zero_refuted",
    "Humoto.C25_terminal_refuted"
   ],
   "note": "Proved for positive preview durations and machines which are not in the terminal stance; a zero duration is undefined behaviour (C25_zero_refuted) and in the terminal stance the preview is empty (C25_terminal_refuted)."
  },
  {
   "property": "C26",
   "status": "proved",
   "theorems": [
    "Humoto.C26_acceleration",
    "Humoto.C26_velocity",
    "Humoto.C26_position",
    "Humoto.C26_agree_acceleration",
    "Humoto.C26_agree_velocity",
    "Humoto.C26_agree_position"
   ],
   "note": ""
  },
  {
   "property": "C27",
   "status": "proved",
   "theorems": [
    "Humoto.C27_polynomial",
    "Humoto.C27_compose",
    "Humoto.C27_derivative",
    "Humoto.C27_start"
   ],
   "note": ""
  },
  {
   "property": "C28",
   "status": "proved",
   "theorems": [
    "Humoto.C28_acceleration",
    "Humoto.C28_velocity",
    "Humoto.C28_position",
    "Humoto.C28_full"
   ],
   "note": ""
  },
  {
   "property": "C29",
   "status": "partial",
   "theorems": [
    "Humoto.C29_ends",
    "Humoto.C29_between",
    "Humoto.C29_start_partial",
    "Humoto.C29_end_partial",
    "Humoto.C29_end_refuted",
    "Humoto.C29_derivative",
    "Humoto.C29_jerk",
    "Humoto.C29_reject",
    "Humoto.C29_points",
    "Humoto.C29_scale",
    "Humoto.C29_scale_defined"
   ],
   "note": "Everything except for polynomials with nonzero velocities at the ends: the position and the velocity at the end are wrong unless both velocities are zero (C29_end_partial, C29_end_refuted)."
  },
  {
   "property": "C30",
   "status": "partial",
   "theorems": [
    "Humoto.C30_ends",
    "Humoto.C30_reject",
    "Humoto.C30_height",
    "Humoto.C30_horizontal_partial",
    "Humoto.C30_vertical_partial",
    "Humoto.C30_vertical_refuted",
    "Humoto.C30_states_partial",
    "Humoto.C30_end_refuted"
   ],
   "note": "Positions, rest at the ends, height bounds and horizontal derivatives are proved. The reported vertical velocity is half of the derivative (C30_vertical_partial, C30_vertical_refuted); trajectories with nonzero velocities at the ends do not arrive in the final position (C30_end_refuted)."
  },
  {
   "property": "C31",
   "status": "proved",
   "theorems": [
    "Humoto.C31_foot_and_back",
    "Humoto.C31_ads_and_back",
    "Humoto.C31_distance",
    "Humoto.C31_step",
    "Humoto.C31_reject"
   ],
   "note": ""
  },
  {
   "property": "C32",
   "status": "proved",
   "theorems": [
    "Humoto.C32_mirror",
    "Humoto.C32_ordered",
    "Humoto.C32_nominal",
    "Humoto.C32_fixed",
    "Humoto.C32_aligned",
    "Humoto.C32_cop",
    "Humoto.C32_cop_tight",
    "Humoto.C32_reject"
   ],
   "note": ""
  },
  {
   "property": "C33",
   "status": "proved",
   "theorems": [
    "Humoto.C33_product",
    "Humoto.C33_left",
    "Humoto.C33_agree",
    "Humoto.C33_skew",
    "Humoto.C33_injective"
   ],
   "note": ""
  },
  {
   "property": "C34",
   "status": "partial",
   "theorems": [
    "Humoto.C34_euler_rotation",
    "Humoto.C34_euler_meaning",
    "Humoto.C34_extract",
    "Humoto.C34_eigen",
    "Humoto.C34_convert",
    "Humoto.C34_angles_partial",
    "Humoto.C34_angles_refuted",
    "Humoto.C34_reject",
    "Humoto.C34_rates",
    "Humoto.C34_rodrigues_rotation",
    "Humoto.C34_identity",
    "Humoto.C34_additive",
    "Humoto.C34_rodrigues_velocity",
    "Humoto.C34_simple_partial",
    "Humoto.C34_simple_refuted",
    "Humoto.C34_error",
    "Humoto.C34_error_axis"
   ],
   "note": "Rotations from Euler angles and the formula of Rodrigues are proved to be rotations with the given velocity; the simple integration does not produce a rotation unless velocity or time is zero (C34_simple_partial, C34_simple_refuted). Extraction followed by construction is the identity for every rotation. Construction followed by extraction with the algorithm of Eigen 3.2/3.3 (trusted transcription, not in the repository) recovers the angles for nonnegative yaw only (C34_angles_partial, C34_angles_refuted)."
  },
  {
   "property": "C35",
   "status": "proved",
   "theorems": [
    "Humoto.C35_lossless",
    "Humoto.C35_lossless_state",
    "Humoto.C35_output",
    "Humoto.C35_command",
    "Humoto.C35_start",
    "Humoto.C35_motion",
    "Humoto.C35_zmp_velocity",
    "Humoto.C35_capture_point",
    "Humoto.C35_whole"
   ],
   "note": ""
  },
  {
   "property": "C36",
   "status": "partial",
   "theorems": [
    "Humoto.C36_construct",
    "Humoto.C36_evaluate",
    "Humoto.C36_evaluate_triangular",
    "Humoto.C36_evaluate_single",
    "Humoto.C36_evaluate_single_triangular",
    "Humoto.C36_function",
    "Humoto.C36_determined",
    "Humoto.C36_multiply",
    "Humoto.C36_multiply_triangular",
    "Humoto.C36_multiply_vector",
    "Humoto.C36_multiply_single_partial",
    "Humoto.C36_multiply_single_triangular_partial",
    "Humoto.C36_multiply_left_single_triangular_partial",
    "Humoto.C36_multiply_vector_single",
    "Humoto.C36_reject",
    "Humoto.C36_stale_result_refuted",
    "Humoto.C36_left_sizes_refuted"
   ],
   "note": "Evaluation, generic and triangular products and products with vectors are proved. The products of the specialisation for blocks 1x1 need a receiving matrix of suitable sizes (C36_stale_result_refuted), multiplyLeft only accepts square matrices (C36_left_sizes_refuted). Dynamic block sizes of the diagonal operand are not modelled for this specialisation."
  },
  {
   "property": "C37",
   "status": "partial",
   "theorems": [
    "Humoto.C37_sparsity",
    "Humoto.C37_operator",
    "Humoto.C37_right_partial",
    "Humoto.C37_left_partial",
    "Humoto.C37_reject",
    "Humoto.C37_rectangular_refuted",
    "Humoto.C37_rectangular_wide_refuted"
   ],
   "note": "Proved for equal numbers of block rows and columns; refuted otherwise (C37_rectangular_refuted, C37_rectangular_wide_refuted). All sparsity types of multiplyRight and the operator are in C37_sparsity and C37_operator."
  },
  {
   "property": "C38",
   "status": "proved",
   "theorems": [
    "Humoto.C38_list",
    "Humoto.C38_copies",
    "Humoto.C38_covers"
   ],
   "note": ""
  },
  {
   "property": "C39",
   "status": "partial",
   "theorems": [
    "Humoto.C39_vertical_partial",
    "Humoto.C39_same_columns_partial",
    "Humoto.C39_reject",
    "Humoto.C39_adjacent_refuted",
    "Humoto.C39_horizontal2",
    "Humoto.C39_horizontal3",
    "Humoto.C39_horizontal_reject",
    "Humoto.C39_horizontal3_reject",
    "Humoto.C39_horizontal_refuted"
   ],
   "note": "Vertical concatenation loses the claim when several empty matrices follow each other (C39_adjacent_refuted); horizontal concatenation does not ignore matrices without columns and a different number of rows (C39_horizontal_refuted)."
  },
  {
   "property": "C40",
   "status": "partial",
   "theorems": [
    "Humoto.C40_row",
    "Humoto.C40_row_reject_partial",
    "Humoto.C40_row_end_refuted",
    "Humoto.C40_row_negative_refuted",
    "Humoto.C40_column_partial",
    "Humoto.C40_column_refuted",
    "Humoto.C40_column_end_refuted"
   ],
   "note": "Correct for valid indices of rows; index checks accept the index one past the end and negative indices, and the column check uses the number of rows (refutations)."
  },
  {
   "property": "C41",
   "status": "proved",
   "theorems": [
    "Humoto.C41_select",
    "Humoto.C41_selection_matrix"
   ],
   "note": "For positive steps and a first row which is not beyond the matrix."
  },
  {
   "property": "C42",
   "status": "proved",
   "theorems": [
    "Humoto.C42_getATA",
    "Humoto.C42_getATAOffset",
    "Humoto.C42_addATA",
    "Humoto.C42_addATAOffset",
    "Humoto.C42_convert",
    "Humoto.C42_symmetric"
   ],
   "note": ""
  },
  {
   "property": "C43",
   "status": "partial",
   "theorems": [
    "Humoto.C43_direct",
    "Humoto.C43_elimination_partial",
    "Humoto.C43_agree_partial",
    "Humoto.C43_refused",
    "Humoto.C43_hierarchy",
    "Humoto.C43_hierarchy_elimination_partial",
    "Humoto.C43_elimination_refuted",
    "Humoto.C43_status_refuted",
    "Humoto.C43_stale",
    "Humoto.C43_oneLevel_refuted"
   ],
   "note": "Direct methods (LU, QR): proved to return the unique constrained minimiser, at the level of the QP (C43_direct) and of whole two-level hierarchies (C43_hierarchy), for linear solvers which solve regular systems (contract Trusted, shown satisfiable). Elimination returns the minimiser of the problem regularised by f*I (C43_elimination_partial, C43_hierarchy_elimination_partial) and agrees with the direct methods for f = 0 (C43_agree_partial). Refuted: elimination with the default factor 1e-8 differs (C43_elimination_refuted); the status is OK for infeasible constraints (C43_status_refuted); constraints of a previous two-level problem are kept when a one-level problem is solved (C43_oneLevel_refuted)."
  },
  {
   "property": "C44",
   "status": "proved",
   "theorems": [
    "Humoto.C44_once",
    "Humoto.C44_order",
    "Humoto.C44_delivered",
    "Humoto.C44_safe",
    "Humoto.C44_returns",
    "Humoto.C44_uninitialised"
   ],
   "note": "Transition system with explicit mutex, any number of producers, owner (initialize, destructor) and writer thread; safety by invariants over all finite executions, return of the shutdown for all fair infinite executions. Sequentially consistent memory is assumed (interrupted_ is a plain bool in the code: formally a data race). C44_uninitialised: a logger which never gets a stream drops its messages."
  },
  {
   "property": "C45",
   "status": "proved",
   "theorems": [
    "Humoto.LogName.C45_path",
    "Humoto.LogName.C45_empty",
    "Humoto.LogName.C45_injective",
    "Humoto.LogName.C45_vector",
    "Humoto.LogName.C45_vector_injective"
   ],
   "note": "Texts of elements (operator<<) are arbitrary strings; indices are 64 bit (index + 1 wraps). Names are non-empty and do not contain \".\", \"{\" or \"}\"."
  },
  {
   "property": "C46",
   "status": "partial",
   "theorems": [
    "Humoto.Config.C46_msgpack",
    "Humoto.Config.C46_msgpack_stream",
    "Humoto.Config.C46_yaml_partial",
    "Humoto.Config.C46_yaml_accuracy",
    "Humoto.Config.C46_yaml_digits_refuted"
   ],
   "note": "Proved for msgpack (all trees of scalars, enums, vectors, std::vector, vectors of vectors, members and parents; also the stream of packed items, where announced sizes match). For YAML exact restoration is proved if all numbers have at most 15 significant digits and refuted otherwise (the emitter writes 15 digits: C46_yaml_digits_refuted; relative error at most 5e-15: C46_yaml_accuracy). yaml-cpp and msgpack are represented by their contracts."
  },
  {
   "property": "C47",
   "status": "partial",
   "theorems": [
    "Humoto.Config.C47_effect",
    "Humoto.Config.C47_partial",
    "Humoto.Config.C47_refuted"
   ],
   "note": "Refuted: matrices are written by columns and read by rows with both formats (C47_refuted), C47_effect says what is read for every matrix; C47_partial: symmetric matrices and matrices with one row or column are restored."
  },
  {
   "property": "C48",
   "status": "proved",
   "theorems": [
    "Humoto.Config.C48_relaxed",
    "Humoto.Config.C48_relaxed_values",
    "Humoto.Config.C48_strict",
    "Humoto.Config.C48_section"
   ],
   "note": "For every set of removed entries at any depth of the tree, both formats, matrices included (present entries have the value read from the complete file; C48_relaxed_values relates them to the written object). A matrix is present or missing as a whole."
  },
  {
   "property": "C49",
   "status": "proved",
   "theorems": [
    "Humoto.Bridge.C49_report",
    "Humoto.Bridge.C49_report_reject",
    "Humoto.Bridge.C49_guess_reject",
    "Humoto.Bridge.C49_guess",
    "Humoto.Bridge.C49_roundtrip",
    "Humoto.Bridge.C49_oneLevel",
    "Humoto.Bridge.C49_oneLevel_stale",
    "Humoto.Bridge.C49_lastBound_refuted"
   ],
   "note": "For every formed hierarchy with two levels and every working set in which a variable is at a bound only if it has one: each row is reported active exactly when its bound is the tightest one and the variable is at it; setting the reported active set restores the status of every constraint and variable. Other working set values throw. Guesses with undefined entries throw. C49_oneLevel, C49_oneLevel_stale: hierarchies with one level. C49_lastBound_refuted: the comment in the code about the last bound is wrong."
  },
  {
   "property": "C50",
   "status": "proved",
   "theorems": [
    "Humoto.Bridge.C50_translation",
    "Humoto.Bridge.C50_reject"
   ],
   "note": "Feasible set and objective of the arguments, their sizes and symmetry; the solution and the status are those of the solver."
  },
  {
   "property": "C51",
   "status": "partial",
   "theorems": [
    "Humoto.Wpg.C51_horizon",
    "Humoto.Wpg.C51_positive",
    "Humoto.Wpg.C51_starts_partial",
    "Humoto.Wpg.C51_outcome",
    "Humoto.Wpg.C51_success_partial",
    "Humoto.Wpg.C51_end_refuted",
    "Humoto.Wpg.C51_end_throws",
    "Humoto.Wpg.C51_transitions_refuted",
    "Humoto.Wpg.C51_duration_refuted",
    "Humoto.Wpg.C51_zero_refuted",
    "Humoto.Wpg.C51_reentered_refuted",
    "Humoto.Wpg.C51_starts_refuted"
   ],
   "note": "Proved for all reachable states of a walk with time left in the current stance and horizon lengths below 2^63: a formed horizon follows the previewed walk (C51_horizon), exact outcomes (C51_outcome), formed if the stances hold enough intervals (C51_success_partial). Intervals begin where stances do only if the parameters are aligned (C51_starts_partial, C51_starts_refuted). Refuted: end of the walk, long transitions, zero durations, re-entered double support."
  },
  {
   "property": "C52",
   "status": "partial",
   "theorems": [
    "Humoto.Wpg.C52_criterion",
    "Humoto.Wpg.C52_aligned_partial",
    "Humoto.Wpg.C52_refuted",
    "Humoto.Wpg.C52_support_refuted"
   ],
   "note": "Exact condition (C52_criterion): a formed horizon can be used iff its intervals reach the last two previewed stances; otherwise the behaviour is undefined. It holds if the sampling period fits into transitional supports and divides the rest of the current stance (C52_aligned_partial). Refuted for the default walk in the middle of a transition and of a support."
  },
  {
   "property": "C53",
   "status": "partial",
   "theorems": [
    "Humoto.Wpg.C53_accepted",
    "Humoto.Wpg.C53_result",
    "Humoto.Wpg.C53_initial",
    "Humoto.Wpg.C53_walk_partial",
    "Humoto.Wpg.C53_interval",
    "Humoto.Wpg.C53_sampled_partial",
    "Humoto.Wpg.C53_transition_refuted",
    "Humoto.Wpg.C53_default_refuted"
   ],
   "note": "Exact condition for acceptance (C53_accepted); for every history of updates along a walk in which no transitional support is seen twice the model accepts all of them and the support position is that of the feet (C53_walk_partial), which holds if the sampling period is between the durations of transitional and single supports (C53_sampled_partial). Refuted otherwise: a transitional support seen twice throws, as happens in the default walk with 50 ms."
  },
  {
   "property": "C54",
   "status": "proved",
   "theorems": [
    "Humoto.Pepper.C54_pepper",
    "Humoto.Pepper.C54_pepper_next",
    "Humoto.Wpg.C54_wpg",
    "Humoto.Wpg.C54_wpg_next"
   ],
   "note": "Both controllers, all histories of updates, parsed solutions and changes of parameters which do not fail."
  },
  {
   "property": "C55",
   "status": "partial",
   "theorems": [
    "Humoto.Wpg.C55_accepted",
    "Humoto.Wpg.C55_rejected",
    "Humoto.Wpg.C55_derived",
    "Humoto.Wpg.C55_zero_refuted"
   ],
   "note": "Accepted exactly when both sampling times are multiples of the subsampling time; refuted for a subsampling time of zero (division by zero)."
  },
  {
   "property": "C56",
   "status": "proved",
   "theorems": [
    "Humoto.Pepper.C56_removes",
    "Humoto.Pepper.C56_total",
    "Humoto.Pepper.C56_unlimited",
    "Humoto.Pepper.C56_additive",
    "Humoto.Pepper.C56_single"
   ],
   "note": "For queues of motions whose durations are unlimited or in the range of ptrdiff_t. C56_removes is stated through the command which is executed at a given time, so it does not depend on how the queue is represented."
  },
  {
   "property": "C57",
   "status": "proved",
   "theorems": [
    "Humoto.Pepper.C57_queue",
    "Humoto.Pepper.C57_single",
    "Humoto.Pepper.C57_determined",
    "Humoto.Pepper.C57_agree",
    "Humoto.Pepper.C57_receding",
    "Humoto.Pepper.C57_zero_sampling"
   ],
   "note": "Horizon of N > 0 intervals, T > 0 (with an empty queue N = 0 is refused, T = 0 divides by zero, see C57_zero_sampling). C57_determined: the specification determines all fields of all intervals. Both overloads agree (C57_agree). C57_receding combines this with shifts. cos and sin are arbitrary functions."
  },
  {
   "property": "C58",
   "status": "partial",
   "theorems": [
    "Humoto.Pepper.C58_milliseconds",
    "Humoto.Pepper.C58_seconds_partial",
    "Humoto.Pepper.C58_negative_refuted"
   ],
   "note": "Exact for milliseconds and for nonnegative offsets in seconds; refuted for negative offsets in seconds, which are accepted."
  },
  {
   "property": "C59",
   "status": "partial",
   "theorems": [
    "Humoto.Pepper.C59_state_partial",
    "Humoto.Pepper.C59_wrong_state",
    "Humoto.Pepper.C59_seconds_partial",
    "Humoto.Pepper.C59_refuted"
   ],
   "note": "Refuted: controls of the first interval are used in all intervals. Proved for the first interval and for equal controls."
  },
  {
   "property": "C60",
   "status": "proved",
   "theorems": [
    "Humoto.Pepper.C60_cop"
   ],
   "note": "The total mass must not be zero."
  },
  {
   "property": "C61",
   "status": "proved",
   "theorems": [
    "Humoto.Pepper.C61_bounds"
   ],
   "note": "Over the real numbers."
  },
  {
   "property": "C62",
   "status": "partial",
   "theorems": [
    "Humoto.Ik.C62_partial",
    "Humoto.Ik.C62_refuted"
   ],
   "note": "The desired position contains an additional term, the vector product of the position of the tag and its angular velocity (C62_refuted); C62_partial states the position for all velocities, so the property holds when the product is zero. RBDL is trusted as in C92, eulerAngles of Eigen as in C34."
  },
  {
   "property": "C63",
   "status": "partial",
   "theorems": [
    "Humoto.Ik.C63_positions",
    "Humoto.Ik.C63_wheels",
    "Humoto.Ik.C63_velocities_partial",
    "Humoto.Ik.C63_velocities_refuted",
    "Humoto.Ik.C63_urdf"
   ],
   "note": "Doubles may be infinite or not a number. Positions and wheels are proved in full. The check of velocities needs a positive interval and numbers (C63_velocities_partial): negative intervals and NaN are accepted (C63_velocities_refuted). C63_urdf: the limits are those of the URDF."
  },
  {
   "property": "C64",
   "status": "partial",
   "theorems": [
    "Humoto.C64_variables",
    "Humoto.C64_gain_partial",
    "Humoto.C64_zero_partial",
    "Humoto.C64_gain_refuted",
    "Humoto.C64_range",
    "Humoto.C64_selected",
    "Humoto.C64_infeasible"
   ],
   "note": "Variables and indices for all histories (C64_variables, C64_range); gain and satisfaction for histories in which the gain is not changed (C64_gain_partial, C64_zero_partial). Refuted for changes of the gain while the structure stays the same (C64_gain_refuted). The other predefined tasks: C64_selected, C64_infeasible."
  },
  {
   "property": "C65",
   "status": "partial",
   "theorems": [
    "Humoto.Config.C65_refuted",
    "Humoto.Config.C65_success_partial"
   ],
   "note": "Refuted after an exception (C65_refuted): the stack of nodes is not restored. C65_success_partial: every successful reading restores the state of the reader."
  },
  {
   "property": "C66",
   "status": "partial",
   "theorems": [
    "Humoto.Bridge.C66_reuse_partial",
    "Humoto.Bridge.C66_oneLevel",
    "Humoto.Bridge.C66_oneLevel_refuted"
   ],
   "note": "Proved for hierarchies with two levels, all containers. Refuted for one level: constraints of the previous problem stay (C66_oneLevel says this for every problem, C66_oneLevel_refuted gives a wrong result reported as success)."
  },
  {
   "property": "C67",
   "status": "proved",
   "theorems": [
    "Humoto.Bridge.C67_quadprog",
    "Humoto.Bridge.C67_qpmad",
    "Humoto.Bridge.C67_qpoases",
    "Humoto.Bridge.C67_qpoases_oneLevel"
   ],
   "note": "Relative to contracts of the external solvers (Spec/Bridges.lean): a success comes with a minimiser of the given QP when it is strictly convex (qpOASES: convex). For qpmad and qpOASES the competitors are limited to points below the library infinity 1e20, and contradictory bounds throw. One level: C67_qpoases_oneLevel with a new solver object."
  },
  {
   "property": "C68",
   "status": "proved",
   "theorems": [
    "Humoto.Pepper.C68_nextState",
    "Humoto.Pepper.C68_commanded",
    "Humoto.Pepper.C68_start",
    "Humoto.Pepper.C68_conversion"
   ],
   "note": "The sampling time must not be zero."
  },
  {
   "property": "C69",
   "status": "partial",
   "theorems": [
    "Humoto.Pepper.C69_masses_refuted",
    "Humoto.Pepper.C69_masses_partial"
   ],
   "note": "Refuted: the controller returns states with default masses. What holds is that the masses of the receiving object are kept."
  },
  {
   "property": "C70",
   "status": "partial",
   "theorems": [
    "Humoto.Pepper.C70_heights_refuted",
    "Humoto.Pepper.C70_setters_partial",
    "Humoto.Pepper.C70_current_position_partial"
   ],
   "note": "Refuted for the constructor with heights, which swaps them. Proved for the others."
  },
  {
   "property": "C71",
   "status": "proved",
   "theorems": [
    "Humoto.Pepper.C71_update",
    "Humoto.Pepper.C71_queue",
    "Humoto.Pepper.C71_profiles",
    "Humoto.Pepper.C71_motion"
   ],
   "note": "Intervals must have nonzero durations; the horizon has at least one interval. Masses must not cancel for the centre of pressure."
  },
  {
   "property": "C72",
   "status": "partial",
   "theorems": [
    "Humoto.Pepper.C72_criterion",
    "Humoto.Pepper.C72_history_partial",
    "Humoto.Pepper.C72_refuted"
   ],
   "note": "Refuted: changing the number of intervals makes update throw unless the new number divides twice the old one; this criterion is exact. Proved for histories with a constant number of intervals."
  },
  {
   "property": "C73",
   "status": "partial",
   "theorems": [
    "Humoto.Pepper.C73_guess",
    "Humoto.Pepper.C73_first",
    "Humoto.Pepper.C73_lengths_refuted"
   ],
   "note": "Proved for equal numbers of intervals and for the first guess; with different numbers the behaviour is undefined (C73_lengths_refuted)."
  },
  {
   "property": "C74",
   "status": "proved",
   "theorems": [
    "Humoto.Wpg.C74_turns",
    "Humoto.Wpg.C74_current",
    "Humoto.Wpg.C74_velocities",
    "Humoto.Wpg.C74_bounds"
   ],
   "note": "For every formed horizon at a reachable state of a walk with time left in the current stance, horizon lengths below 2^63."
  },
  {
   "property": "C75",
   "status": "proved",
   "theorems": [
    "Humoto.Wpg.C75_matrices",
    "Humoto.Wpg.C75_motion",
    "Humoto.Wpg.C75_profiles"
   ],
   "note": "For every successful update at a reachable state of a walk with time left in the current stance, positive height of the centre of mass and positive sampling times. Heights are constant and the motion is that of the linear inverted pendulum."
  },
  {
   "property": "C76",
   "status": "proved",
   "theorems": [
    "Humoto.Wpg.C76_state",
    "Humoto.Wpg.C76_beyond",
    "Humoto.Wpg.C76_end"
   ],
   "note": "For every parsed solution of a successful update at a reachable state of a walk; walk_at_400 shows that the default walk leads to such states."
  },
  {
   "property": "C77",
   "status": "partial",
   "theorems": [
    "Humoto.Wpg.C77_landing",
    "Humoto.Wpg.C77_landing_refuted",
    "Humoto.Wpg.C77_next",
    "Humoto.Wpg.C77_agrees_partial",
    "Humoto.Wpg.C77_agrees_refuted"
   ],
   "note": "Next state and landing foot (C77_next, C77_landing) for every parsed solution; the centre of mass is the predicted one if the subsampling time is not longer than the first interval (C77_agrees_partial). Refuted: in the middle of a transition the motion of the first interval is continued beyond its end (C77_agrees_refuted); without steps in the horizon the query of the landing foot has undefined behaviour (C77_landing_refuted)."
  },
  {
   "property": "C78",
   "status": "partial",
   "theorems": [
    "Humoto.Wpg.C78_guess_partial",
    "Humoto.Wpg.C78_first",
    "Humoto.Wpg.C78_guess_refuted"
   ],
   "note": "Proved for equal numbers of intervals and numbers of steps which differ by at most one (C78_guess_partial), and for the first guess; otherwise the behaviour is undefined (C78_guess_refuted)."
  },
  {
   "property": "C79",
   "status": "proved",
   "theorems": [
    "Humoto.Wpg.C79_continues",
    "Humoto.Wpg.C79_stops",
    "Humoto.Wpg.C79_count",
    "Humoto.Wpg.C79_time",
    "Humoto.Wpg.C79_one_refuted"
   ],
   "note": "C79_continues, C79_stops and C79_count for all walks whose parameters fit the sampling time (LoopParameters) and for arbitrary solutions; C79_time: the machine follows the clock. C79_one_refuted shows why a horizon of one interval is excluded: the landing of the foot has undefined behaviour."
  },
  {
   "property": "C80",
   "status": "proved",
   "theorems": [
    "Humoto.Wpg.C80_support",
    "Humoto.Wpg.C80_feet",
    "Humoto.Wpg.C80_step",
    "Humoto.Wpg.C80_last",
    "Humoto.Wpg.C80_possible"
   ],
   "note": "C80_support, C80_feet, C80_step, C80_last for all iterations of the loop of C79, from any robot which stands on its support (Stands); C80_possible: solutions which meet the bounds exist if the parameters of the feet are ordered."
  },
  {
   "property": "C81",
   "status": "proved",
   "theorems": [
    "Humoto.Wpg.C81_ready",
    "Humoto.Wpg.C81_footsteps",
    "Humoto.Wpg.C81_fixed",
    "Humoto.Wpg.C81_fixed_within",
    "Humoto.Wpg.C81_cop",
    "Humoto.Wpg.C81_comVelocity",
    "Humoto.Wpg.C81_copVelocity",
    "Humoto.Wpg.C81_terminal",
    "Humoto.Wpg.C81_capturable",
    "Humoto.Wpg.C81_copPosition",
    "Humoto.Wpg.C81_first"
   ],
   "note": "For every controller after a successful update (C81_ready relates Ready to C75). The gain of the task on the position of the centre of pressure must not be changed after its construction, see C64."
  },
  {
   "property": "C82",
   "status": "proved",
   "theorems": [
    "Humoto.Wpg.C82_footsteps_guess",
    "Humoto.Wpg.C82_cop_guess",
    "Humoto.Wpg.C82_setup",
    "Humoto.Wpg.C82_form",
    "Humoto.Wpg.C82_guess",
    "Humoto.Wpg.C82_guess_throws",
    "Humoto.Wpg.C82_process",
    "Humoto.Wpg.C82_quadprog",
    "Humoto.Wpg.C82_qpmad",
    "Humoto.Wpg.C82_qpoases"
   ],
   "note": "For the hierarchies of two levels. The QP solvers themselves are trusted (TrustedQuadProg, TrustedQpmad, TrustedQpoases); with qpmad and qpOASES optimality is among the solutions below the library infinity. C82_guess_throws: the exception when two steps disappear between iterations with guesses."
  },
  {
   "property": "C83",
   "status": "proved",
   "theorems": [
    "Humoto.Bridge.C83_solve",
    "Humoto.Bridge.C83_complete",
    "Humoto.Bridge.C83_undefined",
    "Humoto.Bridge.C83_short_guess"
   ],
   "note": "For guesses of the right size (GuessesFit); C83_short_guess: a shorter guess of the solution is not detected, memory beyond its end is read. qpOASES itself is trusted (TrustedSolver, and CompleteSolver in C83_complete); exists_solver shows that the assumptions can be met."
  },
  {
   "property": "C84",
   "status": "proved",
   "theorems": [
    "Humoto.Wpg.C84_iteration",
    "Humoto.Wpg.C84_stops",
    "Humoto.Wpg.C84_loop",
    "Humoto.Wpg.C84_steps",
    "Humoto.Wpg.C84_run",
    "Humoto.Wpg.C84_completes"
   ],
   "note": "The walk must fit the sampling time and the last stance must cover the horizon (LoopParameters, as in C79). qpOASES is trusted (TrustedSolver; in C84_completes also CompleteSolver); reading of configuration files, logging and timing of the program are not modelled. C84_completes is for hierarchies without the terminal constraint and parameters of the feet which are ordered and below the library infinity (SaneFeet)."
  },
  {
   "property": "C85",
   "status": "partial",
   "theorems": [
    "Humoto.Pepper.C85_velocityBounds",
    "Humoto.Pepper.C85_accelerationBounds",
    "Humoto.Pepper.C85_copBounds",
    "Humoto.Pepper.C85_bodyBounds_partial",
    "Humoto.Pepper.C85_baseJerk",
    "Humoto.Pepper.C85_basePosition",
    "Humoto.Pepper.C85_baseVelocity",
    "Humoto.Pepper.C85_bodyJerk",
    "Humoto.Pepper.C85_copCentering",
    "Humoto.Pepper.C85_guess",
    "Humoto.Pepper.C85_guess_reset",
    "Humoto.Pepper.C85_guess_throws",
    "Humoto.Pepper.C85_bodyBounds_refuted",
    "Humoto.Pepper.C85_bodyPosition_refuted"
   ],
   "note": "For every controller after a successful update. The bounds on the position of the body hold only if they are symmetric (C85_bodyBounds_partial): otherwise the position of the base relative to the body is bounded (C85_bodyBounds_refuted). The task on the reference position of the body does not penalise the distance between body and base (C85_bodyPosition_refuted). For a horizon of one interval the guess of the active set throws (C85_guess_throws)."
  },
  {
   "property": "C86",
   "status": "proved",
   "theorems": [
    "Humoto.Pepper.C86_setup",
    "Humoto.Pepper.C86_form",
    "Humoto.Pepper.C86_guess",
    "Humoto.Pepper.C86_guess_throws",
    "Humoto.Pepper.C86_process",
    "Humoto.Pepper.C86_quadprog",
    "Humoto.Pepper.C86_qpmad",
    "Humoto.Pepper.C86_qpoases"
   ],
   "note": "The bounds on the position of the body are assumed to be symmetric, as the default ones (see C85). The QP solvers themselves are trusted (TrustedQuadProg, TrustedQpmad, TrustedQpoases); with qpmad and qpOASES optimality is among the solutions below the library infinity. C86_guess_throws: the exception for one interval."
  },
  {
   "property": "C87",
   "status": "proved",
   "theorems": [
    "Humoto.Pepper.C87_iteration",
    "Humoto.Pepper.C87_stops",
    "Humoto.Pepper.C87_safe",
    "Humoto.Pepper.C87_cop",
    "Humoto.Pepper.C87_acceleration",
    "Humoto.Pepper.C87_run",
    "Humoto.Pepper.C87_unlimited",
    "Humoto.Pepper.C87_standing",
    "Humoto.Pepper.C87_completes"
   ],
   "note": "The bounds on the position of the body are assumed to be symmetric (see C85), parameters of the controller are sensible (PepperParameters). qpOASES is trusted (TrustedSolver; in C87_completes also CompleteSolver). Reading of configuration files, logging and timing of the programs are not modelled. C87_cop is for a robot with the default masses: other masses are replaced by the default ones in the first iteration, see C69."
  },
  {
   "property": "C88",
   "status": "partial",
   "theorems": [
    "Humoto.Ik.C88_saved",
    "Humoto.Ik.C88_motion",
    "Humoto.Ik.C88_command",
    "Humoto.Ik.C88_limits",
    "Humoto.Ik.C88_rejects",
    "Humoto.Ik.C88_failure_refuted",
    "Humoto.Ik.C88_rolls"
   ],
   "note": "Doubles may be infinite or not a number in C88_limits and C88_rejects. If the check of the wheels fails, the exception leaves the command changed (C88_failure_refuted). The kinematics (pose of the base for given coordinates) is an arbitrary function."
  },
  {
   "property": "C89",
   "status": "partial",
   "theorems": [
    "Humoto.Ik.C89_correct",
    "Humoto.Ik.C89_correctFrom",
    "Humoto.Ik.C89_other",
    "Humoto.Ik.C89_upToDate",
    "Humoto.Ik.C89_upToDate_refuted"
   ],
   "note": "For finite numbers in C89_correct. The function which gets coordinates leaves kinematic data which do not correspond to the coordinates when it throws (C89_upToDate_refuted)."
  },
  {
   "property": "C90",
   "status": "proved",
   "theorems": [
    "Humoto.Ik.C90_position",
    "Humoto.Ik.C90_planar",
    "Humoto.Ik.C90_orientation"
   ],
   "note": "With six degrees of freedom the same rotation is read, not necessarily the same angles; eulerAngles of Eigen is trusted as in C34."
  },
  {
   "property": "C91",
   "status": "proved",
   "theorems": [
    "Humoto.Ik.C91_indices",
    "Humoto.Ik.C91_reorder",
    "Humoto.Ik.C91_roundtrip"
   ],
   "note": "Columns of the root are not set by the function."
  },
  {
   "property": "C92",
   "status": "proved",
   "theorems": [
    "Humoto.Rbdl.C92_complete",
    "Humoto.Rbdl.C92_undefined",
    "Humoto.Rbdl.C92_needs_update",
    "Humoto.Rbdl.C92_translation",
    "Humoto.Rbdl.C92_rotation",
    "Humoto.Rbdl.C92_com",
    "Humoto.Rbdl.C92_partial_com"
   ],
   "note": "RBDL itself is trusted: for given coordinates it computes poses of the bodies (KinematicTree), which move as their joints do (Moves). The masses must not be zero. Between loading of a model and its first update Jacobians are not defined (C92_needs_update)."
  },
  {
   "property": "C93",
   "status": "partial",
   "theorems": [
    "Humoto.Rbdl.C93_point",
    "Humoto.Rbdl.C93_fixed",
    "Humoto.Rbdl.C93_partial_com",
    "Humoto.Rbdl.C93_com",
    "Humoto.Rbdl.C93_load",
    "Humoto.Rbdl.C93_unknown_refuted",
    "Humoto.Rbdl.C93_pose"
   ],
   "note": "RBDL itself is trusted (KinematicTree). Links which the robot does not have are not rejected, the behaviour is undefined; the same holds for masses of fixed links (C93_unknown_refuted)."
  },
  {
   "property": "C94",
   "status": "partial",
   "theorems": [
    "Humoto.Ik.C94_load",
    "Humoto.Ik.C94_update",
    "Humoto.Ik.C94_jointsBounds",
    "Humoto.Ik.C94_jointsReference",
    "Humoto.Ik.C94_fixArms",
    "Humoto.Ik.C94_fixHead",
    "Humoto.Ik.C94_baseCoM",
    "Humoto.Ik.C94_bodyCoM",
    "Humoto.Ik.C94_bodyCoM_flags",
    "Humoto.Ik.C94_baseOrientation",
    "Humoto.Ik.C94_tagOrientation",
    "Humoto.Ik.C94_tagPose",
    "Humoto.Ik.C94_tagPose_unknown",
    "Humoto.Ik.C94_tagPose3Dof",
    "Humoto.Ik.C94_tagPose3Dof_refuted",
    "Humoto.Ik.C94_tagAngularVelocity",
    "Humoto.Ik.C94_tagCompleteVelocity_partial",
    "Humoto.Ik.C94_tagCompleteVelocity_refuted",
    "Humoto.Ik.C94_stateError",
    "Humoto.Ik.C94_next"
   ],
   "note": "RBDL is trusted as in C92. The task on the complete velocity of a tag adds the vector product of the position of the tag and its angular velocity to the requested linear velocity (C94_tagCompleteVelocity_refuted). TaskTagPose3Dof requires the other three velocities to be zero instead of leaving them free (C94_tagPose3Dof_refuted)."
  },
  {
   "property": "C95",
   "status": "partial",
   "theorems": [
    "Humoto.Ik.C95_setup",
    "Humoto.Ik.C95_hierarchies",
    "Humoto.Ik.C95_form",
    "Humoto.Ik.C95_level",
    "Humoto.Ik.C95_qpoases",
    "Humoto.Ik.C95_complete",
    "Humoto.Ik.C95_kkt",
    "Humoto.Ik.C95_next",
    "Humoto.Ik.C95_v2_refuted"
   ],
   "note": "RBDL and qpOASES or the decompositions of Eigen are trusted as in C92, C83 and C43. Gains of the first level are not zero. With the solver for equalities the rows of the first level must be independent and the tasks must determine the displacement. The third hierarchy of the tests fixes wrong variables (C95_v2_refuted). TaskTagPose3Dof on the first level is excluded from optimality, see C94."
  },
  {
   "property": "C96",
   "status": "proved",
   "theorems": [
    "Humoto.Ik.C96_elimination",
    "Humoto.Ik.C96_elimination_refused",
    "Humoto.Ik.C96_elimination_close",
    "Humoto.Ik.C96_qpoases",
    "Humoto.Ik.C96_kkt",
    "Humoto.Ik.C96_solve",
    "Humoto.Ik.C96_control",
    "Humoto.Ik.C96_run",
    "Humoto.Ik.C96_references",
    "Humoto.Ik.C96_test_001",
    "Humoto.Ik.C96_last",
    "Humoto.Ik.C96_limits",
    "Humoto.Ik.C96_fixed",
    "Humoto.Ik.C96_fixed_commands",
    "Humoto.Ik.C96_close_base",
    "Humoto.Ik.C96_close_body",
    "Humoto.Ik.C96_feasibility",
    "Humoto.Ik.C96_grid",
    "Humoto.Ik.C96_grid_test_003",
    "Humoto.Ik.C96_test_003"
   ],
   "note": "RBDL and qpOASES or the decompositions of Eigen are trusted as in C92, C83 and C43; numbers are real. With the solver for equalities nothing is known about displacements in singular coordinates (there is no exception there either, C96_kkt). The method of elimination, which test_002.cpp uses, is proved to be as good as its regularisation allows when the second level is on single variables (C96_elimination, C96_elimination_close), and to throw always otherwise (C96_elimination_refused). How close the robot is when it stops is proved for the positions of the base and of the body, with a factor which depends on the coordinates. That the loop converges is not claimed. In the code the order of the checks in test_003 allows the flag -1 although limits are violated, which does not happen with its hierarchy (C96_test_003)."
  },
  {
   "property": "C97",
   "status": "partial",
   "theorems": [
    "Humoto.Config.C97_push",
    "Humoto.Config.C97_write",
    "Humoto.Config.C97_round_trip_partial",
    "Humoto.Config.C97_same_ids_refuted",
    "Humoto.Config.C97_read",
    "Humoto.Config.C97_rejects",
    "Humoto.Config.C97_missing_lists",
    "Humoto.Config.C97_unknown",
    "Humoto.Config.C97_unknown_refuted",
    "Humoto.Config.C97_stale_ids_refuted",
    "Humoto.Config.C97_missing_section",
    "Humoto.Config.C97_wpg",
    "Humoto.Config.C97_registered",
    "Humoto.Config.C97_ik",
    "Humoto.Config.C97_mpc"
   ],
   "note": "Registries of the core, wpg04, pepper_ik and pepper_mpc are modelled (C97_registered); theorems hold for any registry. The round trip requires different descriptions, otherwise parameters are mixed up (C97_same_ids_refuted), and parameters which the format keeps (C46). A name of an unknown class leads to a null pointer instead of an exception (C97_unknown_refuted). If missing entries are allowed, the result may depend on the old contents of the object (C97_stale_ids_refuted), and a missing section leaves an object which cannot be written (C97_missing_section). Constraints of tasks are not represented, the state of the object after an exception neither."
  },
  {
   "property": "C98",
   "status": "partial",
   "theorems": [
    "Humoto.Closed.C98_measured",
    "Humoto.Closed.C98_feedback",
    "Humoto.Closed.C98_iteration",
    "Humoto.Closed.C98_constant",
    "Humoto.Closed.C98_unique",
    "Humoto.Closed.C98_run",
    "Humoto.Closed.C98_unlimited",
    "Humoto.Closed.C98_commands",
    "Humoto.Closed.C98_period",
    "Humoto.Closed.C98_yaw_partial",
    "Humoto.Closed.C98_yaw_refuted"
   ],
   "note": "RBDL, qpOASES and the solver of the inverse kinematics are trusted as in C92, C83 and C96; numbers are real. With Eigen 3.2 and 3.3 the controller sees a base which is turned to the right with the opposite yaw angle (C98_yaw_refuted, C98_yaw_partial), hence it is proved that the measured angle is the yaw angle of one of the descriptions of the orientation. Velocities and accelerations which the controller uses are its own, not measured (C98_measured states this)."
  },
  {
   "property": "C99",
   "status": "partial",
   "theorems": [
    "Humoto.C99_history",
    "Humoto.C99_recovers",
    "Humoto.C99_construct",
    "Humoto.C99_set",
    "Humoto.C99_resize",
    "Humoto.C99_resize_unknown",
    "Humoto.C99_setBlockSize",
    "Humoto.C99_has_blocks",
    "Humoto.C99_access",
    "Humoto.C99_covered",
    "Humoto.C99_out_of_range",
    "Humoto.C99_assign",
    "Humoto.C99_select_partial",
    "Humoto.C99_kronecker",
    "Humoto.C99_set_refuted",
    "Humoto.C99_setBlockSize_refuted",
    "Humoto.C99_select_refuted"
   ],
   "note": "After an exception the claim is violated: a failed set leaves a replaced matrix with old numbers of blocks (C99_set_refuted), setBlockSize may change one of the sizes only (C99_setBlockSize_refuted); the next completed operation which determines sizes repairs the object (C99_recovers). selectRowInBlocks uses the number of rows as the number of columns for sizes given at run time (C99_select_refuted). Copies of the object and views with raw memory are not represented."
  },
  {
   "property": "C100",
   "status": "partial",
   "theorems": [
    "Humoto.C100_violations",
    "Humoto.C100_places",
    "Humoto.C100_satisfied",
    "Humoto.C100_active",
    "Humoto.C100_agree",
    "Humoto.C100_mismatch",
    "Humoto.C100_exact",
    "Humoto.C100_degenerate_refuted",
    "Humoto.C100_stale_refuted",
    "Humoto.C100_copy",
    "Humoto.C100_copy_refused",
    "Humoto.C100_initFrom"
   ],
   "note": "The hierarchy must be formed, after reset uninitialised numbers are returned (C100_stale_refuted). Comparison of active sets as in regression_test_001.cpp and test_005.cpp of pepper_mpc counts bounds which are attained but are not in the active set of the solver as mismatches, which happens also when the solver is right (C100_degenerate_refuted); for exact solvers and points without such bounds there are no mismatches (C100_exact). For rows with contradictory bounds nothing is claimed about the violation."
  },
  {
   "property": "C101",
   "status": "partial",
   "theorems": [
    "Humoto.Config.C101_states",
    "Humoto.Config.C101_walking",
    "Humoto.Config.C101_feet",
    "Humoto.Config.C101_wpgMpc",
    "Humoto.Config.C101_wpgState",
    "Humoto.Config.C101_pepperMpc",
    "Humoto.Config.C101_pepperIk",
    "Humoto.Config.C101_solvers",
    "Humoto.Config.C101_solution_partial",
    "Humoto.Config.C101_kkt_partial",
    "Humoto.Config.C101_pepperRobot_effect",
    "Humoto.Config.C101_pepperRobot_partial",
    "Humoto.Config.C101_defaults_states",
    "Humoto.Config.C101_defaults_walking",
    "Humoto.Config.C101_defaults_pepper",
    "Humoto.Config.C101_consistent",
    "Humoto.Config.C101_pepperRobot_refuted",
    "Humoto.Config.C101_kkt_refuted",
    "Humoto.Config.C101_solution_refuted",
    "Humoto.Config.C101_wbc_refuted",
    "Humoto.Config.C101_solvers_refuted",
    "Humoto.Config.C101_members_refuted"
   ],
   "note": "Most classes are restored with the derived quantities (C101_states, _walking, _feet, _wpgMpc, _wpgState, _pepperMpc, _pepperIk, _solvers), in YAML for numbers with at most 15 digits (see C46). Refuted by the code: the bounds of the body of Pepper are transposed, the default ones become contradictory (C101_pepperRobot_refuted); method and regularization of the KKT solver are not stored and are reset (C101_kkt_refuted); structure and status of a solution are not stored (C101_solution_refuted); the control interval in seconds keeps the previous value if the section is missing (C101_wbc_refuted); flags of the base class of parameters of solvers and options of qpOASES are not reset to defaults (C101_solvers_refuted); missing members of states get defaults of their own class and not those of the state (C101_members_refuted). Classes RigidBodyPose and RotaryState alone are not represented; quantities which are not a number are not stored."
  },
  {
   "property": "C102",
   "status": "partial",
   "theorems": [
    "Humoto.C102_roundtrip",
    "Humoto.C102_order",
    "Humoto.C102_nearest",
    "Humoto.C102_truncated",
    "Humoto.C102_outside",
    "Humoto.C102_truncated_partial",
    "Humoto.C102_truncated_refuted",
    "Humoto.C102_timer",
    "Humoto.C102_timer_accuracy",
    "Humoto.C102_timer_nonneg"
   ],
   "note": "Truncation after conversion to seconds looses a millisecond for some numbers, the first one is 1001 (C102_truncated_refuted, computed with the rounding of binary64; C102_truncated_partial: it is the same number or the previous one). Everything else holds for every rounding which satisfies the standard model of errors (Spec.Rounding), in particular for binary64, whose rounding is defined and proved to satisfy it. Infinities are left aside."
  },
  {
   "property": "C103",
   "status": "partial",
   "theorems": [
    "Humoto.C103_threaded",
    "Humoto.C103_accepted",
    "Humoto.C103_direct",
    "Humoto.C103_direct_partial",
    "Humoto.C103_second_file_refuted",
    "Humoto.C103_lost_refuted",
    "Humoto.C103_never_refuted"
   ],
   "note": "Refuted: a logger can be given a file only once in its life, later requests throw although the file can be opened, because the first file is never closed (C103_second_file_refuted, C103_accepted is the exact condition); after such a request the logger without threads silently looses all messages (C103_lost_refuted); a threaded logger which never gets a destination looses its messages (C103_never_refuted). C103_threaded is complete, including failures; for the logger without threads C103_direct tells where every message goes and C103_direct_partial is the claim for the case that all requests succeed. Streams of the user accept everything; std::ofstream is represented by its contract."
  },
  {
   "property": "C104",
   "status": "partial",
   "theorems": [
    "Humoto.LogTree.C104_walking_run",
    "Humoto.LogTree.C104_pepper_run",
    "Humoto.LogTree.C104_entries",
    "Humoto.LogTree.C104_places",
    "Humoto.LogTree.C104_different",
    "Humoto.LogTree.C104_active_set",
    "Humoto.LogTree.C104_fsm",
    "Humoto.LogTree.C104_violations",
    "Humoto.LogTree.C104_solutions",
    "Humoto.LogTree.C104_problem",
    "Humoto.LogTree.C104_solvers",
    "Humoto.LogTree.C104_states",
    "Humoto.LogTree.C104_walking",
    "Humoto.LogTree.C104_pepper",
    "Humoto.LogTree.C104_inverse_kinematics",
    "Humoto.LogTree.C104_apostrophe_refuted",
    "Humoto.LogTree.C104_same_name_refuted",
    "Humoto.LogTree.C104_name_ignored_refuted"
   ],
   "note": "Refuted: an apostrophe in a logged string ends the string (C104_apostrophe_refuted); two objects logged with their default names are written in the same place and the first one is lost (C104_same_name_refuted, this happens in a test of pepper_mpc); the name given to the log of a hierarchy is ignored (C104_name_ignored_refuted). All other theorems have the hypothesis that descriptions do not contain apostrophes and that numbers of objects fit in size_t. Decimal digits of numbers are a parameter: any function from numbers to tokens."
  },
  {
   "property": "C105",
   "status": "partial",
   "theorems": [
    "Humoto.LogNumber.C105_nearest",
    "Humoto.LogNumber.C105_order",
    "Humoto.LogNumber.C105_legible",
    "Humoto.LogNumber.C105_timer",
    "Humoto.LogNumber.C105_stream",
    "Humoto.LogNumber.C105_digits",
    "Humoto.LogNumber.C105_parameter",
    "Humoto.LogNumber.C105_seventeen",
    "Humoto.LogNumber.C105_double_refuted",
    "Humoto.LogNumber.C105_stream_refuted"
   ],
   "note": "Refuted for doubles themselves: two different doubles have the same text with 15 digits, so that a reader does not get the logged double (C105_double_refuted; with 17 digits, as matrices are written by some versions of Eigen, it is recovered: C105_seventeen); a stream of the user in the notation std::fixed keeps it, small numbers are lost (C105_stream_refuted; C105_stream is the exact text for all other streams). What operator<< of the standard library writes is modelled from its contract (exact rounding, ties to even); infinities, not-a-number and the sign of zero are left aside."
  },
  {
   "property": "C106",
   "status": "proved",
   "theorems": [
    "Humoto.Wpg.C106_iteration",
    "Humoto.Wpg.C106_run",
    "Humoto.Wpg.C106_unique",
    "Humoto.Wpg.C106_same",
    "Humoto.Wpg.C106_outcome",
    "Humoto.Wpg.C106_completes",
    "Humoto.Wpg.C106_measures",
    "Humoto.Wpg.C106_program"
   ],
   "note": "Uniqueness needs a nonzero gain of the task on the position of the centre of pressure, and of the task on the velocity of the centre of mass unless the steps are fixed (the default hierarchies have both). The solver is qpOASES with the contract TrustedSolver (and CompleteSolver where stated); arithmetic is exact, so that the statement is about exact minima, not about rounding errors of different iterations of a solver. Zero simulations is undefined behaviour (no_simulations_undefined), the main function requires a positive number."
  },
  {
   "property": "C107",
   "status": "proved",
   "theorems": [
    "Humoto.Pepper.C107_unique",
    "Humoto.Pepper.C107_same",
    "Humoto.Pepper.C107_outcome"
   ],
   "note": "The hypotheses about the robot (ReasonableRobot: bounds up to 10^6, a body which is at least a millimetre high and not more than 1000 times lighter than the base) hold for the default state; they are used to prove that allowed motions are within the library infinity, beyond which the solver is not expected to find the minimum. The solver is qpOASES with the contract TrustedSolver (and CompleteSolver where stated); arithmetic is exact."
  },
  {
   "property": "C108",
   "status": "proved",
   "theorems": [
    "Humoto.Pepper.C108_moved",
    "Humoto.Pepper.C108_outcome",
    "Humoto.Pepper.C108_translation",
    "Humoto.Pepper.C108_mirror",
    "Humoto.Pepper.C108_quarter",
    "Humoto.Pepper.C108_andThen",
    "Humoto.Pepper.C108_computed",
    "Humoto.Pepper.C108_turns_refuted"
   ],
   "note": "The hypotheses of C107 for both robots. The necessity of the hypothesis on the bounds is shown by C108_turns_refuted: a robot which moves along an axis can not be controlled, while the same robot turned by the angle with the cosine 3/5 can."
  },
  {
   "property": "C109",
   "status": "proved",
   "theorems": [
    "Humoto.Wpg.C109_moved",
    "Humoto.Wpg.C109_outcome",
    "Humoto.Wpg.C109_plane"
   ],
   "note": "The hypotheses of C106 for both robots. Every beginning of a walk has an image under every map (image_start), the default walk is an instance. For a robot without steps the mirror gives C109_plane."
  },
  {
   "property": "C110",
   "status": "proved",
   "theorems": [
    "Humoto.Wpg.C110_capture",
    "Humoto.Wpg.C110_reports",
    "Humoto.Wpg.C110_falls",
    "Humoto.Wpg.C110_bounded",
    "Humoto.Wpg.C110_unprotected"
   ],
   "note": "The solver is qpOASES with the contract TrustedSolver (and CompleteSolver in C110_unprotected); arithmetic is exact. That the iterations always find a motion is not claimed: C110_reports and C110_unprotected show when they do not. The bound on the position holds after the first iteration, before it the robot may be anywhere."
  },
  {
   "property": "C111",
   "status": "proved",
   "theorems": [
    "Humoto.Wpg.C111_continues",
    "Humoto.Wpg.C111_when",
    "Humoto.Wpg.C111_last",
    "Humoto.Wpg.C111_lost_refuted"
   ],
   "note": "The solver is qpOASES with the contracts TrustedSolver and CompleteSolver; arithmetic is exact. The turn of the feet in a step must not change between iterations. C111_lost_refuted shows that the condition on transitions is necessary: feasibility of the walk as a whole is not preserved by the program. That the first iteration finds a motion is not claimed."
  },
  {
   "property": "C112",
   "status": "proved",
   "theorems": [
    "Humoto.Wpg.C112_state",
    "Humoto.Wpg.C112_between",
    "Humoto.Wpg.C112_reported"
   ],
   "note": "The solver is qpOASES with the contract TrustedSolver; arithmetic is exact. The turn must not change in a transition: the code computes the orientation of the region for the centre of pressure from the current turn, although the foot has landed with the turn of the preceding iteration. The initial double support must have parallel feet: the region is a rectangle with the mean orientation."
  },
  {
   "property": "C113",
   "status": "proved",
   "theorems": [
    "Humoto.Pepper.C113_reported",
    "Humoto.Pepper.C113_base",
    "Humoto.Pepper.C113_cop",
    "Humoto.Pepper.C113_parts",
    "Humoto.Pepper.C113_parts_reported",
    "Humoto.Pepper.C113_relative",
    "Humoto.Pepper.C113_uniform",
    "Humoto.Pepper.C113_sharp"
   ],
   "note": "The solver is qpOASES with the contract TrustedSolver; arithmetic is exact. For the centre of pressure iterations must advance by whole intervals; the bounds on the base hold after the first iteration (for parts of intervals: if they hold at the beginning), the bound on the centre of pressure after the second one, or after the first one for default masses, as in C87. The position of the body in the frame of the base is not considered."
  },
  {
   "property": "C114",
   "status": "proved",
   "theorems": [
    "Humoto.Wpg.C114_placed",
    "Humoto.Wpg.C114_apart",
    "Humoto.Wpg.C114_uncrossed",
    "Humoto.Wpg.C114_default"
   ],
   "note": "The solver is qpOASES with the contract TrustedSolver; arithmetic is exact. Only feet on the ground are considered: the trajectory of the foot in the air is not a part of the model of the walk. Room for the soles is a hypothesis on parameters, the code does not check it (RoomForTurn); C114_default shows that it holds for the default parameters."
  },
  {
   "property": "C115",
   "status": "proved",
   "theorems": [
    "Humoto.Wpg.C115_formed",
    "Humoto.Wpg.C115_levels",
    "Humoto.Wpg.C115_unsatisfiable",
    "Humoto.Wpg.C115_infeasible",
    "Humoto.Wpg.C115_program"
   ],
   "note": "The solver is qpOASES with the contract TrustedSolver (it returns only solutions), with default parameters; for three levels nothing is assumed of the solver. Arithmetic is exact. Histories in which a solution is processed do not exist for these hierarchies and are not considered."
  },
  {
   "property": "C116",
   "status": "proved",
   "theorems": [
    "Humoto.Wpg.C116_quadprog",
    "Humoto.Wpg.C116_quadprog_thrown",
    "Humoto.Wpg.C116_quadprog_completes",
    "Humoto.Wpg.C116_quadprog_same",
    "Humoto.Wpg.C116_quadprog_apart",
    "Humoto.Wpg.C116_quadprog_balanced",
    "Humoto.Wpg.C116_qpmad",
    "Humoto.Wpg.C116_qpmad_thrown",
    "Humoto.Wpg.C116_qpmad_completes",
    "Humoto.Wpg.C116_qpmad_same",
    "Humoto.Wpg.C116_qpmad_apart",
    "Humoto.Wpg.C116_qpmad_balanced"
   ],
   "note": "Trusted: QuadProg++ and qpmad return only minima when they report success (TrustedQuadProg, TrustedQpmad), and, where it is said, they solve all problems which have a solution. Regularization is switched off, as by default; the gains on the position and the velocity of the centre of pressure are not zero, so that the matrix is positive definite. Arithmetic is exact. eiquadprog and LexLS are not modelled."
  },
  {
   "property": "C117",
   "status": "proved",
   "theorems": [
    "Humoto.Pepper.C117_quadprog",
    "Humoto.Pepper.C117_quadprog_thrown",
    "Humoto.Pepper.C117_quadprog_same",
    "Humoto.Pepper.C117_quadprog_reaches",
    "Humoto.Pepper.C117_quadprog_safe",
    "Humoto.Pepper.C117_quadprog_cop",
    "Humoto.Pepper.C117_quadprog_parts",
    "Humoto.Pepper.C117_qpmad",
    "Humoto.Pepper.C117_qpmad_thrown",
    "Humoto.Pepper.C117_qpmad_same",
    "Humoto.Pepper.C117_qpmad_reaches",
    "Humoto.Pepper.C117_qpmad_safe",
    "Humoto.Pepper.C117_qpmad_cop",
    "Humoto.Pepper.C117_qpmad_parts"
   ],
   "note": "Trusted: QuadProg++ and qpmad return only minima when they report success (TrustedQuadProg, TrustedQpmad), and, where it is said, they solve all problems which have a solution. Regularization is switched off, as by default; the gains on jerks are not zero, so that the matrix is positive definite. The comparison with qpOASES is for robots with bounds, masses and heights far from the library infinity (ReasonableRobot). Arithmetic is exact. Timers and the reference solution of the test are not modelled."
  },
  {
   "property": "C118",
   "status": "partial",
   "theorems": [
    "Humoto.Ik.C118_command",
    "Humoto.Ik.C118_rotation_partial",
    "Humoto.Ik.C118_follows_partial",
    "Humoto.Ik.C118_straight",
    "Humoto.Ik.C118_follows_refuted",
    "Humoto.Ik.C118_wheels_refuted"
   ],
   "note": "The position of the base and the joint angles are followed exactly, the yaw angle only up to the sum of cubes of turns divided by six, because the commanded rotation is the sine of the turn (C118_follows_refuted); turns by multiples of half of the circle are not noticed by the check of the wheels (C118_wheels_refuted). Assumed: the base, the link base_footprint, is the root of the planar model (BaseIsRoot); angles and positions are finite."
  },
  {
   "property": "C119",
   "status": "partial",
   "theorems": [
    "Humoto.C119_accepts",
    "Humoto.C119_dense",
    "Humoto.C119_other_partial",
    "Humoto.C119_rows",
    "Humoto.C119_index_refuted",
    "Humoto.C119_offset_refuted"
   ],
   "note": "Exact for constraints on all variables; for simple constraints with indices in range and constraints on a part of the variables with an offset which is not negative. Other indices and offsets are accepted and lead to reading outside of the vector (C119_index_refuted, C119_offset_refuted)."
  },
  {
   "property": "C120",
   "status": "partial",
   "theorems": [
    "Humoto.Performance.C120_average_partial",
    "Humoto.Performance.C120_failure",
    "Humoto.Performance.C120_none_refuted",
    "Humoto.Performance.C120_length_refuted"
   ],
   "note": "The means are proved for at least one simulation and simulations with equal numbers of iterations. Without simulations an element of an empty vector is read (C120_none_refuted); with different numbers of iterations matrices of different sizes are added (C120_length_refuted). Simulations and timers are inputs of the model."
  }
 ]
}