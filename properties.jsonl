{"id": "C01", "title": "Location bounds check cannot be fooled by wrap-around", "statement": "Location(offset, length).checkLength(max) returns true exactly when offset + length, added as unbounded integers, does not exceed max. In particular a sum that wraps around size_t is rejected.", "quantifier": "all 64-bit offsets, lengths and maxima", "why_tests_cant": "The domain has 2^192 points and the interesting ones sit at the wrap-around boundary.", "anchors": ["core/include/humoto/utility.h: Location::checkLength, Location::end"]}
{"id": "C02", "title": "Shifting an active set moves every entry and pads the tail", "statement": "For an active set of size n and k < n, shift(k, type) keeps the size, entry i becomes the old entry i+k for i < n-k, and the last k entries become type. For k >= n it throws and changes nothing.", "quantifier": "all sizes, contents, shifts and padding types", "why_tests_cant": "Sizes and contents are unbounded.", "anchors": ["core/include/humoto/active_set.h: ActiveSetConstraints::shift"]}
{"id": "C03", "title": "Copying a part of an active set in and out is lossless and local", "statement": "copyTo(location, part) followed by reading the same location back yields part, and every entry outside the location is unchanged. A location that does not fit is rejected with an exception, never written out of range.", "quantifier": "all active sets, parts and locations", "why_tests_cant": "Out of range writes are only visible for particular combinations of lengths and offsets.", "anchors": ["core/include/humoto/active_set.h: ActiveSetConstraints::copyTo, copyFrom, initialize(other, location)"]}
{"id": "C04", "title": "Active inequality count", "statement": "countActiveInequalities returns the number of entries that are LOWER_BOUND or UPPER_BOUND; it never counts equalities, inactive or undefined entries, and it is additive over concatenated parts.", "quantifier": "all active sets", "why_tests_cant": "Unbounded sizes.", "anchors": ["core/include/humoto/active_set.h: ActiveSetConstraints::countActiveInequalities"]}
{"id": "C05", "title": "Active set determination classifies every row correctly", "statement": "For each row of a task and each point x, the reported activation is EQUALITY iff the row is an equality, LOWER_BOUND iff the product is at or below the lower bound, UPPER_BOUND iff it is at or above the upper bound and INACTIVE iff it is strictly between them; UNDEFINED is reported iff the bounds contradict each other.", "quantifier": "all bound kinds, row counts, matrices, bounds and points", "why_tests_cant": "The classification depends on real-valued comparisons, boundaries included.", "anchors": ["core/include/humoto/constraints_mixins.h: ActiveSetConstraints determination mixins", "core/include/humoto/hierarchy_level.h: determineActiveSet"]}
{"id": "C06", "title": "Violation is zero exactly on satisfied rows and otherwise is the signed distance to the violated bound", "statement": "For a row with lower bound lb and upper bound ub, lb <= ub, the violation at x is 0 iff lb <= a.x <= ub, it is a.x - lb < 0 when a.x < lb and a.x - ub > 0 when a.x > ub. One-sided and equality rows follow the same law with the missing bound absent.", "quantifier": "all bound kinds, row counts and points", "why_tests_cant": "Real-valued input space including boundary points.", "anchors": ["core/include/humoto/violations.h: ViolationsConstraints::set", "core/include/humoto/constraints_mixins.h: computeViolations mixins"]}
{"id": "C07", "title": "Rows of a level: general tasks first, contiguous, disjoint and complete", "statement": "Whatever tasks are pushed to a level and in whatever order, forming the level gives each task a block of rows such that all general (non-simple) tasks occupy the first rows, all simple tasks follow, blocks are disjoint, consecutive, and cover exactly 0..total-1; the totals reported by the counters equal the sums over the tasks of the respective kind.", "quantifier": "all sequences of pushed tasks, all kinds and sizes", "why_tests_cant": "Push order, task kinds and sizes form an unbounded history.", "anchors": ["core/include/humoto/hierarchy_level.h: pushTask, form, getNumberOf*Constraints"]}
{"id": "C08", "title": "Two-sided container of a level describes the same feasible set as its tasks", "statement": "The single general/two-sided container lb <= A x <= ub assembled from a level is satisfied by a point x with no row beyond the library infinity iff every task of the level is satisfied at x.", "quantifier": "all levels (any number, kinds and sizes of tasks), all points", "why_tests_cant": "Every combination of 20 task kinds, sizes and orders, and every real point.", "anchors": ["core/include/humoto/hierarchy_level.h: getAllConstraints, getGeneralConstraints", "core/include/humoto/constraints_base.h: ContainerALU, CopyAnyToALU", "core/include/humoto/constraints_mixins.h: copy*"]}
{"id": "C09", "title": "Equality plus one-sided inequality containers describe the same feasible set as the tasks", "statement": "Splitting a level in equalities A x = b and inequalities A x >= lb keeps exactly the set of points satisfying all tasks of the level, including upper bounds which are negated and two-sided tasks which are doubled.", "quantifier": "all levels and all points", "why_tests_cant": "Every combination of task kinds, sizes and orders, and every real point.", "anchors": ["core/include/humoto/hierarchy_level.h: getEqualityConstraints, getInequalityConstraints", "core/include/humoto/constraints_base.h: CopyEqualityToAB, CopyLowerInequalityToAL, CopyUpperInequalityToAL, CopyTwoSidedInequalityToAL"]}
{"id": "C10", "title": "Variable bounds computed from simple constraints are the tightest ones", "statement": "Bounds per variable computed from simple constraints are, for every variable, the largest lower bound and the smallest upper bound over all rows which mention it (clamped to the library infinity); an exception is raised iff some variable gets lower > upper; without simple constraints no bounds are produced.", "quantifier": "all lists of simple constraints and all variables", "why_tests_cant": "Unbounded lists; several rows may address the same variable in any order.", "anchors": ["core/include/humoto/constraints_base.h: ContainerILU::initializeSolutionBounds"]}
{"id": "C11", "title": "Objective assembled from a level is the sum of squared residuals", "statement": "For a level made of equality tasks (AB, AB0, ASB, ASB0, GIB, GIB0, IB0) the Hessian H and gradient g handed to a QP solver satisfy 1/2 x'Hx + g'x + const = 1/2 sum over tasks of |A x - b|^2 for every x, reading only the triangle which is documented as initialised.", "quantifier": "all task lists, sizes, values and points", "why_tests_cant": "Unbounded sizes and real values; the dense, selection and weighted-selection code paths must agree.", "anchors": ["core/include/humoto/hierarchy_level.h: getObjective", "core/include/humoto/qp_problem.h: QPObjective::initializeObjective", "core/include/humoto/constraints.h: getATAandATb", "core/include/humoto/constraints_mixins.h: addATA, addATb, getATA, getATb"]}
{"id": "C12", "title": "QP built from a hierarchy uses the right levels", "statement": "A hierarchy with one level gives an unconstrained least squares objective from this level; with two levels, the first gives constraints and the second the objective; any other number of levels is rejected.", "quantifier": "all hierarchies", "why_tests_cant": "Unbounded number of levels and tasks.", "anchors": ["core/include/humoto/hierarchy.h: OptimizationProblem::getQPProblem"]}
{"id": "C13", "title": "Active set distribution is inverse to active set collection", "statement": "Distributing a hierarchy active set to the tasks and collecting the task guesses back through the same locations reproduces it; each task sees exactly the entries of its own rows.", "quantifier": "all hierarchies and active sets of matching size", "why_tests_cant": "Histories of pushes, forms and guesses are unbounded.", "anchors": ["core/include/humoto/hierarchy_level.h: processActiveSet, initializeActiveSet", "core/include/humoto/task.h: copyActualActiveSetFrom, copyActiveSetGuessTo"]}
{"id": "C14", "title": "An active set guess is used only when it matches the task", "statement": "guessActiveSet followed by form never lets a guess of wrong size reach a solver: either the guess has one entry per row, or an exception is raised.", "quantifier": "all tasks, previous active sets and row counts", "why_tests_cant": "Depends on the history of previous row counts and guesses.", "anchors": ["core/include/humoto/task.h: TaskBase::guessActiveSet, preForm, postForm, copyActiveSetGuessTo"]}
{"id": "C15", "title": "Solution structure parts are disjoint and cover the decision vector", "statement": "After any sequence of addSolutionPart with distinct ids, every part has a location of the requested length, locations are pairwise disjoint and consecutive, and together cover exactly the number of variables; unknown ids yield an empty location.", "quantifier": "all sequences of additions", "why_tests_cant": "Unbounded histories.", "anchors": ["core/include/humoto/solution.h: SolutionStructure::addSolutionPart, getSolutionPartLocation, getNumberOfVariables"]}
{"id": "C16", "title": "Warm start copies parts by name", "statement": "Initialising a solution guess from an old solution copies, for each part id present in both with equal length, the old values; all other variables are zero.", "quantifier": "all pairs of structures and old solutions", "why_tests_cant": "Unbounded histories, reorderings and resized parts.", "anchors": ["core/include/humoto/solution.h: Solution::initialize(structure, old)"]}
{"id": "C17", "title": "A solver result is accepted only if it solved the problem", "statement": "Whichever overload of solve is called: with crash_on_any_failure set it returns normally only if the solver reported the status OK and raises an exception otherwise; without the flag the status of the solver is found in the solution. The parameters given to one call stay in force for later calls. The solution guess and the active set guess are used, and the active set is read back, exactly by the overloads which take them, in the order check, initialise, guess, active set, solve, check of the status, reading of the active set.", "quantifier": "all solver statuses, parameter settings and pipelines", "why_tests_cant": "All combinations of flags, statuses and pipeline stages.", "anchors": ["core/include/humoto/solver.h: Solver::checkResults, solve"]}
{"id": "C18", "title": "QP solvers reject hierarchies they cannot represent", "statement": "A QP solver bridge accepts a hierarchy iff treating two levels as a QP is enabled, the hierarchy has one or two levels, and all rows of the objective level (the last one) come from equality tasks; everything else raises an exception before solving.", "quantifier": "all hierarchies", "why_tests_cant": "Unbounded number of levels and tasks.", "anchors": ["core/include/humoto/solver.h: QPSolverMixin::checkInputs"]}
{"id": "C19", "title": "Condensing reproduces the state recursion", "statement": "For x(k+1) = A(k) x(k) + B(k) u(k), the condensed matrices S, U give S x(0) + U u = (x(1), ..., x(N)) for every horizon length, initial state and control sequence; dense and block variants agree.", "quantifier": "all horizons N >= 1, dimensions, matrices, initial states and controls", "why_tests_cant": "Unbounded horizon and dimensions.", "anchors": ["core/include/humoto/control_problem.h: condense (both overloads)"]}
{"id": "C20", "title": "Condensing the output reproduces the output recursion", "statement": "For y(k) = D(k) x(k) + E(k) u(k), the condensed output matrices give (y(0), ..., y(N-1)) exactly, in every overload (single matrix, block matrix, vector of matrices).", "quantifier": "all horizons, dimensions, matrices, states and controls", "why_tests_cant": "Unbounded horizon; an error in one block only shows for particular horizon lengths.", "anchors": ["core/include/humoto/control_problem.h: condenseOutput (three overloads)"]}
{"id": "C21", "title": "Time invariant condensing equals the general one", "statement": "condenseTimeInvariant(A, B, N) gives the same matrices as condensing the N times repeated pair, for every N >= 1.", "quantifier": "all horizons N >= 1, matrices", "why_tests_cant": "Unbounded horizon.", "anchors": ["core/include/humoto/control_problem.h: condenseTimeInvariant"]}
{"id": "C22", "title": "Stance sequence is a legal walk", "statement": "Every stance produced by the finite state machine after finalize alternates single supports through transitional double supports, never repeats the same single support side twice in a row, starts with the initial and ends with the terminal double support and never leaves the terminal one.", "quantifier": "all accepted parameter sets and all numbers of transitions", "why_tests_cant": "Unbounded histories.", "anchors": ["core/include/walking/stance_finite_state_machine.h: StanceFSMParameters::finalize, StanceFiniteStateMachine::shiftStance, getNextStance"]}
{"id": "C23", "title": "Number of single supports equals the requested number of steps", "statement": "From an initial double support exactly num_steps single supports are visited before the terminal double support; starting in a single support, exactly num_steps more are visited after the current one.", "quantifier": "all numbers of steps and admissible first stances", "why_tests_cant": "Unbounded number of steps.", "anchors": ["core/include/walking/stance_finite_state_machine.h: shiftStance"]}
{"id": "C24", "title": "Time shift is additive and conserves time", "statement": "shiftTime(a) followed by shiftTime(b) leads to the same stance, steps left and remaining time as shiftTime(a+b); the elapsed time always equals the durations of completed stances plus the consumed part of the current one; shiftTime returns for every argument.", "quantifier": "all accepted parameters, states and time increments", "why_tests_cant": "Unbounded histories of increments.", "anchors": ["core/include/walking/stance_finite_state_machine.hcore/include/walking/stance_finite_state_machine.h: shiftTime"]}
{"id": "C25", "title": "Stance preview covers exactly the requested duration", "statement": "previewStances(d) lists consecutive stances of the walk beginning with the current one, the previewed durations add up to d unless the walk ends earlier, and the preview does not change the machine.", "quantifier": "all accepted parameters, states and durations", "why_tests_cant": "Unbounded horizon.", "anchors": ["core/include/walking/stance_finite_state_machine.h: previewStances"]}
{"id": "C26", "title": "Triple integrator variants describe the same motion", "statement": "For every time step T > 0 the jerk, acceleration, velocity and position controlled discretisations agree: feeding the velocity (acceleration, position) reached under a constant jerk reproduces the same next state, and D x + E u recovers the jerk.", "quantifier": "all T > 0, states and controls", "why_tests_cant": "Real-valued input space.", "anchors": ["core/include/rigid_body/triple_integrator.h: getAJerk, getBJerk, getAAcc, getBAcc, getAVel, getBVel, getAPos, getBPos, getD*, getE*"]}
{"id": "C27", "title": "Triple integrator steps compose", "statement": "Integrating a constant jerk for T1 and then T2 equals integrating for T1+T2; the result equals the polynomial p + v T + a T^2/2 + j T^3/6 and its derivatives.", "quantifier": "all T1, T2, states and jerks", "why_tests_cant": "Real-valued input space.", "anchors": ["core/include/rigid_body/triple_integrator.h: getAJerk, getBJerk"]}
{"id": "C28", "title": "Subsampled integrator is consistent with the full step", "statement": "The subsampled matrices for (T, Ts) give the state at Ts of the motion that reaches the commanded value at T; with Ts = T they equal the unsubsampled matrices.", "quantifier": "all T > 0, Ts, states and controls", "why_tests_cant": "Real-valued input space.", "anchors": ["core/include/rigid_body/triple_integrator.h: getAsVel, getBsVel, getAsAcc, getBsAcc, getAsPos, getBsPos"]}
{"id": "C29", "title": "Cubic interpolation meets its boundary conditions", "statement": "A cubic polynomial initialised with end values (and end velocities) attains exactly these values and velocities at 0 and 1; scaling maps a set of time points, which are not all equal, onto [0, 1] so that the evaluation accepts them; reported velocity and acceleration are the derivatives of the reported position.", "quantifier": "all boundary values and evaluation times", "why_tests_cant": "Real-valued input space.", "anchors": ["core/include/rigid_body/cubic_polynomial.h: initialize (both), getFirst*, getSecond*, scale"]}
{"id": "C30", "title": "Foot trajectory starts and ends at the requested states and its velocity is the derivative of its position", "statement": "For every start, end and step height, the trajectory is at the start (end) position with zero velocity at time 0 (1), reaches the step height in the middle, and reported velocity/acceleration are first/second time derivatives of the position.", "quantifier": "all initial and final states, heights and times", "why_tests_cant": "Real-valued input space.", "anchors": ["core/include/walking/foot_trajectory.h: FootTrajectory::initialize, eval*"]}
{"id": "C31", "title": "Foot position and double support position conversions are mutually inverse", "statement": "Converting a double support centre to a foot position and back (and in the other order) is the identity for both feet and every orientation; the distance between feet equals the default feet distance.", "quantifier": "all positions, orientations and foot parameters", "why_tests_cant": "Real-valued input space including all angles.", "anchors": ["core/include/walking/robot_foot_parameters.h: getFootPositionFromADS, getADSPositionFromFoot"]}
{"id": "C32", "title": "Foot position bounds are symmetric and well ordered", "statement": "Left and right bounds are mirror images with lower <= upper in every coordinate whenever the parameters are ordered, and the nominal position lies inside.", "quantifier": "all parameter values accepted by finalize", "why_tests_cant": "Real-valued parameter space.", "anchors": ["core/include/walking/robot_foot_parameters.h: RobotFootParameters::finalize, getFootPositionBounds"]}
{"id": "C33", "title": "Cross product matrix", "statement": "CrossProductMatrix(v) * w equals v x w, is skew symmetric and annihilates v.", "quantifier": "all vectors", "why_tests_cant": "Real-valued input space.", "anchors": ["core/include/eigentools/cross_product.h: CrossProductMatrix"]}
{"id": "C34", "title": "Rotations built from angles stay rotations", "statement": "Rotation matrices produced from roll-pitch-yaw angles and by integrating an angular velocity are orthogonal with determinant one; integration with zero velocity is the identity; roll-pitch-yaw extraction inverts construction away from the singularity.", "quantifier": "all angles, velocities and durations", "why_tests_cant": "Real-valued input space including singular angles.", "anchors": ["core/include/rigid_body/rotary_state.h", "core/include/walking/*"]}
{"id": "C35", "title": "Walking point mass model: state conversions and ZMP control are consistent", "statement": "Converting between CoM state and the ZMP based state is lossless, and commanding a ZMP for one step results in exactly this ZMP.", "quantifier": "all heights, time steps, states and controls", "why_tests_cant": "Real-valued input space.", "anchors": ["core/include/walking/point_mass_model_6z.h"]}
{"id": "C36", "title": "Implicit Kronecker product multiplies like the explicit one", "statement": "Multiplying by an implicit block Kronecker identity product (with and without the permutation) equals multiplying by the evaluated matrix, for every number of blocks and block size.", "quantifier": "all block counts, block sizes, identity sizes, values", "why_tests_cant": "Unbounded dimensions.", "anchors": ["core/include/eigentools/blockmatrix_kronecker.h: evaluate, multiplyRight", "core/include/eigentools/eigentools.h: multiplyBlockKroneckerIdentity"]}
{"id": "C37", "title": "Block diagonal products equal dense products", "statement": "multiplyLeft and multiplyRight of block diagonal matrices equal the dense products.", "quantifier": "all block counts, sizes and values", "why_tests_cant": "Unbounded dimensions.", "anchors": ["core/include/eigentools/blockmatrix_base.h: multiplyLeft, multiplyRight"]}
{"id": "C38", "title": "Block diagonal assembly", "statement": "makeBlockDiagonal places every input block on the diagonal, zero elsewhere, for inputs of any shape; sizes are sums of sizes.", "quantifier": "all lists of matrices", "why_tests_cant": "Unbounded lists.", "anchors": ["core/include/eigentools/eigentools.h: makeBlockDiagonal"]}
{"id": "C39", "title": "Concatenation keeps all non-empty inputs", "statement": "Vertical (horizontal) concatenation stacks all non-empty inputs in order, empty inputs are ignored wherever they appear, and mismatching sizes are rejected.", "quantifier": "all lists of matrices including empty ones", "why_tests_cant": "Unbounded lists; failures depend on the placement of empty inputs.", "anchors": ["core/include/eigentools/eigentools.h: concatenateMatricesVertically, concatenateMatricesHorizontally"]}
{"id": "C40", "title": "Row and column removal", "statement": "removeRow(i) (removeColumn(i)) deletes exactly row (column) i and keeps the order of the others for every valid index, and rejects every invalid index.", "quantifier": "all matrices and indices", "why_tests_cant": "Unbounded dimensions; error only at boundary indices or non-square shapes.", "anchors": ["core/include/eigentools/eigentools.h: removeRow, removeColumn"]}
{"id": "C41", "title": "Selection matrices select rows", "statement": "selectRows / SelectionMatrix produce exactly the requested rows: every k-th row with offset.", "quantifier": "all matrices, steps and offsets", "why_tests_cant": "Unbounded dimensions.", "anchors": ["core/include/eigentools/eigentools.h: selectRows, SelectionMatrix"]}
{"id": "C42", "title": "Gram matrices", "statement": "getATA / addATA give A'A (only the documented triangle is promised), offset variants put it at the requested place and keep the rest; converting a lower triangle to a symmetric matrix gives the symmetric A'A.", "quantifier": "all matrices and offsets", "why_tests_cant": "Unbounded dimensions.", "anchors": ["core/include/eigentools/eigentools.h: getATA, addATA, convertLLTtoSymmetric"]}
{"id": "C43", "title": "KKT solver returns the constrained minimiser", "statement": "Whenever the KKT solver succeeds, the returned point satisfies A x = b and minimises 1/2 x'Hx + g'x among all points satisfying A x = b; direct and elimination variants agree.", "quantifier": "all positive definite H, full rank A, vectors", "why_tests_cant": "Real-valued input space, unbounded dimensions.", "anchors": ["core/include/kktsolver.h: solveWithElimination, solveDirect"]}
{"id": "C44", "title": "Threaded logger writes every message once and in order", "statement": "Every message logged before shutdown of a running logger (one which has been given a stream) is requested is written exactly once and in logging order before shutdown returns, whatever the interleaving of the producers and the writer thread; shutdown does return; the queue is never accessed by two threads at once or read when empty.", "quantifier": "all message sequences and all schedules", "why_tests_cant": "Unbounded number of interleavings.", "anchors": ["core/include/humoto/logger.h: Logger::pushMessage, processQueue, interrupt, initialize"]}
{"id": "C45", "title": "Log entry names identify the path", "statement": "Adding components builds the dot separated path; different lists of non-empty dot-free components give different names; vectors are written with all their elements in order.", "quantifier": "all component lists and vectors", "why_tests_cant": "Unbounded lists.", "anchors": ["core/include/humoto/logger.h: OctaveFormatter::appendEntryName, LogEntryName::add, formatAndOutputEntry"]}
{"id": "C46", "title": "Configuration round trip", "statement": "Writing a configurable object and reading it back with the same description restores every scalar, vector and nested entry, for every tree of entries.", "quantifier": "all entry trees and values", "why_tests_cant": "Unbounded nesting and sizes.", "anchors": ["core/include/config.h: readNestedConfig, writeNestedConfig", "core/include/config/define_accessors.h", "bridges/config_yaml", "bridges/config_msgpack"]}
{"id": "C47", "title": "Configuration round trip of matrices", "statement": "Writing a matrix and reading it back restores it.", "quantifier": "all matrices", "why_tests_cant": "Failures depend on shape and symmetry.", "anchors": ["bridges/config_yaml/interface/config_yaml/reader.h: readCompound", "bridges/config_yaml/interface/config_yaml/writer.h: writeCompound", "bridges/config_msgpack/interface/config_msgpack/reader.h: readCompound", "bridges/config_msgpack/interface/config_msgpack/writer.h: writeCompound"]}
{"id": "C48", "title": "Missing entries: strict reading throws, relaxed reading keeps the defaults", "statement": "Reading a configuration in which entries are missing raises an exception in the strict mode; in the relaxed mode each missing entry has its default and each present entry has the stored value.", "quantifier": "all entry trees and all subsets of missing entries", "why_tests_cant": "Exponentially many subsets.", "anchors": ["core/include/config.h: readNestedConfig, readConfigEntries"]}
{"id": "C49", "title": "qpOASES active set mapping", "statement": "The active set reported by the qpOASES bridge marks a row active only if its bound is the one in force; feeding a reported active set back as the initial guess restores the solver working set.", "quantifier": "all levels, working sets and bounds", "why_tests_cant": "Several rows may share a variable; unbounded sizes.", "anchors": ["bridges/qpOASES/interface/qpoases/solver.h: getActiveSet, setActiveSet"]}
{"id": "C50", "title": "QuadProg++ problem translation", "statement": "The matrices passed to QuadProg++ (CE'x + ce0 = 0, CI'x + ci0 >= 0) describe the same feasible set as the level.", "quantifier": "all levels and points", "why_tests_cant": "Unbounded sizes and real points.", "anchors": ["bridges/QuadProgpp/interface/quadprogpp/solver.h: solveHierarchy"]}
{"id": "C51", "title": "wpg04 preview horizon is filled and consistent with the walk", "statement": "When forming the horizon succeeds all N intervals are assigned to a support state in walk order, interval durations are positive, and their starts follow the previewed stances.", "quantifier": "all accepted parameters, walk states and horizon lengths", "why_tests_cant": "Unbounded histories.", "anchors": ["modules/wpg04/include/wpg04/preview_horizon.h: form, previewStates"]}
{"id": "C52", "title": "wpg04 matrices are indexed in range", "statement": "For each horizon that is formed successfully, building the rotation and foot position matrices never indexes outside of them.", "quantifier": "all horizons", "why_tests_cant": "Depends on how the horizon end is aligned with stances.", "anchors": ["modules/wpg04/include/wpg04/mpc_wpg.h: formRotationMatrices, formFootPosMatrices"]}
{"id": "C53", "title": "wpg04 model update accepts every legal stance change", "statement": "Updating the model with successive stances of any walk never throws and yields the support position determined by the feet.", "quantifier": "all walks and feet positions", "why_tests_cant": "Unbounded histories.", "anchors": ["modules/wpg04/include/wpg04/model.h: updateState, determineSupportPosition"]}
{"id": "C54", "title": "Control problem results can be queried only after a solution is parsed", "statement": "Queries of the next state throw until a solution is parsed, parsing enables them, and update disables them again.", "quantifier": "all call sequences", "why_tests_cant": "Unbounded call histories.", "anchors": ["modules/wpg04/include/wpg04/mpc_wpg.h: getNextModelState, parseSolution, update"]}
{"id": "C55", "title": "wpg04 MPC parameters", "statement": "Parameters are accepted iff sampling time is a multiple of the subsampling time and the other divisibility conditions hold.", "quantifier": "all parameter values", "why_tests_cant": "Integer domain.", "anchors": ["modules/wpg04/include/wpg04/common.h: MPCParameters::finalize"]}
{"id": "C56", "title": "Motion queue shift conserves time", "statement": "Shifting a queue of motions by t removes exactly t milliseconds from its front, never turns a finite motion in an unlimited one, keeps unlimited motions, and is additive.", "quantifier": "all queues and shifts", "why_tests_cant": "Unbounded queues.", "anchors": ["modules/pepper_mpc/include/pepper_mpc/mpc_mg.h: shift (both)"]}
{"id": "C57", "title": "Pepper preview horizon is formed iff the motions last long enough", "statement": "Forming a preview horizon of N > 0 intervals of length T > 0 from a queue of motions succeeds iff the durations add up to at least N*T (an unlimited motion counts as infinite), and interval i uses the motion which is in force at the end of the interval.", "quantifier": "all queues, N, T", "why_tests_cant": "Unbounded queues; remainders carry over.", "anchors": ["modules/pepper_mpc/include/pepper_mpc/preview_horizon.h: form (both)"]}
{"id": "C58", "title": "Interval lookup by time offset", "statement": "getIntervalIndexByTimeOffset returns the interval that contains the given offset, for every horizon, and fails iff the offset is outside of the horizon.", "quantifier": "all horizons and offsets", "why_tests_cant": "Boundary offsets, unbounded horizons.", "anchors": ["modules/pepper_mpc/include/pepper_mpc/preview_horizon.h: getIntervalIndexByTimeOffset"]}
{"id": "C59", "title": "Pepper: state queried at a later time is the predicted state", "statement": "getModelState(t) for t in interval i is the state obtained from the predicted state at the start of the interval and the controls of interval i.", "quantifier": "all solutions, intervals and offsets", "why_tests_cant": "Only fails for later intervals with changing controls.", "anchors": ["modules/pepper_mpc/include/pepper_mpc/mpc_mg.h: getModelState"]}
{"id": "C60", "title": "Pepper: CoP formula", "statement": "The reported centre of pressure equals the mass weighted formula relative to the base position: the sum over both masses of m_i (c_i - h_i a_i / g) divided by the total mass, minus the base position.", "quantifier": "all masses, heights, states", "why_tests_cant": "Real-valued input space.", "anchors": ["modules/pepper_mpc/include/pepper_mpc/two_point_mass_model.h: getDps3, getDpd3", "modules/pepper_mpc/include/pepper_mpc/model.h: getCoP"]}
{"id": "C61", "title": "Box bounds of Pepper lie in the physical disc", "statement": "Each point within the computed square CoP / velocity / acceleration bounds has Euclidean norm not greater than the respective radius, and the corners attain it.", "quantifier": "all radii and points", "why_tests_cant": "Real-valued input space.", "anchors": ["core/include/humoto/utility.h: getEncircledSquareSide", "modules/pepper_mpc/include/pepper_mpc/common.h: RobotParameters::finalize"]}
{"id": "C62", "title": "Pepper IK: desired tag pose", "statement": "For constant local velocity the desired position of a tag after one control interval is its position plus the interval times its linear velocity expressed in the global frame.", "quantifier": "all poses and velocities", "why_tests_cant": "Real-valued input space.", "anchors": ["modules/pepper_ik/include/pepper_ik/whole_body_controller.h: computeTagsDesiredPoseInGlobal, getTagVelocityInGlobal"]}
{"id": "C63", "title": "Pepper IK: joint limits", "statement": "checkJointPositions, checkJointVelocities and checkWheelVelocities throw iff some component is outside of its limits (with the documented tolerance for positions).", "quantifier": "all vectors and limits", "why_tests_cant": "Real-valued input space.", "anchors": ["modules/pepper_ik/include/pepper_ik/model.h: Model::Constraints"]}
{"id": "C64", "title": "Task on zero variables", "statement": "After forming, a TaskZeroVariables penalises exactly the variables of its solution part with its current gain.", "quantifier": "all histories of structures and gain changes", "why_tests_cant": "Depends on history of forms.", "anchors": ["core/include/humoto/task_generic.h: TaskZeroVariables::form"]}
{"id": "C65", "title": "Configuration reader can be reused", "statement": "A reader can be used to read several objects one after another: after a successful reading, and after an exception which was thrown because of a missing entry, the same reader finds the other sections of the file.", "quantifier": "all files, classes, missing entries and sequences of readings", "why_tests_cant": "Depends on the history of the reader, including failed readings at any depth.", "anchors": ["bridges/config_yaml/interface/config_yaml/reader.h: descend, ascend", "bridges/config_msgpack/interface/config_msgpack/reader.h: descend, ascend", "core/include/config.h: readNestedConfig"]}
{"id": "C66", "title": "Solver objects can be reused", "statement": "The problem which a solver object gives to its QP solver is determined by the hierarchy alone: problems solved before with the same object have no influence on the result.", "quantifier": "all hierarchies and all previous problems", "why_tests_cant": "Histories of a solver object are unbounded; the effect appears only for particular orders of problems.", "anchors": ["core/humoto/hierarchy.h: getQPProblem", "bridges/*/interface/*/solver.h: initialize", "core/humoto/qp_problem.h"]}
{"id": "C67", "title": "Solutions of the QP bridges are lexicographic optima", "statement": "If a bridge (QuadProg++, qpmad, qpOASES) returns the status OK for a hierarchy of two levels, the solution satisfies every task of the first level and no point which does so has a smaller sum of squared residuals (plus regularization) of the tasks of the second level.", "quantifier": "all hierarchies with two levels, regularization factors and solver states", "why_tests_cant": "Optimality is a statement about all points; sizes are unbounded.", "anchors": ["bridges/QuadProgpp/interface/quadprogpp/solver.h: solveHierarchy", "bridges/qpmad/interface/qpmad/solver.h: solveHierarchy", "bridges/qpOASES/interface/qpoases/solver.h: solveHierarchy"]}
{"id": "C68", "title": "Pepper: next state follows the commanded motion", "statement": "The next state of the Pepper model at the time Ts is reached by moving the base along each horizontal axis with the constant jerk for which its velocity is the commanded one at the end of the sampling interval, and the body with the commanded jerk; heights and orientation are the given ones; conversion between states of the robot and state vectors loses nothing about the horizontal motion.", "quantifier": "all states, controls, sampling and subsampling times", "why_tests_cant": "Real-valued input space.", "anchors": ["modules/pepper_mpc/include/pepper_mpc/model.h: getNextState", "modules/pepper_mpc/include/pepper_mpc/two_point_mass_model.h: evaluate, getA12, getB12, convert*"]}
{"id": "C69", "title": "Pepper: computed states describe the same robot", "statement": "A state which is computed for a robot (next state, state at a given time) has the masses of the state of the model it was computed from.", "quantifier": "all models and controls", "why_tests_cant": "Differs only for robots whose parameters are not the default ones.", "anchors": ["modules/pepper_mpc/include/pepper_mpc/model.h: getNextState", "modules/pepper_mpc/include/pepper_mpc/mpc_mg.h: initializeNextModelState, getModelState"]}
{"id": "C70", "title": "Pepper: parameters of a state are stored where they belong", "statement": "Constructors and setters of a Pepper state store base height, body height, offset, masses, positions and orientation in the respective fields; the model reports the position of the base of its current state.", "quantifier": "all parameters", "why_tests_cant": "Real-valued input space.", "anchors": ["modules/pepper_mpc/include/pepper_mpc/model_state.h: ModelState, setParameters, set, update", "modules/pepper_mpc/include/pepper_mpc/model.h: updateState, setParameters"]}
{"id": "C71", "title": "Pepper: matrices of the control problem describe the predicted motion", "statement": "After a successful update of the Pepper controller, the matrices used by tasks map any solution (velocities of the base and jerks of the body for all intervals) to what it stands for: states of base and body at the end of every interval when the motion of the current state is simulated interval by interval, centres of pressure, jerks, accelerations and positions of the base, position of the base relative to the body in the frame of the interval. After a solution is parsed the stored profiles are those of this motion, which exists and is unique.", "quantifier": "all models, motions, numbers of intervals, sampling times and solutions", "why_tests_cant": "Sizes are unbounded, inputs are real numbers.", "anchors": ["modules/pepper_mpc/include/pepper_mpc/mpc_mg.h: update, updateMatrices, formRotationMatrices, parseSolution"]}
{"id": "C72", "title": "Pepper: controller can be updated again and again", "statement": "An update of the Pepper controller succeeds after any history of updates, parsed solutions and changes of parameters, provided that motions last until the end of the horizon.", "quantifier": "all histories and parameters", "why_tests_cant": "Histories are unbounded; fails only for particular changes of the length of the horizon.", "anchors": ["modules/pepper_mpc/include/pepper_mpc/mpc_mg.h: update, updateMatrices, setParameters"]}
{"id": "C73", "title": "Pepper: guess is the old solution shifted by one interval", "statement": "The initial guess consists of the controls of the old solution without those of the first interval, followed by zeros, and of zeros if there is no old solution.", "quantifier": "all solutions and lengths of the horizon", "why_tests_cant": "Real-valued inputs, unbounded sizes.", "anchors": ["modules/pepper_mpc/include/pepper_mpc/mpc_mg.h: guessSolution"]}
{"id": "C74", "title": "Walking pattern generator: orientations, velocities and bounds of the previewed supports", "statement": "In a formed horizon the current support has the orientation of the supporting feet (the mean one in a double support); every step turns by the increment, the last one does not, and from the initial double support the robot steps with the orientation of the foot; reference velocities are those of the kind of stance, turned by its orientation; bounds on the position of a landing foot and of the centre of pressure are those of this foot and of the support it starts from.", "quantifier": "all states of a walk, feet, parameters and lengths of the horizon", "why_tests_cant": "Walks are unbounded, inputs are real numbers.", "anchors": ["modules/wpg04/include/wpg04/preview_horizon.h: form, formPreviewStates", "modules/walking/include/walking/robot_foot_parameters.h: getFootBounds"]}
{"id": "C75", "title": "Walking pattern generator: matrices of the control problem describe the predicted motion", "statement": "After a successful update of the walking pattern generator, the matrices used by tasks map any solution (relative centres of pressure of all intervals and relative positions of the previewed footsteps) to what it stands for: footsteps and centres of pressure in the global frame, states and velocities of the centre of mass at the end of every interval when the current state moves under the prescribed centres of pressure, velocities of the centre of pressure. The motion exists and is unique, and after a solution is parsed the stored profiles are those of this motion.", "quantifier": "all states of a walk, models, numbers of intervals, sampling times and solutions", "why_tests_cant": "Sizes and walks are unbounded, inputs are real numbers.", "anchors": ["modules/wpg04/include/wpg04/mpc_wpg.h: update, updateMatrices, formRotationMatrices, parseSolution"]}
{"id": "C76", "title": "Walking pattern generator: state at a given time", "statement": "After a solution is parsed, the reported state of the centre of mass at any instant within the preview horizon is the state of the predicted motion at this instant, whichever interval the instant belongs to; at the end of an interval it is the stored state; beyond the horizon an exception is thrown.", "quantifier": "all states of a walk, solutions, numbers and durations of intervals, and instants", "why_tests_cant": "Real-valued inputs, unbounded sizes.", "anchors": ["modules/wpg04/include/wpg04/mpc_wpg.h: getCoMState"]}
{"id": "C77", "title": "Walking pattern generator: next state", "statement": "The next state of the model consists of the state of the centre of mass which is predicted for the subsampling time, the stances of the walk, and feet which stay where they stand unless one of them lands; the landing foot is placed at the first previewed footstep (beside the middle of the feet at the end of the walk), with its orientation, at the height of the support foot. The foot which is reported to land during a single support is the same.", "quantifier": "all states of a walk, models, solutions and parameters", "why_tests_cant": "Real-valued inputs, unbounded walks; fails only when a transition is nearly over or the horizon is short.", "anchors": ["modules/wpg04/include/wpg04/mpc_wpg.h: initializeNextModelState, getNextModelState, getFootLandingState"]}
{"id": "C78", "title": "Walking pattern generator: guess follows from the old solution", "statement": "The initial guess consists of the centres of pressure of the old solution without the first interval, followed by zeros, and of its footsteps without the one which has been made; it is zero if there is no old solution. It can be made for any pair of consecutive problems.", "quantifier": "all solutions, lengths of the horizon and numbers of steps", "why_tests_cant": "Real-valued inputs, unbounded sizes; fails only for particular numbers of steps.", "anchors": ["modules/wpg04/include/wpg04/mpc_wpg.h: guessSolution"]}
{"id": "C79", "title": "Walking pattern generator: the loop of control runs until the end of the walk", "statement": "When the loop of the test program (update, solve, shift the machine by the sampling time, compute the next state, give it to the model) is run from the beginning of a walk whose stances are multiples of the sampling time, with transitions of one sampling time and a last stance which covers the horizon, then no call fails whatever solutions are found; the loop stops exactly when the remaining part of the walk is shorter than the horizon, in the last double support after all steps; and every state of the centre of mass is the one predicted for the end of the first interval.", "quantifier": "all walks, numbers of intervals, sampling times, solutions and numbers of iterations", "why_tests_cant": "Walks and numbers of iterations are unbounded, solutions are arbitrary real vectors.", "anchors": ["modules/wpg04/tests/test_000.cpp: main", "modules/wpg04/include/wpg04/mpc_wpg.h: update, getNextModelState", "core/include/walking/stance_finite_state_machine.h: shiftTime", "modules/wpg04/include/wpg04/model.h: updateState"]}
{"id": "C80", "title": "Walking pattern generator: the robot steps where the plan says", "statement": "In the loop of control the position of the support stays where it is until a transition begins, and then it is the first previewed position of the plan, provided that solutions meet the bounds on the first step; feet land within the allowed distances from the supporting foot, which does not move, turned by the increment of the walk, and the last step brings the feet together at the default distance.", "quantifier": "all walks, robots which stand at the beginning, parameters, solutions and iterations", "why_tests_cant": "Walks are unbounded, inputs and solutions are real numbers.", "anchors": ["modules/wpg04/tests/test_000.cpp: main", "modules/wpg04/include/wpg04/mpc_wpg.h: getNextModelState", "modules/wpg04/include/wpg04/model.h: updateState, determineSupportPosition", "modules/wpg04/include/wpg04/mpc_horizon.h: form"]}
{"id": "C81", "title": "Walking pattern generator: meaning of the tasks", "statement": "After a successful update every task of the walking pattern generator can be formed, with consistent sizes. The footstep task is satisfied exactly by solutions whose steps are within the bounds of the supports (exactly the fixed steps, when they are fixed), the task on the centre of pressure exactly by solutions which keep it within the bounds of the supports; residuals of the other tasks are their gains times the deviation of the predicted velocity of the centre of mass from the reference, the predicted velocity of the centre of pressure, its position in the frame of the support, and the velocity of the capture point at the end of the horizon. When the terminal task is satisfied, the motion is capturable.", "quantifier": "all states of a walk, models, gains, numbers of intervals, histories of the task objects and solutions", "why_tests_cant": "Sizes are unbounded, inputs are real numbers.", "anchors": ["modules/wpg04/include/wpg04/task_footstepbounds.h: form", "modules/wpg04/include/wpg04/task_copbounds.h: form", "modules/wpg04/include/wpg04/task_comvelocity.h: form", "modules/wpg04/include/wpg04/task_copvelocity.h: form", "modules/wpg04/include/wpg04/task_copposition.h", "modules/wpg04/include/wpg04/task_terminalconstraint.h: form"]}
{"id": "C82", "title": "Walking pattern generator: meaning of the optimization problem", "statement": "The hierarchies of two levels of the test programs (with free or fixed footsteps, with or without the terminal constraint) can be set up and then formed after every successful update, after any history of forming and processing of active sets; with guesses of active sets the number of steps must not drop by more than one between iterations, otherwise an exception is thrown. The formed first level is satisfied exactly by the allowed motions: footsteps within their bounds (or fixed), centre of pressure within the supports, capturable at the end if there is a terminal constraint; the objective of the second level is the weighted sum of squared deviations of the velocity of the centre of mass, velocities of the centre of pressure and its distances from the centres of the supports. A solution which a QP bridge returns with the status OK is an allowed motion with the smallest cost.", "quantifier": "all setups, histories of the problem, states of a walk, models and solver states", "why_tests_cant": "Histories, sizes and walks are unbounded, inputs are real numbers, optimality is about all motions.", "anchors": ["modules/wpg04/tests/utilities.h: setupHierarchy_v0, setupHierarchy_v1, setupHierarchy_v2, setupHierarchy_v5", "core/include/humoto/hierarchy.h: form, processActiveSet, getQPProblem", "bridges/*/interface/*/solver.h"]}
{"id": "C83", "title": "qpOASES solver: all entry points with guesses", "statement": "Through any of the nine entry points of the solver which uses qpOASES, a formed hierarchy of two levels is either solved (the solution keeps its structure, satisfies the first level and minimises the second one among the solutions below the library infinity; an active set is returned exactly if it was asked for, it has one entry per constraint and none of them is undefined, so it may be used as the next guess), or an exception is thrown, because there is no solution below the library infinity or because qpOASES did not report success on arguments which describe the hierarchy. Guesses do not change the meaning of the result. A guess of an active set with undefined entries is rejected. A guess of the solution must have as many entries as there are variables.", "quantifier": "all hierarchies of two levels, entry points, guesses, states of the solver object and answers of qpOASES", "why_tests_cant": "Histories of the solver, sizes and guesses are unbounded; optimality is about all points.", "anchors": ["bridges/qpOASES/interface/qpoases/solver.h: initialize, setActiveSet, setSolutionGuess, solveHierarchy, getActiveSet, reset", "core/include/humoto/solver.h: solve"]}
{"id": "C84", "title": "Walking pattern generator: the whole test program", "statement": "The test program of the walking pattern generator (the loop of control with the hierarchy of two levels, qpOASES and guesses of the solution and of the active set from the previous iteration) ends with a unique outcome. Each of its iterations finds the best of the motions which are allowed at this moment and moves the robot along it, or throws an exception, which happens only if there is no allowed motion or qpOASES has failed on arguments which describe the problem. The loop is left exactly when the remaining part of the walk is shorter than the horizon, after the number of iterations which follows from the parameters of the walk, with the robot in the last double support after all steps; feet land within the allowed distances. Without the terminal constraint there is always an allowed motion, so with a solver which solves feasible problems the walk is always completed.", "quantifier": "all walks, setups of the hierarchy without logging, models, numbers of intervals, sampling times, contents of memory, initial states of the solver, answers of qpOASES", "why_tests_cant": "Walks, histories of the solver and of the hierarchy are unbounded; guesses are made from earlier solutions.", "anchors": ["modules/wpg04/tests/test_000.cpp: main", "modules/wpg04/tests/utilities.h: setupHierarchy_v0, setupHierarchy_v1, setupHierarchy_v2, setupHierarchy_v5", "bridges/qpOASES/interface/qpoases/solver.h: solve"]}
{"id": "C85", "title": "Pepper: meaning of the tasks", "statement": "After a successful update every task of the Pepper controller can be formed, with consistent sizes. Tasks on velocity and acceleration of the base, on the centre of pressure and on the position of the body are satisfied exactly by the solutions whose predicted motion is within the bounds at the end of every interval; residuals of the other tasks are their gains times the deviation of the predicted position or velocity of the base from the reference, jerks of the base and of the body, the distance of the centre of pressure from the base, and the distance of the body from the base. The guess of the active set is the old one shifted by one interval.", "quantifier": "all models, motions, gains, numbers of intervals, histories of the task objects and solutions", "why_tests_cant": "Sizes are unbounded, inputs are real numbers; some errors show up only for bounds which are not symmetric, or for very short horizons.", "anchors": ["modules/pepper_mpc/include/pepper_mpc/task_basevelocitybounds.h: form, guessActiveSet", "modules/pepper_mpc/include/pepper_mpc/task_baseaccelerationbounds.h: form, guessActiveSet", "modules/pepper_mpc/include/pepper_mpc/task_coppositionbounds.h: form, guessActiveSet", "modules/pepper_mpc/include/pepper_mpc/task_bodypositionbounds.h: form, guessActiveSet", "modules/pepper_mpc/include/pepper_mpc/task_basejerkminimization.h: form", "modules/pepper_mpc/include/pepper_mpc/task_basepositionref.h: form", "modules/pepper_mpc/include/pepper_mpc/task_basevelocityref.h: form", "modules/pepper_mpc/include/pepper_mpc/task_bodyjerkminimization.h", "modules/pepper_mpc/include/pepper_mpc/task_bodypositionref.h: form", "modules/pepper_mpc/include/pepper_mpc/task_copcentering.h: form"]}
{"id": "C86", "title": "Pepper: meaning of the optimization problem", "statement": "The hierarchy of the Pepper programs can be set up for both modes of motion and is rejected for an undefined one. It can be formed after every successful update, after any history of forming and processing of active sets; with guesses of active sets this requires the same number of intervals, and more than one if an iteration advances by a whole interval, otherwise an exception is thrown. The formed first level is satisfied exactly by the allowed motions, the objective of the second level is the weighted sum of squared deviations from the reference of the base, jerks, and distances of the centre of pressure from the base. A solution which a QP bridge returns with the status OK is an allowed motion with the smallest cost.", "quantifier": "all setups, histories of the problem, models with symmetric bounds on the position of the body, and solver states", "why_tests_cant": "Histories and sizes are unbounded, inputs are real numbers, optimality is about all motions.", "anchors": ["modules/pepper_mpc/tests/utilities.h: setupHierarchy_v0", "core/include/humoto/hierarchy.h: form, processActiveSet, getQPProblem", "bridges/*/interface/*/solver.h"]}
{"id": "C87", "title": "Pepper: the whole test programs", "statement": "Each of the test programs of the Pepper controller (with or without guesses of the solution and of the active set, advancing by the sampling or by the subsampling time) ends with a unique outcome if the motion has a duration; if the motion is unlimited, it ends only with an exception. Each iteration finds the best of the motions which are allowed at this moment and moves the robot along it, or throws an exception, which happens only if there is no allowed motion or qpOASES has failed on arguments which describe the problem. The loop is left exactly when the rest of the motion is shorter than the horizon, after the number of iterations which follows from its duration. If iterations advance by whole intervals, then after each of them velocity and acceleration of the base and the position of the body relative to the base are within the bounds, and so is the centre of pressure for a robot with the default masses; the acceleration remains within its bounds also if iterations advance by parts of intervals. A robot which stands and is asked to stand remains where it is.", "quantifier": "all kinds of the program, motions, models with symmetric bounds on the position of the body, gains, numbers of intervals, sampling times, contents of memory, initial states of the solver, answers of qpOASES", "why_tests_cant": "Numbers of iterations and histories of the solver and of the hierarchy are unbounded; guesses are made from earlier solutions.", "anchors": ["modules/pepper_mpc/tests/test_000.cpp: main", "modules/pepper_mpc/tests/test_001_body.h", "modules/pepper_mpc/tests/utilities.h: setupHierarchy_v0", "bridges/qpOASES/interface/qpoases/solver.h: solve"]}
{"id": "C88", "title": "Pepper IK: commands for the robot", "statement": "A command is computed from the saved and the current state of the model: angles of the joints are the current ones, velocities of the base are those of the motion from the saved to the current pose expressed in the frame of the saved pose, wheels turn as they must for a base moving with these velocities to roll without slipping. If the command is issued without an exception, then angles of the joints, mean velocities of the joints and velocities of wheels are within the limits of the robot; otherwise an exception is thrown and the previous command does not change.", "quantifier": "all saved and current states, previous commands and intervals", "why_tests_cant": "Real-valued input space, including numbers which are not finite; failing calls.", "anchors": ["modules/pepper_ik/include/pepper_ik/model.h: getRobotCommand, saveCurrentState, checkCurrentState", "modules/pepper_ik/include/pepper_ik/model_description.h: getRootMotionToWheelsTransform"]}
{"id": "C89", "title": "Pepper IK: correction of the state", "statement": "Correction of the state by a command moves the root with the velocities of the command and every joint with the velocity with which it reaches the commanded angle in the interval of the command; nothing is corrected for an interval which is not positive; models without a planar root reject the correction. Kinematic data of the model correspond to its coordinates after any of its functions.", "quantifier": "all states, commands and intervals", "why_tests_cant": "Real-valued input space; depends on the failing calls.", "anchors": ["modules/pepper_ik/include/pepper_ik/model.h: correct, updateState"]}
{"id": "C90", "title": "Pepper IK: coordinates of the root", "statement": "Position and orientation of the root which have been set are those which are read, and setting one of them does not change the other; a planar root rejects motion out of the plane.", "quantifier": "all kinds of the root, poses and positions", "why_tests_cant": "Real-valued input space.", "anchors": ["modules/pepper_ik/include/pepper_ik/model_description.h: getRootPosition, setRootPosition, getRootOrientation, setRootOrientation"]}
{"id": "C91", "title": "Pepper IK: reordering of joints", "statement": "When columns of a matrix are reordered for a model with another root, the column of every joint becomes the column of the same joint in the other model; reordering back restores them.", "quantifier": "all matrices and pairs of models", "why_tests_cant": "Any number of rows and contents; a swapped pair of joints shows up only for particular motions.", "anchors": ["modules/pepper_ik/include/pepper_ik/model_description.h: reorderJointsColumns"]}
{"id": "C92", "title": "Kinematics: Jacobians", "statement": "Jacobians which the interface to RBDL computes are derivatives: for any motion of any tree of bodies, velocities of the coordinates multiplied by the Jacobian of a point of a link, of a set of bodies or of the whole robot give the velocity of this point or of the respective centre of mass, and the rotational Jacobian gives the angular velocity of the link; the complete Jacobian consists of the rotational one followed by the translational one. This holds also for links which are fixed to other links. Other types of Jacobians are rejected.", "quantifier": "all kinematic trees, numbers and kinds of joints, positions of points, links, coordinates and velocities", "why_tests_cant": "Trees and chains of joints are unbounded, inputs are real numbers; statement about derivatives.", "anchors": ["bridges/rbdl/interface/rbdl/model.h: getTagJacobian, getCoMJacobian, getPartialCoMJacobian, update", "bridges/rbdl/interface/rbdl/model.h: JointData"]}
{"id": "C93", "title": "Kinematics: positions, masses and requests", "statement": "Positions of points follow from the position and orientation of their link; links which are fixed to other links keep their pose in the frames of these links; the centre of mass of a robot or of a set of bodies is the mean position of centres of mass of the bodies weighted by masses, and the total mass is the sum of the masses; angles of a reported pose describe the orientation of the link. A file which cannot be read, and links which the robot does not have, are rejected.", "quantifier": "all kinematic trees, masses, names, links and coordinates", "why_tests_cant": "Trees are unbounded, inputs are real numbers.", "anchors": ["bridges/rbdl/interface/rbdl/model.h: load, getCoM, getPartialCoM, getTagPosition, getTagOrientation, getTagPose, getLinkTag, getLinkCoMTag, getLinkMass"]}
{"id": "C94", "title": "Pepper IK: meaning of the tasks", "statement": "For any robot which is loaded and updated with a state, every task of the inverse kinematics can be formed, with consistent sizes. Tasks on joints mean what they say for the coordinates which the solution leads to: they are within the limits of the joints, they approach the reference, selected joints (arms, head) do not move. Residuals of the tracking tasks are their gains times the difference between the velocity with which the centre of mass of the base or of the body, or a tag (position, orientation, both) moves when the coordinates move along the solution, and the error with respect to the reference multiplied by the gain of the error. Errors of orientation are zero exactly if the orientation is the reference one. The velocity of a tag is the requested one, expressed in the global frame. The next coordinates are the current ones plus the solution, and the reported error of the state is the difference from the reference.", "quantifier": "all robots (kinematic trees with positive masses), kinds of the root, states, references, gains, histories of the task objects and solutions", "why_tests_cant": "Trees are unbounded, inputs are real numbers; statement about derivatives.", "anchors": ["modules/pepper_ik/include/pepper_ik/task_*.h: form", "modules/pepper_ik/include/pepper_ik/whole_body_controller.h: update, getNextGeneralizedCoordinates, getTagVelocityInGlobal, getTagPoseErrorInGlobal", "modules/pepper_ik/include/pepper_ik/model.h: loadParameters, updateState, getStateError", "core/include/humoto/tasks/task_zeroselectedvariables.h: form"]}
{"id": "C95", "title": "Hierarchies of the Pepper inverse kinematics are solved in the order of their levels", "statement": "A hierarchy of the inverse kinematics with any tasks on its levels can be set up, and after any history of forming, for any coordinates of the robot and any references, and of processing of active sets, it can be formed again; its constraints mean what its tasks mean for the current coordinates and references. The solution of a hierarchy with two levels, by qpOASES or by the solver for equalities, does exactly what the tasks of the first level ask for, and among all such displacements it has the least sum of squared residuals of the second level; otherwise an exception is thrown, and it has a reason: no displacement does what the first level asks for, or the external solver has failed. In particular, when limits of joints, fixed arms or a fixed head are on the first level, the next coordinates respect the limits and the fixed joints stay. The hierarchies in the tests contain the tasks which their descriptions list.", "quantifier": "all hierarchies (numbers of levels, tasks, their parameters), robots, coordinates, references, histories of forming, contents of uninitialised memory", "why_tests_cant": "Hierarchies, robots and histories are unbounded; optimality among all displacements.", "anchors": ["modules/pepper_ik/tests/hierarchy.h: setupHierarchy_v0, setupHierarchy_v1, setupHierarchy_v2", "modules/pepper_ik/config/hierarchies_planar.yaml", "core/include/humoto/hierarchy.h: reset, pushTask, form, processActiveSet", "modules/pepper_ik/include/pepper_ik/task_*.h: form", "modules/pepper_ik/include/pepper_ik/whole_body_controller.h: getNextGeneralizedCoordinates"]}
{"id": "C96", "title": "Inverse kinematics of Pepper approaches references or reports why it cannot", "statement": "In the control loops of the inverse kinematics the robot approaches each reference by displacements, each of which is the best one (in the sense of the hierarchy) in the state where it is made; with the solver for equalities this holds where the tasks determine the displacement. Either the loop ends at the first displacement after which there is a reason to stop (all changes of coordinates are small, or the robot is close to the references), after at most the maximal number of displacements, and the command brings the robot from its state before the loop to its state after it within limits of angles, velocities and wheels; or an exception is thrown, and it has a reason: the maximal number of displacements without a reason to stop, a failure of the solver, or violated limits of the command. With limits on the first level the angles are within the limits after every displacement; fixed arms and a fixed head never move, also in the commands. A small last displacement means that the position of the base (body) is close to its reference. The flags of the feasibility test mean what they should mean: a point with the flag -1 is reached within the limits, with the flag 2 the first level is contradictory, a grid of points fits into the memory which is reserved for it.", "quantifier": "all robots, initial coordinates, lists of references, hierarchies, parameters, numbers of iterations, contents of uninitialised memory, solvers", "why_tests_cant": "Loops are unbounded, the displacements depend on the whole history.", "anchors": ["modules/pepper_ik/tests/test_001.cpp: main", "modules/pepper_ik/tests/test_003.cpp: main", "modules/pepper_ik/tests/test_002.cpp: main (inner loop)", "modules/pepper_ik/tests/regression_test_001.cpp: run (inner loop)", "modules/pepper_ik/include/pepper_ik/model.h: saveCurrentState, updateState, getStateError, getRobotCommand, checkCurrentState", "core/include/kktsolver.h: Solver"]}
{"id": "C97", "title": "Hierarchies are restored from configuration files", "statement": "Tasks which are pushed to a configurable hierarchy are on the levels they were pushed to, general tasks before the simple ones, and levels which do not exist are rejected. A hierarchy which is written to a configuration file and read again, by any object and whatever else is in the file, has the same levels with tasks of the same classes, descriptions and parameters in the same order. For any file, if reading succeeds, the hierarchy is the one which its lists of classes and descriptions and the sections of the tasks describe; lists which are empty or do not match, or are missing, an empty hierarchy, and names of unknown classes are reported by an exception, and the result does not depend on the old contents of the object.", "quantifier": "all sequences of pushed tasks, hierarchies (levels, tasks, parameters), registries of classes, files, formats, old contents of the object", "why_tests_cant": "Hierarchies and files are unbounded; missing cases show up only for particular files.", "anchors": ["core/include/humoto/configurable_optimization_problem.h: ConfigurableOptimizationProblem", "core/include/humoto/hierarchy_level.h: pushTask", "modules/wpg04/include/wpg04/configurable_optimization_problem.h: getTask", "modules/wpg04/config/hierarchies.yaml", "modules/pepper_ik/include/pepper_ik/configurable_optimization_problem.h: getTask", "modules/pepper_mpc/include/pepper_mpc/configurable_optimization_problem.h: getTask"]}
{"id": "C98", "title": "Closed loop of Pepper: planning, inverse kinematics, commands", "statement": "In the program which combines model predictive control and inverse kinematics of Pepper, the controller gets what is measured on the robot: centres of mass of the base and of the body, their masses, and the yaw angle of the base. In every iteration it makes the best plan within its limits for the measured state and for the first motions of the queue, the robot approaches the positions and the orientation of the plan in the sense of the hierarchy of the inverse kinematics, and one command within the limits of the robot is issued, which brings the robot from where it was to where it is. Between the iterations the base moves as if the command was executed during the delay, and the queue of motions is advanced by the period including the delay. The program issues as many commands as there are periods in the queue without the horizon, or does not end if a motion has no end, or throws an exception, and then there is a reason: no plan, a failure of the solver, an unreachable reference, or violated limits of a command.", "quantifier": "all robots, initial states, queues of motions, parameters, delays, hierarchies, numbers of iterations, contents of uninitialised memory, solvers", "why_tests_cant": "The loop is unbounded, every iteration depends on the whole history of two optimization problems.", "anchors": ["modules/pepper_ik/tests/test_002.cpp: main", "modules/pepper_ik/include/pepper_ik/model.h: getBaseYaw, getBaseMass, getBodyMass, correct, getRobotCommand", "modules/pepper_mpc/include/pepper_mpc/mpc_for_mg.h: update, updateAndShift", "modules/pepper_mpc/include/pepper_mpc/utility.h: MotionParameters"]}
{"id": "C99", "title": "Block matrices: every object is a partition of its matrix", "statement": "After construction and any sequence of completed operations the reported numbers of blocks and the block size describe a partition of the stored matrix; sizes given by the template never change. set and setBlockSize complete exactly when the matrix consists of whole blocks, resize and setZero give exactly the requested numbers of blocks. Access to a block, to a column or to a row of blocks in range gives the entries of these blocks, each entry of the matrix belongs to exactly one block, and assignment to a block changes nothing else. Rows selected from the blocks and Kronecker products have the blocks one expects.", "quantifier": "all matrices, template and run-time block sizes, sequences of operations with or without caught exceptions, and block indices", "why_tests_cant": "The history of an object, the sizes of its matrix and of its blocks are unbounded.", "anchors": ["core/include/eigentools/blockmatrix_base.h: BlockMatrixAccessBase, BlockMatrixSizeSpecificBase, BlockMatrixBase, set, resize, setZero, setBlockSize, operator(), column, row, selectRowInBlocks, getBlockKroneckerProduct", "core/include/eigentools/blockmatrix.h: BlockMatrix, multiplyRight, operator*"]}
{"id": "C100", "title": "Violations and active sets of a hierarchy belong to the rows of its tasks", "statement": "For a hierarchy which has been formed and any point, violations and the active set can be computed, there is exactly one entry for each row of each task on each level, and it is the violation (the state of activation) of this row at this point, with the differences to its bounds, independently of the contents of memory. All violations of a level are zero exactly if the point satisfies all tasks of this level; rows which are not active are not violated. The number of mismatches which the tests report is zero exactly if each entry of the active set of the solver is the one determined from the solution, or a bound which is attained up to the tolerance. Violations of a task are copied to and from its place in those of the level without changing anything else.", "quantifier": "all hierarchies (levels, tasks of all kinds), points, contents of uninitialised memory, active sets of solvers, locations", "why_tests_cant": "Numbers of levels, tasks and rows are unbounded; an entry at a wrong place shows up only for particular combinations of tasks.", "anchors": ["core/include/humoto/hierarchy.h: computeViolations, determineActiveSet", "core/include/humoto/hierarchy_level.h: computeViolations, determineActiveSet", "core/include/humoto/violations.h: ViolationsConstraints, Violations", "modules/pepper_mpc/tests/regression_test_001.cpp: main (comparison of active sets)"]}
{"id": "C101", "title": "Parameters and states of the modules are restored from configuration files", "statement": "An object with parameters or a state (points, rigid bodies, stances, walking, feet, model predictive control, robots, motions, inverse kinematics, coordinates, solvers, solutions) which is written to a configuration file, in any of the formats and together with any other objects, is restored by any other object of its class, including the quantities which are not stored but derived from the stored ones. If the file does not contain the object, the default object is obtained, whatever the object contained before, or an exception is thrown if the reading is strict. Whatever is in the file, after the reading the derived quantities correspond to the parameters; parameters of sampling which do not fit together are rejected.", "quantifier": "all objects of all these classes, previous contents of the object which reads, files with any other sections, formats, modes of reading", "why_tests_cant": "Values are unbounded; entries which are forgotten, swapped or not reset show up only for values different from the defaults and for objects which were used before.", "anchors": ["core/include/config.h: readConfig, readNestedConfig", "core/include/config/define_accessors.h", "core/include/rigid_body/point_mass_state.h: PointMassState", "core/include/rigid_body/rigid_body_state.h: RigidBodyState", "core/include/walking/stance_finite_state_machine.h: StanceFSMParameters", "core/include/walking/robot_foot_parameters.h: RobotFootParameters", "core/include/humoto/solver.h: SolverParametersBase", "core/include/humoto/solution.h: Solution", "core/include/kktsolver.h: SolverParameters", "modules/wpg04/include/wpg04/common.h: WalkParameters, MPCParameters", "modules/wpg04/include/wpg04/model_state.h: ModelState", "modules/pepper_mpc/include/pepper_mpc/common.h: RobotParameters, MotionParameters, MPCParameters", "modules/pepper_mpc/include/pepper_mpc/model_state.h: ModelState", "modules/pepper_ik/include/pepper_ik/common.h: WBCParameters, MotionParameters", "modules/pepper_ik/include/pepper_ik/generalized_coordinates.h: GeneralizedCoordinates", "bridges/qpOASES/interface/qpoases/solver.h: SolverParameters", "bridges/qpmad/interface/qpmad/solver.h: SolverParameters", "bridges/QuadProgpp/interface/quadprogpp/solver.h: SolverParameters"]}
{"id": "C102", "title": "Times survive conversions and timers measure what the clock shows", "statement": "A number of milliseconds which is converted to seconds and back is the same number, whatever the rounding errors of doubles are, for all numbers below 2^51; different numbers of milliseconds are different times in the same order. Seconds are converted to the nearest millisecond, or with truncation to the last full millisecond; negative numbers and numbers which do not fit are not converted. Truncation after conversion to seconds gives the same number. The value of a timer is the time between the last stop and the last start before it, through every sequence of starts and stops, zero if it was never stopped, not negative if the clock is not set back, and accurate to half a microsecond.", "quantifier": "all numbers, all roundings of doubles to nearest, all readings of the clock and sequences of calls", "why_tests_cant": "Rounding errors show up only for particular numbers (1001 for truncation), histories are unbounded.", "anchors": ["core/include/humoto/time.h: convertMillisecondToSecond, convertSecondToMillisecond, truncateSecondToMillisecond, Timer"]}
{"id": "C103", "title": "Messages go to the destination given to the logger", "statement": "Through every sequence of calls, with any progress of the thread of the logger, a message is in the stream or file which was given to the logger last before the message was logged, or if there was none, in the one given first afterwards; messages in a destination are in the order of logging, each once, files are overwritten when they are opened, other files are untouched. A destination can be replaced at any time by any stream or file which can be opened.", "quantifier": "all sequences of logging, initialisations with streams and files (also failing ones), progress of the thread, contents of files, both versions of the logger", "why_tests_cant": "Histories are unbounded; loss of messages depends on the order of initialisations.", "anchors": ["core/include/humoto/logger.h: LoggerBase, initialize, Logger, log, interrupt, start"]}
{"id": "C104", "title": "A log can be read back", "statement": "The text written by the loggers, executed as a script, leaves every logged quantity in its place, with its value, and nothing else: names of nested objects and indices of vectors are those of the objects. This holds for active sets, violations, solutions, whole hierarchies of tasks, quadratic programs in the solvers, states and models of the robots, and for the complete logs of the example programs: the value of iteration i of a quantity is found in place i.", "quantifier": "all hierarchies, problems, states, all numbers of iterations and all values of the logged quantities, all descriptions of tasks", "why_tests_cant": "The place of an entry depends on all names passed through nested calls; an entry which overwrites or hides another one is seen only when the whole log is read.", "anchors": ["core/include/humoto/logger.h: LogEntryName, Logger::log", "core/include/humoto/hierarchy.h: OptimizationProblem::log", "core/include/humoto/hierarchy_level.h: HierarchyLevel::log", "core/include/humoto/task.h: TaskBase::log", "core/include/humoto/constraints_base.h: log", "core/include/humoto/qp_problem.h: log", "core/include/humoto/solution.h: log", "modules/wpg04/tests/test_000.cpp: main", "modules/pepper_mpc/tests/test_000.cpp: main", "modules/pepper_ik/tests/test_000.cpp: main"]}
{"id": "C105", "title": "Numbers in logs are the nearest decimal numbers", "statement": "The text of a number in a log is the decimal number with 15 significant digits (times: six digits after the point) which is nearest to the logged number; it does not depend on what was logged before, order and signs are preserved, and numbers given with at most 15 digits are read back as they were given.", "quantifier": "all numbers, all sequences of logged numbers, matrices and times, all precisions", "why_tests_cant": "Rounding cases (ties, carries to the next power of ten, the choice of the notation) are too many to sample, and the format of a stream is a state changed by earlier entries.", "anchors": ["core/include/humoto/logger.h: Logger::setDefaults, Logger::log, OctaveFormatter", "core/include/humoto/time.h: operator<<"]}
{"id": "C106", "title": "Hot starting, solver and memory contents do not change the walk", "statement": "With each of the four ways to start the solver (no guess, guess of the active set, of the solution, of both) every iteration of the walking program finds the best allowed motion, or it ends with an exception because no motion is allowed or the solver has failed; all runs terminate. The best motion is unique. Therefore two programs which begin in the same state and have the same parameters are in the same state after every number of iterations, with equal solutions, whatever guesses they use, whichever correct solver they call and whatever was in memory; with solvers which solve all feasible problems both complete or both throw. In measurements of performance all simulations have the same number of iterations, and the logged averages are the averages over the simulations for each iteration.", "quantifier": "all parameters of walks, robots, starting modes, solvers satisfying the contract, contents of uninitialised memory, previous contents of solutions, numbers of iterations and simulations", "why_tests_cant": "The state is the result of the whole history of optimization problems; a dependence on a guess or on stale memory shows up only for particular combinations.", "anchors": ["modules/wpg04/tests/test_006_body.h: SolverPerformanceNoHotstarting, SolverPerformanceActiveSetGuess, SolverPerformanceActiveSetAndSolutionGuess, SolverPerformanceSolutionGuess", "core/tests_include/solver_performance_test.h: SolverPerformanceMultiRun", "core/include/humoto/hierarchy.h: form", "core/include/humoto/solver.h: solve", "modules/wpg04/include/wpg04/mpc_wpg.h: update, guessSolution, getNextModelState"]}
{"id": "C107", "title": "Hot starting, solver and memory contents do not change the motion of Pepper", "statement": "If jerks of the base and of the body have a cost, then the best allowed motion of Pepper is unique at every iteration. Therefore two programs which begin with the same robot, motion and parameters, and which advance by the same time, have the robot in the same state after every number of iterations, with equal solutions, whatever guesses of the active set and of the solution they use, whichever correct solver they call and whatever was in memory. With solvers which solve all feasible problems both complete the same number of iterations, or both throw, or (for motions without an end) none of them terminates. Allowed motions of robots with reasonable masses, heights and bounds never reach the library infinity.", "quantifier": "all robots, motions with and without an end, parameters of the controller, guesses, solvers satisfying the contract, contents of uninitialised memory, previous contents of solutions, numbers of iterations", "why_tests_cant": "The state is the result of the whole history of optimization problems; a dependence on a guess or on stale memory shows up only for particular combinations.", "anchors": ["modules/pepper_mpc/tests/test_001_body.h: SolverPerformanceNoHotstarting, SolverPerformanceActiveSetGuess, SolverPerformanceActiveSetAndSolutionGuess, SolverPerformanceSolutionGuess", "modules/pepper_mpc/tests/test_000.cpp: main", "modules/pepper_mpc/include/pepper_mpc/mpc_mg.h: update, guessSolution, parseSolution, getNextModelState, getModelState", "core/include/humoto/hierarchy.h: form", "core/include/humoto/solver.h: solve"]}
{"id": "C108", "title": "Pepper moves in the same way at other places, in other directions and in a mirror", "statement": "Let a map of the plane keep lengths and the bounds of the robot: every translation does, and for bounds which are computed from the parameters of the robot quarter turns and mirrors do, and all combinations of these. If two programs begin with a robot and a motion and with their images under the map, then after every number of iterations the state of the robot, what remains of the motion and the solution are images of each other, whatever guesses and solvers are used and whatever was in memory. With solvers which solve all feasible problems both complete after the same number of iterations, or both throw, or none terminates. For other turns this is not true: the bounds on the base are squares in the frame of the world.", "quantifier": "all robots, motions, maps of the plane, parameters of the controller, guesses, solvers satisfying the contract, contents of memory, numbers of iterations", "why_tests_cant": "A dependence on the place or on the direction (a wrong frame, a swapped axis, a wrong sign of an angle) is seen only if whole motions from different places are compared, and these are results of long histories of optimization problems.", "anchors": ["modules/pepper_mpc/include/pepper_mpc/mpc_mg.h: update, getNextModelState, getModelState, computeCondensed", "modules/pepper_mpc/include/pepper_mpc/model.h: getMPCState, getNextState", "modules/pepper_mpc/include/pepper_mpc/common.h: RobotParameters, finalize, MotionParameters", "modules/pepper_mpc/tests/test_000.cpp: main", "modules/pepper_mpc/tests/test_001_body.h: run"]}
{"id": "C109", "title": "The walk is the same at other places, in other directions and in a mirror", "statement": "Let two walking robots begin in positions one of which is the image of the other under a translation, a turn by any angle, or a mirror followed by these; in a mirror the feet are exchanged, the schedule begins with the other foot, and the parameters of the walk have the velocity to the other side and the turn in the other direction. After every number of iterations the positions, velocities and accelerations of the centre of mass, the feet, the stances and the solutions are images of each other, whatever guesses and solvers are used and whatever was in memory. With solvers which solve all feasible problems both complete the walk, or both throw. A robot which stands symmetrically, without steps, remains in its plane of symmetry.", "quantifier": "all robots, schedules, parameters of walks (they may change between iterations), maps of the plane, guesses, solvers satisfying the contract, contents of memory, numbers of iterations", "why_tests_cant": "A dependence on the place or on the direction (a wrong frame, a wrong sign of an angle, bounds of the left foot used for the right one) is seen only if whole walks are compared, and these are results of long histories of optimization problems.", "anchors": ["modules/wpg04/include/wpg04/preview_horizon.h: form, previewStates, getConstraints", "modules/wpg04/include/wpg04/mpc_wpg.h: update, getNextModelState, getFootLandingState", "modules/wpg04/include/wpg04/model.h: updateState, determineSupportPosition", "core/include/walking/robot_foot_parameters.h: finalize, getFootBounds", "core/include/walking/stance_finite_state_machine.h: shiftTime, previewStances", "modules/wpg04/tests/test_000.cpp: main", "modules/wpg04/tests/test_006_body.h: run"]}
{"id": "C110", "title": "With the terminal constraint the robot does not fall, however long the walk is", "statement": "If the motion must be capturable at the end of the horizon, then at every iteration which finds a motion the capture point of the robot is not farther from its support than the centre of pressure is, or than half of the feet and one longest step for each step which the horizon can contain. After any number of iterations the velocity of the centre of mass and its distance from the support are within bounds which do not depend on the number of iterations. If the capture point is farther away, the iteration ends with an exception. A capture point beyond the feet goes away from them in each iteration; without the terminal constraint the program makes all iterations without any report, however far away the capture point is.", "quantifier": "all robots and initial states, schedules of any length, parameters of walks (they may change between iterations), starting modes of the solver, solvers satisfying the contract, contents of memory, numbers of iterations", "why_tests_cant": "The dynamics is unstable: an error which grows slowly is seen only in a walk which is long enough, and the bounds must hold for walks of every length.", "anchors": ["modules/wpg04/include/wpg04/task_terminalconstraint.h: TaskTerminalConstraint", "modules/wpg04/tests/utilities.h: setupHierarchy_v2", "modules/wpg04/include/wpg04/mpc_wpg.h: update, getNextModelState", "core/include/walking/point_mass_model_6z.h: getA3, getB3, evaluate", "core/include/walking/robot_foot_parameters.h: finalize, getFootBounds", "modules/wpg04/tests/test_008.cpp: main"]}
{"id": "C111", "title": "After an iteration the walk can be continued, unless a new support enters the horizon", "statement": "Once an iteration of the walk has found a motion, the next iteration finds one as well, with any solver which solves all feasible problems, unless a transition to a new support begins exactly in the last interval of its horizon: a run which is stopped by an exception is stopped in its first iteration or in such an iteration, and once the end of the horizon is behind the last transition, the walk is always completed. This holds with the terminal constraint and without it, for fixed and for variable steps, and although velocities of the walk may be changed between iterations. The condition can not be dropped: there is a robot at rest for which the first iteration finds a motion, and the second one, when the next support enters its horizon, ends with an exception.", "quantifier": "all robots and initial states, schedules of any length, velocities of the walk (they may change between iterations), starting modes of the solver, solvers which satisfy the contract and solve all feasible problems, contents of memory, numbers of iterations", "why_tests_cant": "Whether a problem is feasible depends on all preceding solutions, the time and the schedule; a test shows that one walk was completed, not that a problem solved now cannot lead to an infeasible one later.", "anchors": ["modules/wpg04/include/wpg04/preview_horizon.h: form, previewStates, getConstraints", "modules/wpg04/include/wpg04/mpc_wpg.h: update, getNextModelState, getFootLandingState", "modules/wpg04/include/wpg04/model.h: updateState", "modules/wpg04/include/wpg04/task_terminalconstraint.h: TaskTerminalConstraint", "modules/wpg04/include/wpg04/task_copbounds.h: form", "modules/wpg04/include/wpg04/task_fdbounds.h: form", "core/include/walking/stance_finite_state_machine.h: shiftTime, previewStances", "modules/wpg04/tests/utilities.h: setupHierarchy_v2"]}
{"id": "C112", "title": "At every instant of the walk the centre of pressure is in the support polygon", "statement": "After every iteration of the walk, and at every instant between iterations, the centre of pressure of the robot is in the support polygon: the smallest convex set which contains the soles of the feet on the ground, as rectangles with the positions and orientations of the feet in the model (one foot in single supports, both in double supports and transitions). The states of the centre of mass which the controller reports for instants between iterations are balanced in this sense, too. The turn of the steps may be changed at any time except in a transition which has begun already.", "quantifier": "all robots with feet in a reasonable position, initial states of the centre of mass, schedules of any length, parameters of walks (they may change between iterations), fixed and variable steps, with and without the terminal constraint, starting modes of the solver, solvers satisfying the contract, contents of memory, numbers of iterations, instants of time", "why_tests_cant": "The constraint is stated for ends of intervals, in frames of planned footsteps; whether it keeps the robot balanced over the feet where they actually land depends on the whole history of supports, transitions and landings, at uncountably many instants.", "anchors": ["modules/wpg04/include/wpg04/task_copbounds.h: form", "modules/wpg04/include/wpg04/preview_horizon.h: form, previewStates, getConstraints", "modules/wpg04/include/wpg04/mpc_wpg.h: update, getNextModelState, getCoMState, getFootLandingState", "modules/wpg04/include/wpg04/model.h: updateState", "core/include/walking/robot_foot_parameters.h: finalize, getADSCoPBounds, getSSCoPBounds", "core/include/walking/point_mass_model_6z.h: evaluate"]}
{"id": "C113", "title": "Between iterations Pepper stays near its bounds", "statement": "The constraints of the controller of Pepper are stated for ends of intervals. If iterations advance by parts of intervals, and the base is within its bounds at the beginning, then after every number of iterations the velocity of the base leaves its bounds by at most half of what remains of the interval times the range of the acceleration, and in the states which the controller reports for times of the interval by at most an eighth of the interval times this range more. If iterations advance by whole intervals, then the controller reports for every time of the interval a state of the motion with constant jerks from the preceding state of the robot to the new one. In all of these states the acceleration of the base is within its bounds, the velocity of the base leaves its bounds by at most an eighth of the interval times the range of the acceleration, and the centre of pressure leaves its bounds by at most an eighth of the square of the interval times the share of the body in the mass times the greatest relative acceleration of the body at the ends of the interval. The latter is limited by a number which depends only on the robot, not on the motion. The bound on the velocity is the best possible.", "quantifier": "all robots, motions, parameters of the controller, variants of the program, solvers satisfying the contract, contents of memory, numbers of iterations, instants of time", "why_tests_cant": "There are uncountably many instants between the samples at which the constraints are imposed, after every history of iterations.", "anchors": ["modules/pepper_mpc/include/pepper_mpc/mpc_mg.h: getModelState, getNextModelState, parseSolution", "modules/pepper_mpc/include/pepper_mpc/model.h: getNextState", "modules/pepper_mpc/include/pepper_mpc/task_basevelocitybounds.h: form", "modules/pepper_mpc/include/pepper_mpc/task_baseaccelerationbounds.h: form", "modules/pepper_mpc/include/pepper_mpc/task_coppositionbounds.h: form", "modules/pepper_mpc/tests/test_000.cpp: main"]}
{"id": "C114", "title": "The feet of the walking robot do not collide", "statement": "Whenever both feet are on the ground, after any number of iterations, the left foot is on the left of the right one: either the feet are parallel, beside each other at the default distance, or the foot which has landed last is turned by the turn which was given for the iteration in which it has landed, at a distance to its own side between the least and the greatest one, and not farther in front or behind than the longest step. If the least distance leaves room for the soles turned by the turns which are given, the soles of the feet have no common points. The default parameters of feet leave room for all turns.", "quantifier": "all robots with feet in a reasonable position, initial states, schedules of any length, parameters of walks including turns (they may change between all iterations), fixed and variable steps, with and without the terminal constraint, starting modes of the solver, solvers satisfying the contract, contents of memory, numbers of iterations", "why_tests_cant": "Where the feet land is a result of a long history of optimization problems; the constraints are stated for planned steps in frames of preceding steps, and a wrong sign or an exchanged foot is seen only in some sequences of steps and turns.", "anchors": ["modules/wpg04/include/wpg04/task_fdbounds.h: form", "modules/wpg04/include/wpg04/preview_horizon.h: form, previewStates, getConstraints", "modules/wpg04/include/wpg04/mpc_wpg.h: update, getNextModelState, getFootLandingState", "modules/wpg04/include/wpg04/model.h: updateState", "core/include/walking/robot_foot_parameters.h: finalize, getFootBounds, setDefaults"]}
{"id": "C115", "title": "Hierarchies which cannot be solved are reported", "statement": "The hierarchies of the walking program which the quadratic program solver cannot solve, one with three levels and one with an infeasible task on its first level, are set up and formed without a failure, also repeatedly, for changing controllers, with and without guesses. Solving them throws an exception: for three levels for each entry point and all parameters of the solver, for the infeasible task whenever the solver reports only solutions as solved. No vector satisfies the first level with the infeasible task, whatever the number of variables. A walking program with one of these hierarchies throws in its first iteration: it never computes a command.", "quantifier": "all robots, schedules, parameters of walks and of tasks, solvers, entry points and parameters of solvers, contents of memory, histories of forming for changing numbers of variables", "why_tests_cant": "The number of variables changes during the walk, and the infeasible task is formed anew only when it changes; a solver which returned any vector for an infeasible problem, or ignored a level, would make the robot execute a motion which violates its constraints.", "anchors": ["modules/wpg04/tests/utilities.h: setupHierarchy_v3, setupHierarchy_v4", "core/include/humoto/task_generic.h: TaskInfeasibleInequality", "core/include/humoto/hierarchy.h: form, reset, pushTask", "core/include/humoto/solver.h: QPSolverMixin::checkInputs", "bridges/qpOASES/interface/qpoases/solver.h: solveHierarchy"]}
{"id": "C116", "title": "Walks do not depend on the solver", "statement": "The walking program can use QuadProg++ or qpmad, without guesses of solutions and active sets. Each iteration then either leaves the loop, exactly when the rest of the walk does not cover the horizon, or moves the robot along the beginning of the best allowed motion, or throws because the solver has reported a failure on a problem whose solutions are the allowed motions and whose costs are theirs (with qpmad: or because no motion below the library infinity is allowed). If the solver solves all problems which have a solution, then an exception means that there is no allowed motion, and without the terminal constraint all iterations are made. If the cost has one minimum, the robot, the walking machine and the last solution are the same as in the program with qpOASES, with any guesses, after each number of iterations. In particular, the soles of the feet do not overlap, and, if the turn of the steps does not change, the centre of pressure is in the support polygon after each iteration, as with qpOASES.", "quantifier": "all walks, robots, schedules, hierarchies of the walk with nonzero gains on the centre of pressure, solvers, numbers of iterations, contents of memory", "why_tests_cant": "The solvers are given the problem in different forms: equalities apart from one-sided inequalities, full or triangular matrices, bounds on variables; tests compare a few walks. A row which is lost or has a wrong sign in one of the forms shows itself only in walks in which it is active.", "anchors": ["modules/wpg04/tests/test_009.cpp: main", "modules/wpg04/tests/regression_test_000_body.h: run1", "bridges/QuadProgpp/interface/quadprogpp/solver.h: Solver", "bridges/qpmad/interface/qpmad/solver.h: Solver", "core/include/humoto/solver.h: solve"]}
{"id": "C117", "title": "Motions of Pepper do not depend on the solver", "statement": "The program of Pepper can use QuadProg++ or qpmad, without guesses of solutions and active sets, with iterations which advance by whole intervals or by parts of them. Each iteration then either leaves the loop, exactly when the rest of the motion does not cover the horizon, or moves the robot along the beginning of the best allowed motion, or throws because the solver has reported a failure on a problem whose solutions are the allowed motions and whose costs are theirs (with qpmad: or because no motion below the library infinity is allowed). If the solver solves all problems which have a solution, then an exception means that no motion is allowed, and the program makes as many iterations as the program with qpOASES. After each number of iterations the robot, what remains of the motion and the last solution are the same as with qpOASES and any guesses. In particular, if iterations advance by whole intervals, the velocity and the acceleration of the base, the position of the body and the centre of pressure are within their bounds after each of them; if they advance by parts of intervals, the acceleration of the base is within its bounds, and the velocity leaves them by at most half of what remains of the interval times the range of the acceleration.", "quantifier": "all motions, robots with bounds of reasonable size, parameters of the controller, hierarchies with nonzero gains on jerks, solvers, numbers of iterations, contents of memory", "why_tests_cant": "The solvers are given the problem in different forms, and tests compare one motion for each of them; a bound which is lost or has a wrong sign in one of the forms shows itself only in motions in which it is active.", "anchors": ["modules/pepper_mpc/tests/regression_test_000_body.h: run", "modules/pepper_mpc/tests/test_001_body.h: SolverPerformanceNoHotstarting", "bridges/QuadProgpp/interface/quadprogpp/solver.h: Solver", "bridges/qpmad/interface/qpmad/solver.h: Solver", "core/include/humoto/solver.h: solve", "modules/pepper_mpc/include/pepper_mpc/mpc_mg.h: updateAndShift, getNextModelState, getModelState"]}
{"id": "C118", "title": "A model of Pepper which is moved by commands follows the robot", "statement": "A command for a robot with a planar root describes its motion since its state was saved: a model which was in the same state as the robot, and which is corrected with each of the commands for the interval of the command, has after each number of commands the position, the joint angles and the yaw angle of the robot. The code does this for positions and joint angles; the commanded rotation is the sine of the turn instead of the turn, so that the yaw angle is only followed up to a sixth of the sum of cubes of the turns, and exactly if the robot does not turn. The rotation is never commanded in the wrong direction for turns by less than half of the circle. A turn by half of the circle gives zero velocity of rotation, and is accepted in any time whatever the limits of the wheels are.", "quantifier": "all sequences of states of the robot for which commands are made, of any length, intervals, contents of memory", "why_tests_cant": "Real-valued states, and an error which accumulates over a history of commands; for the small turns of tests it is below tolerances.", "anchors": ["modules/pepper_ik/include/pepper_ik/model.h: getRobotCommand, correct, saveCurrentState, updateState", "core/include/rigid_body/rotary_state.h: getRotationErrorAngleAxis", "modules/pepper_ik/include/pepper_ik/model_description.h: getBaseOrientationLinkStringId, getBasePositionLinkStringId"]}
{"id": "C119", "title": "Constraints which do not fit are rejected", "statement": "The consistency check of a task accepts constraints of all twenty classes if and only if the sizes of their matrices, gains, indices and bounds fit together and they mention only existing variables, and throws an exception otherwise. All rows of accepted constraints can be evaluated at any vector with the number of variables, and have the documented values. The code does this for constraints on all variables; for simple constraints it does not check indices, and for constraints on a part of the variables it does not check that the offset is not negative: such constraints are accepted, and evaluating their rows reads outside of the vector.", "quantifier": "all classes, sizes and contents of constraints, all vectors", "why_tests_cant": "The sizes are unbounded, there are twenty classes, and reading outside of a vector may return a number without any failure.", "anchors": ["core/include/humoto/constraints.h: checkConsistency", "core/include/humoto/constraints_mixins.h: getProduct", "core/include/humoto/constraints_base.h: ConstraintsBase"]}
{"id": "C120", "title": "Reported times are averages over simulations", "statement": "The test of performance runs a number of simulations and logs three entries, whose names consist of the given prefix, the given type of hot starting and the kind of the measured time. For every iteration of the simulation they contain the mean over all simulations of the time to form the problem, to solve it and to run the full loop. If a simulation fails, the failure is passed on and nothing is logged.", "quantifier": "all numbers of simulations, numbers of iterations, measured times, outcomes of simulations, prefixes and types of hot starting", "why_tests_cant": "The means are sums over any number of simulations of any length, and failures may occur in any of them.", "anchors": ["core/tests_include/solver_performance_test.h: SolverPerformanceMultiRun::run"]}
