# Formal model of humoto in Lean 4

## Layout

* Source: `/repo` (bip-team/humoto, pinned). The model is read off the text; nothing is built or executed from it.
* `lean/Verif/Model/*`: the model, definition by definition, with file:line citations.
* `lean/Verif/Spec/*`: small specifications. They say what is expected in terms of inputs and outputs and do not use the helpers
  with which the model computes them.
* `lean/Verif/Lemmas/*`: auxiliary lemmas.
* `lean/Verif/Props/*`: the property theorems. Theorems `Cxx_*` belong to property `Cxx` of `properties.jsonl`. An `example` beside
  them shows that the hypotheses are met by a concrete non-trivial case.
* When the code violates the property, the violation is proved with a concrete witness (`Cxx_*_refuted`) and the part which does hold
  is proved in a theorem with suffix `_partial`.
* `MANIFEST.json`: status and theorems of each property. `AXIOMS.md`: axioms of each theorem. `seeded/LOG.jsonl`: wrong programs
  against which the theorems were tested.

## Modelling decisions

* `HUMOTO_ASSERT` / `HUMOTO_THROW_MSG` (core/include/humoto_helpers.h:80-90) are always on (the guard macro is spelled `DNDEBUG`), so
  they are an error outcome `Fault.thrown`. Undefined behaviour (reading or writing outside of a buffer, `back()` on an empty
  container, division by an integer zero, ...) is the separate outcome `Fault.ub`. Theorems about success exclude both.
* `double` is an arbitrary linearly ordered field (`ℝ` where sin, cos, cosh, sqrt or derivatives are needed). Rounding, overflow, NaN
  and signed zeros are not modelled. Examples are evaluated in `ℚ`. Where the code reads NaN or uninitialised memory, the value is a
  parameter (`nan`, `junk`) over which theorems quantify.
* `std::size_t` is a natural number, except where wrap-around matters: `BitVec 64` in C01, arithmetic modulo 2^64 in conversions of
  time of pepper_mpc and in the forming loop of the horizon of wpg04.
* Eigen matrices are records (rows, cols, entries), `Mat`, `Vec`; fixed-size ones are functions on `Fin n`. Operations on them are
  transcribed from the expressions in the code. Shape errors, which Eigen checks only by assertions, are `Fault.ub`; `resize` yields
  arbitrary contents.
* Virtual dispatch is modelled by inductive types whose constructors are the concrete classes, or by records of functions where tasks
  of an arbitrary user are meant (`Task E K`: any `form` and `guessActiveSet`).
* Loops of C++ which need not end return `Option`: `none` if the fuel is not sufficient. Statements about outcomes are of the form
  "there is fuel such that", and outcomes are shown to be unique.
* Threads (logger): a transition system whose states contain the program counters of the threads and the queue; theorems are about all
  interleavings.

## Trusted base

* The kernel of Lean 4.33.0 and the axioms `propext`, `Classical.choice`, `Quot.sound`. No axioms of our own, no `sorry`, no
  `native_decide`, no `bv_decide`. `AXIOMS.md` lists the axioms of every theorem.
* Faithfulness of the hand-written model to the cited lines, including the transcription of Eigen operations and of the standard
  library.
* Contracts of external code. They are hypotheses of theorems, never axioms, and each of them is shown to be satisfiable:
  * `Trusted` (Spec/Kkt): LU, QR and LLT of Eigen solve regular systems;
  * `TrustedQuadProg`, `TrustedQpmad`, `TrustedQpoases`, `TrustedSolver` (Spec/Bridges, Spec/QpoasesSolver): a QP solver which reports
    success returns a feasible point which is not worse than any other feasible point; `CompleteSolver`: feasible problems with bounds
    are solved; `CompleteQuadProg`, `CompleteQpmad` (Spec/WpgPlain): problems which have a solution are solved;
  * yaml-cpp and msgpack (Model/Config): an emitted tree is parsed to the same tree; yaml-cpp writes numbers with 15 digits;
  * `Trig` (Model/PepperMpc): cos and sin of pepper_mpc are functions with cos² + sin² = 1; `eigenEulerAngles` (Model/Rotary):
    transcription of `eulerAngles` of Eigen 3.2/3.3;
  * `KinematicTree`, `Moves` (Spec/Rbdl): RBDL numbers the bodies of a tree after their parents, gives separate coordinates to their
    joints, and the poses which it computes move as the joints do.

## Modelled parts of the code

| code | model |
|------|-------|
| core/include/humoto/active_set.h, utility.h (Location) | ActiveSet, Basic |
| core/include/humoto/constraints_base.h, constraints_mixins.h, constraints.h, violations.h | Constraints |
| core/include/humoto/task.h, hierarchy_level.h, hierarchy.h, qp_problem.h | Level |
| core/include/humoto/task_generic.h | TaskGeneric |
| core/include/humoto/solution.h, solver.h | Solution, Solver |
| core/include/humoto/control_problem.h | Condense |
| core/include/humoto/logger.h | Logger (threads, memory), LogName (names of entries) |
| core/tests_include/solver_performance_test.h | Performance (SolverPerformanceMultiRun::run; single simulations and timers are inputs) |
| core/include/humoto/leftright.h | Stance, FootParameters, WpgModel |
| core/include/kktsolver.h | Kkt |
| core/include/humoto/violations.h, comparison of active sets in modules/pepper_mpc/tests | Diagnosis |
| configurable_optimization_problem.h of the core, wpg04, pepper_ik and pepper_mpc; config/hierarchies*.yaml of the modules (one hierarchy each) | ConfProblem |
| core/include/config.h, config/define_accessors.h, bridges/config_yaml, bridges/config_msgpack | Config |
| core/include/eigentools/* | Eigentools, Gram, BlockMat, BlockObject, Kronecker, Rotary (cross product) |
| core/include/rigid_body/* | Trajectory, TripleIntegrator, Rotary, PointMass, PepperModel |
| core/include/walking/* | Stance, FootParameters, Trajectory, PointMass |
| bridges/qpOASES, bridges/qpmad, bridges/QuadProgpp | Bridges, QpoasesSolver |
| modules/wpg04 | WpgModel, WpgHorizon, WpgMpc, WpgTasks, WpgProblem, WpgProgram, WpgHierarchies |
| modules/pepper_mpc | PepperHorizon, PepperModel, PepperMpc, PepperTasks |
| modules/pepper_mpc/tests: setupHierarchy_v0 of utilities.h | PepperProblem |
| modules/pepper_mpc/tests: loops of test_000.cpp and test_001_body.h (without logging) | PepperProgram |
| modules/pepper_mpc/tests: other programs | not modelled |
| modules/pepper_ik: model.h, model_description.h (limits, commands, coordinates; without reading of files and the queries of RBDL), robot_command.h | PepperIk |
| bridges/rbdl: model.h, tag.h, spatial_transform.h | Rbdl |
| modules/pepper_ik: task_*.h, whole_body_controller.h, model.h (queries of RBDL), common.h | IkTasks |
| modules/pepper_ik: tests/hierarchy.h, config/hierarchies_planar.yaml | IkProblem |
| modules/pepper_ik/tests: loops of test_001.cpp, test_003.cpp, regression_test_001.cpp, inner loops of test_002.cpp, test_004.cpp | IkProgram |
| modules/pepper_ik/tests/test_002.cpp: the closed loop | PepperLoop |
| configuration of classes in core, modules/wpg04, modules/pepper_mpc, modules/pepper_ik, bridges/qpOASES, bridges/qpmad, bridges/QuadProgpp | ConfClasses |
| core/include/humoto/time.h | Time |
| core/include/humoto/logger.h: streams and files of loggers | LogDest |
| log functions of the library, of the modules and loops of their tests: text of the log and a reader of it | LogText, LogTree |
| digits of numbers in logs, format of streams (logger.h, time.h; contract of the standard library) | LogNumber |
| ways to start the solver, measurements of performance (wpg04 test_006_body.h, solver_performance_test.h) | WpgHotstart |
| loops without guesses, solvers QuadProg++ and qpmad (wpg04 test_009.cpp, `run1` of regression_test_000_body.h) | WpgPlain |
| loops without guesses, solvers QuadProg++ and qpmad (pepper_mpc regression_test_000_body.h, `SolverPerformanceNoHotstarting` of test_001_body.h) | PepperPlain |
| modules/pepper_ik: other files | not yet |

Not modelled: the library RBDL (its poses of bodies for given
coordinates are parameters) and bridges/obstacle_avoidance; code of
tests other than those in the table; build scripts; everything outside of /repo.

## Plan per property

| id | modelled | proof |
|----|----------|-------|
| C01 | Location on BitVec 64 | bit-vector arithmetic via toNat |
| C02-C04 | ActiveSetConstraints as lists with faults | list induction, extensionality |
| C05, C06 | determineActiveSet / computeViolations of all mixins over an ordered field | case analysis on comparisons, for all rows |
| C07-C10, C13, C14 | tasks, hierarchy level, containers | induction over the list of tasks and over histories |
| C11, C12 | objective accumulation | algebra of finite sums, induction over the list of tasks |
| C15, C16 | solution structure and solution | induction over the sequence of operations |
| C17, C18 | solver pipeline | case analysis for an arbitrary backend |
| C19-C21 | condensing recursions | induction over the horizon |
| C22-C25 | stance finite state machine | invariants, induction over transitions and time |
| C26-C32 | integrators, polynomials, foot trajectories and parameters | field algebra, derivatives, trigonometric identities |
| C33-C35 | cross product, rotations, point mass model with six variables | field algebra, trigonometry, derivatives |
| C36-C42 | eigentools, block matrices, Kronecker products | extensionality, finite sums |
| C43 | KKT solver | linear algebra, convexity |
| C44 | logger threads as a transition system | invariant over all interleavings |
| C45 | names of log entries | list induction |
| C46-C48, C65 | configuration writers and readers on trees | mutual induction on trees |
| C49, C50, C66, C67 | bridges of QP solvers | list induction, translation of feasible sets, convexity |
| C51-C55, C74 | wpg04: horizon, model, parameters | invariants of the forming loop, decision logic |
| C56-C58 | pepper_mpc: motion parameters and preview horizon | induction over the queue, arithmetic |
| C59, C71-C73 | pepper_mpc: controller | block matrices, induction over histories |
| C60, C61, C68-C70 | pepper_mpc: two point mass model, states | field algebra |
| C62, C63 | pepper_ik: desired poses, joint limits | field algebra, decision logic |
| C97 | hierarchies in configuration files, any registry of classes | induction over levels and tasks, C46 for parameters of tasks |
| C98 | planning, inverse kinematics, commands and feedback in one loop | invariant over iterations from C85-C87 and C94-C96, existence and uniqueness of outcomes |
| C100 | violations and active sets of a whole hierarchy, comparison in the tests | induction over tasks and levels from C05, C06 and the layout of C07 |
| C101 | entries, defaults and finalization of all configurable classes of the library, the modules and the bridges | the theorems C46 and C48 about entries lifted to objects: what is assigned from the entries of an object is the object |
| C102 | conversions with an arbitrary rounding of doubles, the rounding of binary64, timers as state machines | bounds of accumulated rounding errors below one half; monotonicity and injectivity for the order; induction over calls |
| C103 | base class of loggers with std::ofstream, both loggers as seen by their owner | invariants which relate the state to the history of initialisations; induction over the remaining calls |
| C104 | text written by the log functions, function by function; a reader of such scripts and the intended places of all quantities are the specification | the reader inverts the writer (induction over characters and components), places of siblings are independent, induction over levels, tasks and iterations |
| C105 | conversion of a number to its text (digits, notation, trailing zeros), the format state of a stream through all calls; a reader of decimal numbers and nearest decimals are the specification | bounds of mantissas between powers of ten, rounding to the nearest integer, distance of neighbouring decimals against that of doubles, induction over calls |
| C106 | the program with each of the four starting modes, the loop over simulations and the averages; the best motion is the one of C82 | invariant of the program for each mode; the cost is strictly convex in the positions of the centre of pressure, which determine the variables; two horizons formed from different memory agree on what is used |
| C107 | the programs of C87 in all variants; uniqueness of the best motion, equality of the states of two programs | the middle of two allowed motions is allowed and costs less unless all jerks are equal; jerks determine the motion and the variables; bounds on the centre of pressure, on the body and on the base bound the acceleration of the body |
| C108 | the programs of C87 for a robot and its image under a map of the plane | motions and their images satisfy the same bounds and have the same cost, hence the image of the best motion is the best motion; uniqueness (C107) gives the solution of the second program |
| C109 | the programs of C106 for a robot and its image under a map of the plane | the machine, the previewed stances, angles and bounds of the image are images, hence the horizons; motions and their images satisfy the same bounds and have the same cost; uniqueness (C106) gives the solution of the second program, then the next state by cases of the stance |
| C110 | the programs of C106 with the terminal constraint of hierarchy v2 | closed form of an interval: the capture point at its beginning is a convex combination of that at its end and of centres of pressure, the opposite point contracts; backward induction over the horizon from its end, where the capture point is the centre of pressure; number of steps in a horizon from the durations of the stances; then induction over the iterations |
| C111 | the programs of C106; horizons of two successive iterations | steps of a horizon in terms of absolute time: the horizons of successive iterations contain the same supports except for one which enters in the last interval, with the same orientations and bounds; the old solution shifted by one interval, with the last centre of pressure repeated, is allowed in the new problem (the capture point remains in the centre of pressure); then CompleteSolver; for the refutation a capture point on the border of what the centre of pressure can reach must remain there |
| C112 | the programs of C106; `getCoMState`, `getADSCoPBounds`, `getSSCoPBounds` | invariant over iterations: orientations of the feet and of the support, the landed foot has the orientation with which the bounds are formed; the rectangle of a double support is in the convex hull of two parallel soles; the centre of pressure moves along a segment in each interval |
| C113 | the programs of C87; `getModelState` in the first interval | the parsed profiles of the iteration give the reported states; differences between polynomials of the second and third degree and their chords |
| C114 | the program of C79 (walk with the quadratic program) | the invariant of C112 without its condition on turns gives the feet; C80 for landings; a separating line for two turned rectangles |
| C115 | the hierarchies of three levels and with an infeasible task, in the program of C79 | invariant of histories without solutions: kinds of tasks of each level; C18 for three levels, C83 and an unsatisfiable row for the infeasible task; the first iteration of the program |
| C116 | the loop without guesses (test_009.cpp, regression_test_000_body.h) with the solvers QuadProg++ and qpmad of C50, C67 | contract of a solver on problems of C82; invariant over iterations; uniqueness of the best motion and simulation by the program of C106 |
| C117 | the loops of Pepper without guesses (regression_test_000_body.h, test_001_body.h) with the solvers QuadProg++ and qpmad of C50, C67 | contract of a solver on problems of C86; invariant of C87 over iterations; uniqueness of the best motion and simulation by the programs of C107 in both directions |
| C118 | pepper_ik: getRobotCommand, then correct with the command on another model | induction over sequences of commands; error of rotation of turns about the vertical axis is a sine; bounds on the sine |
| C119 | constraints.h: checkConsistency, constraints_mixins.h: getProduct | case analysis over the classes against the specification of well-formed constraints |
| C120 | solver_performance_test.h: SolverPerformanceMultiRun::run | induction over the simulations |
| C99 | block matrices as objects with a history | invariant over operations, integer division, refinement to a partition |
| C96 | pepper_ik: loops of the tests | induction over the iterations with the invariant of C95, C88 for the commands |
| C95 | pepper_ik: hierarchies | invariant of the hierarchy over histories of forming, C94 for each task, C83 and C43 for the solvers |
| C94 | pepper_ik: tasks and the controller | derivatives of the forward kinematics along the solution (C92), field algebra |
| C88-C91 | pepper_ik: commands, correction, coordinates of the root, reordering | field algebra with infinite numbers and NaN, decision logic |
| C92, C93 | bridges/rbdl: positions, centres of mass and Jacobians for an arbitrary tree of bodies | induction along the chain of joints, derivatives |
| C64 | TaskZeroVariables and other predefined tasks | induction over histories |
| C75, C76 | wpg04: matrices, predicted motion, state at a time | block matrices, induction over intervals, cosh/sinh identities |
| C77, C78 | wpg04: next state, guess of the solution | case analysis on stances |
| C79, C80 | wpg04: loop of control | invariant over iterations |
| C81, C82 | wpg04: tasks and hierarchies | entry-wise computation of blocks; histories of task objects |
| C83 | qpOASES bridge with guesses, state of the solver | composition of C17, C50 for all entry points |
| C84 | whole program test_000 of wpg04 | invariant over iterations, composition of C79, C80, C82, C83 |
| C85 | tasks of pepper_mpc | rows of block matrices against the simulated motion (C71) |
| C86 | setupHierarchy_v0 of pepper_mpc | invariant of the shape of the hierarchy over histories, C67 |
| C87 | loops of the programs of pepper_mpc | invariant over iterations (C71, C83, C86), termination by duration |

None of the properties is inexpressible in a model.

## Disagreements of the code with the properties

Each of them is a theorem about the model. The status of these properties is `partial`.

* `C03_copyTo_refuted`: C03, as stated, fails: a location which fits together with a longer part passes the checks and is written out of range.
* `C100_degenerate_refuted`: C100, refuted. A solution with which all tasks are satisfied and an active set which is right for it are counted as a mismatch: at `(5, -1)` the bound of the first level is attained, the solver is right not to have it in the active set (its multiplier is zero), and the tests count one mismatch.
* `C100_stale_refuted`: C100, refuted. The hierarchy must be formed: after `reset`, violations of the old number of constraints are returned although there are no tasks, and their entries are not initialised.
* `C101_kkt_refuted`: C101, refuted: the method and the factor of regularization of the KKT solver are lost.
* `C101_members_refuted`: C101, refuted: if the state of the center of mass is missing in the section of the state of a model, it is not the default one of the model: the center of mass is at the origin (for Pepper, so is the body).
* `C101_pepperRobot_refuted`: C101, refuted: the default bounds of the body of Pepper, written and read again, become contradictory (the lower bound of the second coordinate is greater than the upper one), since matrices are transposed by the round trip.
* `C101_solution_refuted`: C101, refuted: a solution which is read by another object has the status of that object.
* `C101_solvers_refuted`: C101, refuted: parameters of solvers are read from one file, and then from another one which does not contain them: the flags of the base class are not set to their defaults (`true`), the options of qpOASES are not set to their defaults either.
* `C101_wbc_refuted`: C101, refuted: parameters of inverse kinematics are read from one file, and then from another one which does not contain them: the control interval in milliseconds is the default one, but the control interval in seconds is the one from the first file.
* `C102_truncated_refuted`: C102 With the usual doubles truncation looses a millisecond: 1001 milliseconds are 1.001 seconds, and `truncateSecondToMillisecond(1.001)` is 1000.
* `C103_lost_refuted`: C103 After a failed request to open a second file the logger without threads looses all messages: the second message is nowhere.
* `C103_never_refuted`: C103 Messages of a threaded logger which is never given a destination are lost.
* `C103_second_file_refuted`: C103 A logger can be given a file only once: although both files can be opened, the second request is answered by an exception, also if the logger was given a stream in the meantime.
* `C104_apostrophe_refuted`: C104, refuted for strings: a description with an apostrophe makes the whole log unreadable.
* `C104_name_ignored_refuted`: C104, refuted for hierarchies: the name which is given to the log function of a hierarchy of tasks is ignored, nothing is found there. In particular two hierarchies with the same parent can not be logged.
* `C104_same_name_refuted`: C104, refuted for equal names: in modules/pepper_mpc/tests/test_005.cpp:157, 164 the solutions of two solvers are logged with the same (default) name. The log can be read, but the vector of variables of the first solution is not found: the only vector in the log is the one of the second solution.
* `C105_double_refuted`: C105 is false of doubles themselves: two different doubles, 0.3 and the sum of 0.1 and 0.2, have the same text, hence a reader of a log does not get the double which was logged.
* `C105_stream_refuted`: C105 is false of streams of the user in the notation `std::fixed`: only the precision is changed by a logger, so that a number which is not zero is logged as zero.
* `C108_turns_refuted`: C108, refuted for other turns: the bounds on velocities and accelerations of the base are squares in the frame of the world. A robot moves along an axis with the velocity 1.2, all bounds are 1, and it can not slow down in time: every program is stopped by an exception. The same robot is turned by the angle with the cosine 3/5 together with its motion: its velocity is (0.72, 0.96), the program makes the first iteration.
* `C10_weighted_refuted`: The hypothesis about weighted tasks cannot be dropped: a weighted task counts as simple, but a level with rows of such a task does not produce bounds, an exception is raised.
* `C111_lost_refuted`: C111 does not hold without the condition on transitions, although the program could know the whole walk: a robot which stands at rest above the outer edge of its right foot is going to step onto the left one. In the first iteration the left support is not in the horizon yet, and the motion found is capturable; in the second iteration it is, and no motion is allowed any more.
* `C118_follows_refuted`: C118. The yaw angle is not followed: when the robot has turned, the model has another yaw angle, and for a half of the circle the commanded velocity of rotation is zero.
* `C118_wheels_refuted`: C118. The limits of the wheels do not limit the turns: in a time however short the robot may turn by half of the circle (or by any multiple of it), and a command is made, with wheels which do not rotate.
* `C119_index_refuted`: C119. Indices are not checked: simple constraints are accepted with an index to a variable which does not exist, and evaluation of this row at any vector of the right size reads outside of the vector.
* `C119_offset_refuted`: C119. Constraints on a part of the variables are accepted with a negative offset (which is not beyond their columns), and evaluation of any row at any vector reads before the beginning of the vector.
* `C120_length_refuted`: C120. When the second simulation makes another number of iterations than the first one, matrices of different sizes are added.
* `C120_none_refuted`: C120. Without simulations the first element of an empty vector is read.
* `C20_groups_refuted`: The claim C20 fails for several groups of controls: with `N = 2`, `E(0) = E(1) = 1` and `u(0) = 1` the contribution of the controls to the first output is `0` instead of `E(0) u(0) = 1`.
* `C22_undefined_refuted`: Against C22: these parameters are accepted, `num_steps` is set to zero by the machine, but too late: it leaves the double support and fails with the second transition.
* `C24_returns_refuted`: Against C24: if the terminal stance has zero duration, then from every reachable state there is a bound such that a shift returns exactly if it does not exceed the bound: longer shifts never return.
* `C25_terminal_refuted`: Against C25: if the current stance is the terminal one and ends before the preview does, the preview is empty.
* `C25_zero_refuted`: Against C25: a preview over zero time reads the last element of an empty vector.
* `C29_end_refuted`: C29 fails: from 0 to 1 with the velocity 1 at both ends (a straight line meets these conditions) the polynomial ends in 2.
* `C30_end_refuted`: C30 fails for trajectories with velocities at the ends: a motion in the direction x from 0 to 1 with the velocity 1 at both ends arrives in 2.
* `C30_vertical_refuted`: C30 fails for the vertical direction: a step of the height 1 in place.
* `C34_angles_refuted`: C34 fails for negative yaw with Eigen 3.2 and 3.3: the extracted yaw is never negative, e.g., for a robot which is turned to the right.
* `C34_simple_refuted`: C34 fails for the simple integration: a second with the velocity 1 doubles the volume.
* `C36_left_sizes_refuted`: C36 fails for `multiplyLeft`: the operands of a valid product (6x6 times 6x4) are rejected, since the sizes are checked for the product from the other side.
* `C36_stale_result_refuted`: C36 fails for blocks 1x1: a result which is left from a product of other sizes makes the multiplication throw, although the operands are those of the example above.
* `C37_rectangular_refuted`: C37 fails when there are more block rows than block columns: the second row of the product keeps whatever the memory contained, here 7 instead of 0.
* `C37_rectangular_wide_refuted`: C37 fails when there are more block columns than block rows: blocks out of range are accessed.
* `C39_adjacent_refuted`: C39 is violated when two empty matrices follow one another: the element after an erased one is not examined, and `[0x0, 0x0, 1x1]` is rejected although all of its matrices with entries have the same number of columns.
* `C39_horizontal_refuted`: A matrix with rows, but without columns, is empty, yet it is not ignored: it is rejected because of its number of rows.
* `C40_column_end_refuted`: Invalid indices are accepted when the matrix has sufficiently many rows: the last column is removed.
* `C40_column_refuted`: A valid index is rejected whenever it is greater than the number of rows: the wrong size is checked.
* `C40_row_end_refuted`: The index one past the end is accepted and removes the last row.
* `C40_row_negative_refuted`: Negative indices are not rejected: undefined behaviour.
* `C43_elimination_refuted`: Elimination with the default regularisation does not return the constrained minimiser, whatever the decompositions do: it disagrees with the direct methods.
* `C43_oneLevel_refuted`: A solver which is used for a problem with two levels and then for a problem with one level returns, with success, a point which is not the best one for the second problem: the constraint of the first problem is still there.
* `C43_status_refuted`: The status says nothing: constraints which cannot be satisfied are solved with success.
* `C46_yaml_digits_refuted`: C46 does not hold for YAML: there is a number which is represented exactly in `double` and is not restored.
* `C47_refuted`: C47 does not hold: a matrix which is written and read back is transposed, with both formats.
* `C49_lastBound_refuted`: The guess is not "the guess for the last bound on the level", as the documentation says: the last bound on the second variable is inactive in this active set, yet the guess is the lower bound.
* `C51_duration_refuted`: Against C51: a zero sampling time of transitions is accepted, the intervals in which steps begin have no duration.
* `C51_end_refuted`: Against C51: if the horizon reaches beyond the end of the walk while the robot is still walking, forming the horizon throws instead of reporting the end of the walk.
* `C51_end_throws`: Against C51: in general.
* `C51_reentered_refuted`: Against C51: when the terminal double support is over, the machine enters it again, and forming the horizon throws.
* `C51_starts_refuted`: Against C51: if the sampling time of transitions is not their duration, the steps do not begin with the previewed transitions: here the second step begins after 1200 ms, the previewed stances before it last 1100 ms.
* `C51_transitions_refuted`: Against C51: transitions longer than a sampling time take only one interval, so that the stances do not provide enough intervals for the horizon, and forming it throws.
* `C51_zero_refuted`: Against C51: without intervals or without a sampling time the behaviour is undefined.
* `C52_refuted`: C52 is violated with default parameters: in the middle of a transition the horizon of 16 intervals ends before the last previewed support, and the rotation matrices are written outside of the allocated memory.
* `C52_support_refuted`: C52 is violated in the middle of a support, too: with 7 intervals.
* `C53_default_refuted`: This happens in the default walk if the model is updated each 50 ms: the transition, which lasts 100 ms, is seen twice.
* `C53_transition_refuted`: Against C53: an update within a transition which was already updated throws, whatever the feet are.
* `C55_zero_refuted`: Against C55: a zero subsampling time is not rejected, the program divides by zero.
* `C58_negative_refuted`: C58 is violated by negative offsets in seconds, which are outside of every horizon: the first interval is returned.
* `C59_refuted`: C59 is violated: in the middle of the second interval the state is not the predicted one.
* `C62_refuted`: C62 fails: for each link which is not at the origin there is a requested velocity such that the desired position differs from the current one plus the interval multiplied by the linear velocity in the global frame.
* `C63_velocities_refuted`: C63. In other cases fast motions are accepted: all motions if the time interval is negative, motions from or to an angle which is not a number, and no motion at all during no time.
* `C64_gain_refuted`: Against C64: a new gain is ignored when the task is formed again for the same structure.
* `C65_refuted`: C65 does not hold: after an exception due to a missing entry, the same reader does not find sections which are in the file.
* `C66_oneLevel_refuted`: After a problem with two levels, a problem with one level is solved, with success, with the constraints of the first problem: the returned point is not the best one.
* `C69_masses_refuted`: C69 is violated: a state which is computed for a robot has the masses of the object which receives it. The controller passes default constructed states (mpc_mg.h:52, 287), so that the result has the default masses whatever the masses of the model are.
* `C70_heights_refuted`: C70 is violated: the constructor with heights swaps them.
* `C72_refuted`: C72 is violated: after an update with two intervals the number of intervals is changed to three, and the next update throws although the motions last long enough.
* `C73_lengths_refuted`: C73 needs the same number of intervals: otherwise vectors of different sizes are assigned, which is not checked.
* `C77_agrees_refuted`: Against C77: when the remaining time of a transition is shorter than the subsampling time, the motion of the first interval is continued beyond its end, and the next state differs from the predicted one: here the ZMP is four times as far.
* `C77_landing_refuted`: Against C77: when no step begins within the horizon, the query of the landing foot has undefined behaviour.
* `C78_guess_refuted`: Against C78: if the number of steps changes by more than one, or the number of intervals changes, vectors of different sizes are assigned, which is not checked.
* `C79_one_refuted`: C79. Why the horizon has at least two intervals: with one interval the landing at the end of the first step of the default walk has undefined behaviour.
* `C82_guess_throws`: C82. Otherwise forming fails: with the number of steps less by two or more an exception is thrown, unless the footsteps are fixed.
* `C83_short_guess`: C83. The size of the guess of the solution is not checked: if it has less entries than there are variables, then qpOASES reads beyond its end.
* `C85_bodyBounds_refuted`: C85 is violated: with bounds which are not symmetric, the task for the position of the body accepts motions whose position of the body relative to the base is not within the bounds.
* `C85_bodyPosition_refuted`: C85 is violated: the task for the reference position of the body does not minimise the distance between the body and the base: there is a motion which ends with the body above the base and is penalised, and another one which ends with the body at the distance of two metres and is not penalised.
* `C85_guess_throws`: C85. With a horizon of one interval the second guess fails.
* `C86_guess_throws`: C86. Otherwise it may fail: with one interval the second iteration throws.
* `C88_failure_refuted`: C88. If the wheels cannot rotate that fast the exception leaves a changed command behind: everything except its time interval is that of the rejected motion.
* `C89_upToDate_refuted`: C89. The second function, if it rejects the interval, leaves coordinates behind which the kinematic data do not correspond to.
* `C93_unknown_refuted`: C93. Requests for links which are not a part of the robot are not rejected: their behaviour is undefined. The same holds for the mass and the centre of mass of fixed links.
* `C94_tagCompleteVelocity_refuted`: C94 fails for `TaskTagCompleteVelocity`: for each link which is not at the origin there is a velocity such that the link never moves with this velocity if the task is satisfied.
* `C94_tagPose3Dof_refuted`: C94, refuted. `TaskTagPose3Dof` is documented as a pose with three degrees of freedom (about x, about y, along z), but it does not leave the other ones free: a link which satisfies it does not move along the horizontal axes, wherever the desired pose is.
* `C95_v2_refuted`: C95. The third hierarchy of the tests does not fix the joints it is meant to fix: numbers of joints are used as numbers of variables, without the offset of the joints. The wrist of the right arm can move.
* `C97_same_ids_refuted`: C97 does not hold if two tasks have the same description (which is so for two tasks of one class whose description is not changed): both tasks get the parameters of one of them. There is no check.
* `C97_stale_ids_refuted`: C97: what is read when missing entries are allowed depends on the old contents of the object: descriptions are not reset before reading. The same section is rejected by a new object and is accepted by an object which has been used.
* `C97_unknown_refuted`: C97 does not hold for a file with an unknown class: the message `Unknown task name` is never produced.
* `C98_yaw_refuted`: C98 fails with Eigen 3.2 and 3.3 for a base which is turned to the right: `getBaseYaw` reports an angle which differs by half a turn, since the angles which are returned by `eulerAngles` have other roll and pitch. The controller ignores roll and pitch, so that in its horizon a commanded velocity has the opposite direction: a robot which is asked to move forward plans to move backward.
* `C99_select_refuted`: C99 is violated by `selectRowInBlocks` when sizes of blocks are given at run time: the number of rows in a block is used as the number of columns. A matrix of one block 2x4 has two blocks of 2 columns after the selection; when the number of columns is given by the template, the selection throws.
* `C99_setBlockSize_refuted`: C99 is violated after an exception in `setBlockSize`: the number of rows in a block has been changed when the size which is given by the template is rejected; four rows are reported, the matrix has two.
* `C99_set_refuted`: C99 is violated after an exception: `set` with a matrix which does not consist of whole blocks throws, but the matrix has been replaced; the object reports two rows of blocks and four rows, while the matrix has three, and access to the first column of blocks is undefined behaviour.

Code which is not instantiated, or cannot be compiled, is not counted as a disagreement: `TaskIB` (`getATAandATb` calls a missing
function), `CrossProductMatrix::multiplyRight` for matrices.

## Tests of the theorems against wrong programs

Definitions of the model are edited in a copy the way a bug would change the program, and the copy is rebuilt. Every line of
`seeded/LOG.jsonl` is such an edit, with the theorems which fail. Edits after which everything still could be proved are either
equivalent programs or lead to a stronger theorem (field `tightened`).
