import Verif.Model.LogText
import Verif.Model.WpgProgram
import Verif.Model.PepperProgram
import Verif.Model.PepperIk

/-!
# What is written to logs

Methods `log` of the classes of core, of the bridges and of the modules: sequences of calls of `Logger::log`. `num` is what `operator<<`
writes for a `double`. Arguments `parent` and `name` are those of the methods; arguments by default are given in the comments.
-/

namespace Humoto.LogTree

open LogName LogText

/-- An argument of `Logger::log`. -/
abbrev Entry := LogText.Entry

variable {K : Type} (num : K → Str)

/-- `LogEntryName(parent).add(name)`, logger.h:173-198. -/
def sub (parent : Str) (name : String) : Str := appendName parent name.toList

/-! ## Values -/

/-- `operator<<` for signed integers. -/
def intText (z : ℤ) : Str := if z < 0 then '-' :: decimal z.natAbs else decimal z.natAbs

/-- `std::size_t` and `unsigned int`. -/
def natE (name : Str) (n : ℕ) : Entry := ⟨name, .data (decimal n)⟩

/-- `int` and `std::ptrdiff_t`. -/
def intE (name : Str) (z : ℤ) : Entry := ⟨name, .data (intText z)⟩

/-- `bool`: streams are not in the mode `std::boolalpha`. -/
def boolE (name : Str) (b : Bool) : Entry := natE name (if b then 1 else 0)

/-- `std::string`. -/
def textE (name : Str) (s : Str) : Entry := ⟨name, .text s⟩

/-- `std::vector` of numbers without a fractional part. -/
def listE (name : Str) (l : List ℕ) : Entry := ⟨name, .vector (l.map decimal)⟩

/-- `double`. -/
def numE (name : Str) (x : K) : Entry := ⟨name, .data (num x)⟩

/-- `Eigen::VectorXd`: a matrix with one column. -/
def vecE (name : Str) (v : Vec K) : Entry := ⟨name, .matrix ((List.range v.n).map fun i => [num (v.e i)])⟩

/-- Coefficients of `Solution::x_`: a matrix with one column. -/
def colE (name : Str) (l : List K) : Entry := ⟨name, .matrix (l.map fun x => [num x])⟩

/-- `etools::Vector2`, `etools::Vector3`, …: a matrix with one column. -/
def finE {n : ℕ} (name : Str) (v : Fin n → K) : Entry := ⟨name, .matrix ((List.finRange n).map fun i => [num (v i)])⟩

/-- `Eigen::MatrixXd`. -/
def matE (name : Str) (M : Mat K) : Entry := ⟨name, .matrix ((List.range M.rows).map fun i => (List.range M.cols).map fun j => num (M.e i j))⟩

/-- `etools::Matrix2`, `etools::Matrix3`. -/
def sqE {n : ℕ} (name : Str) (M : Fin n → Fin n → K) : Entry :=
  ⟨name, .matrix ((List.finRange n).map fun i => (List.finRange n).map fun j => num (M i j))⟩

/-! ## Enumerations -/

/-- `ConstraintActivationType::Type`, active_set.h:20-36. -/
def actCode : Act → ℕ
  | .undefined => 0
  | .inactive => 1
  | .lowerBound => 2
  | .upperBound => 3
  | .equality => 4

/-- `SolverStatus::Status`, solution.h:20-26. -/
def statusCode : SolverStatus → ℕ
  | .undefined => 0
  | .ok => 1
  | .maxIter => 2
  | .other => 3

/-- `StanceType::Type`, stance_finite_state_machine.h:20-41. -/
def stanceCode : StanceType → ℕ
  | .undefined => 0
  | .ds => 1
  | .lss => 2
  | .rss => 3
  | .tds => 4

/-- `StanceSubType::Type`, stance_finite_state_machine.h:47-63. -/
def subtypeCode : StanceSubType → ℕ
  | .undefined => 0
  | .first => 1
  | .intermediate => 2
  | .last => 3

/-- `QPObjective::HessianType`, qp_problem.h:29-35. -/
def hessianCode : HessianType → ℕ
  | .undefined => 0
  | .generic => 1
  | .diagonal => 2
  | .lowerTriangular => 3

/-! ## Core -/

/-- `Location::log`, utility.h:256-266 (by default the name is `location`). -/
def logLocation (l : Location) (parent : Str) (name : String) : List Entry :=
  let s := sub parent name
  [natE (sub s "offset") l.offset, natE (sub s "length") l.length]

/-- `ActiveSetConstraints::log`, active_set.h:266-271. -/
def logActiveSetC (a : ActiveSetC) (parent : Str) (name : String) : List Entry := [listE (sub parent name) (a.map actCode)]

/-- `for (std::size_t i = 0; i < list.size(); ++i)  list[i].log(logger, LogEntryName(s).add(i), "")`. -/
def logEach {α : Type} (f : α → Str → String → List Entry) (l : List α) (s : Str) : List Entry :=
  l.zipIdx.flatMap fun x => f x.1 (appendIndex s x.2) ""

/-- `ActiveSet::log`, active_set.h:373-383 (`active_set`). -/
def logActiveSet (a : ActiveSetH) (parent : Str) (name : String) : List Entry := logEach logActiveSetC a (sub parent name)

/-- `ViolationsConstraints::log`, violations.h:218-228. -/
def logViolationsC (v : ViolationsC K) (parent : Str) (name : String) : List Entry :=
  let s := sub parent name
  [vecE num (sub s "violations") v.data, vecE num (sub s "lower_bound_diff") v.lower, vecE num (sub s "upper_bound_diff") v.upper]

/-- `Violations::log`, violations.h:328-337 (`violations`). -/
def logViolations (v : List (ViolationsC K)) (parent : Str) (name : String) : List Entry :=
  logEach (logViolationsC num) v (sub parent name)

/-- `Solution::log`, solution.h:351-360 (`solution`). -/
def logSolution (x : Solution K) (parent : Str) (name : String) : List Entry :=
  let s := sub parent name
  [colE num (sub s "x") x.x, natE (sub s "status") (statusCode x.status)]

/-- `qpoases::Solution::log`, bridges/qpOASES/interface/qpoases/solution.h:55-65 (`solution`). -/
def logQpoasesSolution (x : Solution K) (iterations code : ℤ) (parent : Str) (name : String) : List Entry :=
  let s := sub parent name
  logSolution num x s "" ++ [intE (sub s "number_of_iterations") iterations, intE (sub s "qpoases_return_value") code]

/-- `qpmad::Solution::log`, bridges/qpmad/interface/qpmad/solution.h:51-60 (`solution`). -/
def logQpmadSolution (x : Solution K) (code : ℤ) (parent : Str) (name : String) : List Entry :=
  let s := sub parent name
  logSolution num x s "" ++ [intE (sub s "qpmad_return_value") code]

/-- `quadprogpp::Solution::log`, bridges/QuadProgpp/interface/quadprogpp/solution.h:52-61 (`solution`). -/
def logQuadprogSolution (x : Solution K) (value : K) (parent : Str) (name : String) : List Entry :=
  let s := sub parent name
  logSolution num x s "" ++ [numE num (sub s "quadprogpp_return_value") value]

/-- `logBody` of the mixins, constraints_mixins.h:476-481, 623-629, 780-785, 922-930. -/
def logBody (c : Ctr K) (parent : Str) (name : String) : List Entry :=
  match c.ctype.body with
  | .a => [matE num (sub (sub parent name) "A") c.data.A]
  | .as => [matE num (sub (sub parent name) "A") c.data.A, intE (sub (sub parent name) "offset") c.data.offset]
  | .i => [vecE decimal (sub (sub parent name) "A") c.data.idx]
  | .gi =>
    let s := sub parent name
    [vecE decimal (sub (sub s "") "A") c.data.idx, vecE num (sub s "Agains") c.data.gains]

/-- `logBounds` of the mixins, constraints_mixins.h:56-61, 149-154, 240-245, 318-323, 388-396. -/
def logBounds (c : Ctr K) (parent : Str) (name : String) : List Entry :=
  match c.ctype.bounds with
  | .b0 => []
  | .b => [vecE num (sub (sub parent name) "b") c.data.b]
  | .l => [vecE num (sub (sub parent name) "lb") c.data.lb]
  | .u => [vecE num (sub (sub parent name) "ub") c.data.ub]
  | .lu =>
    let s := sub parent name
    [vecE num (sub (sub s "") "lb") c.data.lb, vecE num (sub (sub s "") "ub") c.data.ub]

/-- `ConstraintsBase::log`, constraints_base.h:238-249 (`constraints`). -/
def logConstraints (c : Ctr K) (parent : Str) (name : String) : List Entry :=
  let s := sub parent name
  natE (sub s "number_of_variables") c.nvars :: (logBody num c s "" ++ logBounds num c s "")

/-- What the classes of modules/pepper_ik add to their logs: task_tagpose.h:51-59, task_tagpose3dof.h:53-61, task_tagorient.h:53-62,
task_tagcompletevel.h:51-59, task_tagangularvel.h:51-59, task_basecom.h:54-61, task_baseorient.h:54-61, task_bodycom.h:49-57,
task_jointsref.h:50-59. Tasks of other classes have the default implementation. -/
inductive Own (K : Type) where
  | nothing
  | tagPose (k : K) (tag : Str)
  | tagOrientation (k : K) (tag : Str) (rpy : Fin 3 → K)
  | tagCompleteVelocity (k : K) (tag : Str)
  | tagAngularVelocity (k : K) (tag : Str)
  | baseCoM (k : K)
  | baseOrientation (k : K)
  | bodyCoM (k : K) (axes : ℤ)
  | jointsReference (k : K) (reference : Fin Ik.jointsDof → K)

/-- Members of a task which are not in the model of tasks: `string_description_` (task.h:33), `gain_` (task.h:307, 398), the members of
the classes of modules/pepper_ik. -/
structure Label (K : Type) where
  description : Str
  gain : K
  own : Own K

/-- `logTask`: of general tasks (task.h:347-352), of tasks with gains for all variables (task.h:438-443), of simple tasks
(task.h:512-516), and of the classes of modules/pepper_ik, which call the former. -/
def logTask (body : BodyKind) (l : Label K) (parent : Str) (name : String) : List Entry :=
  let s := sub parent name
  (match body with
    | .i => []
    | _ => [numE num (sub s "gain") l.gain]) ++
  (match l.own with
    | .nothing => []
    | .tagPose k tag => [numE num (sub s "k_pose_gain") k, textE (sub s "tag_string_id") tag]
    | .tagOrientation k tag rpy =>
      [numE num (sub s "k_orientation_gain") k, textE (sub s "tag_string_id") tag, finE num (sub s "reference_rpy") rpy]
    | .tagCompleteVelocity k tag => [numE num (sub s "k_complete_velocity_gain") k, textE (sub s "tag_string_id") tag]
    | .tagAngularVelocity k tag => [numE num (sub s "k_angular_velocity_gain") k, textE (sub s "tag_string_id") tag]
    | .baseCoM k => [numE num (sub s "k_position_gain") k]
    | .baseOrientation k => [numE num (sub s "k_orientation_gain") k]
    | .bodyCoM k axes => [numE num (sub s "k_position_gain") k, intE (sub s "axis_flag") axes]
    | .jointsReference k reference => [numE num (sub s "k_position_gain") k, finE num (sub s "joint_angles_reference") reference])

/-- `TaskBase::log`, task.h:272-287 (`task`). -/
def logTaskBase {E : Type} (t : Task E K) (l : Label K) (parent : Str) (name : String) : List Entry :=
  let s := sub parent name
  textE (sub s "id") l.description ::
    (logTask num t.ctr.ctype.body l s "" ++ (logActiveSetC t.guess s "active_set_guess" ++
      (logActiveSetC t.actual s "active_set_actual" ++ logConstraints num t.ctr s "")))

/-- `HierarchyLevel::log`, hierarchy_level.h:504-523; `labels` are those of the tasks. -/
def logLevel {E : Type} (L : Level E K) (labels : ℕ → Label K) (parent : Str) (name : String) : List Entry :=
  let s := sub parent name
  L.tasks.zipIdx.flatMap fun x =>
    let s := appendIndex s x.2
    logLocation x.1.loc s "location" ++ logTaskBase num x.1.task (labels x.2) s ""

/-- `OptimizationProblem::log`, hierarchy.h:293-304: the argument `name` is not used. -/
def logProblem {E : Type} (P : Hierarchy E K) (labels : ℕ → ℕ → Label K) (parent : Str) (_name : String) : List Entry :=
  let s := sub parent "tasks"
  P.levels.zipIdx.flatMap fun x => logLevel num x.1 (labels x.2) (appendIndex s x.2) ""

/-- `QPObjective::log`, qp_problem.h:186-197 (`objective`); the second argument is the code of `status_`. -/
def logObjective (q : QPObjective K) (status : ℕ) (parent : Str) (name : String) : List Entry :=
  let s := sub parent name
  [matE num (sub s "H") q.H, vecE num (sub s "g") q.g, natE (sub s "hessian_type") (hessianCode q.hessianType), natE (sub s "status") status]

/-- `ConstraintsBase::log` of `ContainerALU`, constraints_base.h:238-249, 281-285. -/
def logALU (c : ContainerALU K) (parent : Str) (name : String) : List Entry :=
  let s := sub parent name
  [natE (sub s "number_of_variables") c.nvars, matE num (sub s "A") c.A, vecE num (sub s "lb") c.lb, vecE num (sub s "ub") c.ub]

/-- `ConstraintsBase::log` of `ContainerAL`, constraints_base.h:238-249, 291-295. -/
def logAL (c : ContainerAL K) (parent : Str) (name : String) : List Entry :=
  let s := sub parent name
  [natE (sub s "number_of_variables") c.nvars, matE num (sub s "A") c.A, vecE num (sub s "lb") c.lb]

/-- `ConstraintsBase::log` of `ContainerAB`, constraints_base.h:238-249, 301-305. -/
def logAB (c : ContainerAB K) (parent : Str) (name : String) : List Entry :=
  let s := sub parent name
  [natE (sub s "number_of_variables") c.nvars, matE num (sub s "A") c.A, vecE num (sub s "b") c.b]

/-- `ConstraintsBase::log` of `ContainerILU`, constraints_base.h:238-249, 311-365. -/
def logILU (c : ContainerILU K) (parent : Str) (name : String) : List Entry :=
  let s := sub parent name
  [natE (sub s "number_of_variables") c.nvars, vecE decimal (sub s "A") c.idx, vecE num (sub s "lb") c.lb, vecE num (sub s "ub") c.ub]

/-- `QPConstraints_ILU_ALU::log`, qp_problem.h:283-294 (`constraints`). -/
def logILUALU (c : QPConstraintsILUALU K) (parent : Str) (name : String) : List Entry :=
  let s := sub parent name
  logILU num c.bounds s "bounds" ++ (logALU num c.general s "general_constraints" ++
    [vecE num (sub s "lb") c.lb, vecE num (sub s "ub") c.ub])

/-- `QPConstraints_AB_AL::log`, qp_problem.h:352-361 (`constraints`). -/
def logABAL (c : QPConstraintsABAL K) (parent : Str) (name : String) : List Entry :=
  let s := sub parent name
  logAB num c.eq s "equality_constraints" ++ logAL num c.ineq s "inequality_constraints"

/-- `QPConstraints_AB::log`, qp_problem.h:407-414 (`constraints`). -/
def logABOnly (c : ContainerAB K) (parent : Str) (name : String) : List Entry :=
  let s := sub parent name
  logAB num c s "equality_constraints"

/-- `QPProblemBase::log`, qp_problem.h:434-441 (`qp_problem`). -/
def logQP (q : QPObjective K) (status : ℕ) (constraints : Str → String → List Entry) (parent : Str) (name : String) : List Entry :=
  let s := sub parent name
  logObjective num q status s "objective" ++ constraints s "constraints"

/-- `log` of the solvers: bridges/qpOASES/interface/qpoases/solver.h:530-536 (`qpoases`), bridges/qpmad/interface/qpmad/solver.h:182-188
(`qpmad`), bridges/QuadProgpp/interface/quadprogpp/solver.h:151-157 (`quadprogpp`), core/include/kktsolver.h:243-249 (`kktsolver`). -/
def logSolver (q : QPObjective K) (status : ℕ) (constraints : Str → String → List Entry) (parent : Str) (name : String) : List Entry :=
  let s := sub parent name
  logQP num q status constraints s "qp_problem"

/-! ## Rigid bodies and walking -/

/-- `PointMassState::log`, point_mass_state.h:101-110 (`point_mass_state`). -/
def logPointMass (x : PointMassState K) (parent : Str) (name : String) : List Entry :=
  let s := sub parent name
  [finE num (sub s "position") x.position, finE num (sub s "velocity") x.velocity, finE num (sub s "acceleration") x.acceleration]

/-- `RotaryState::log`, rotary_state.h:308-317 (`rotary_state`). -/
def logRotary (x : RigidBodyState K) (parent : Str) (name : String) : List Entry :=
  let s := sub parent name
  [finE num (sub s "rpy") x.rpy, finE num (sub s "angular_velocity") x.angularVelocity,
    finE num (sub s "angular_acceleration") x.angularAcceleration]

/-- `RigidBodyState::log`, rigid_body_state.h:158-164 (`rigid_body_state`). -/
def logRigidBody (x : RigidBodyState K) (parent : Str) (name : String) : List Entry :=
  logPointMass num ⟨x.position, x.velocity, x.acceleration⟩ parent name ++ logRotary num x parent name

/-- `RigidBodyPose::log`, rigid_body_state.h:83-92 (`rigid_body_pose`). -/
def logPose (position rpy : Fin 3 → K) (parent : Str) (name : String) : List Entry :=
  let s := sub parent name
  [finE num (sub s "position") position, finE num (sub s "rpy") rpy]

/-- `RobotFootParameters::log`, robot_foot_parameters.h:320-332 (`robot_foot_parameters`). -/
def logFootParameters (p : FootParameters K) (parent : Str) (name : String) : List Entry :=
  let s := sub parent name
  [numE num (sub s "max_step_len") p.maxStepLen, numE num (sub s "min_feet_dist") p.minFeetDist,
    numE num (sub s "max_feet_dist") p.maxFeetDist, numE num (sub s "feet_dist_default") p.feetDistDefault,
    numE num (sub s "foot_length") p.footLength, numE num (sub s "foot_width") p.footWidth]

/-- `Stance::log`, stance_finite_state_machine.h:211-223 (`stance`). -/
def logStance (x : Stance) (parent : Str) (name : String) : List Entry :=
  let s := sub parent name
  [natE (sub s "type") (stanceCode x.type), natE (sub s "previous_nonds_stance_type") (stanceCode x.prevNonDs),
    natE (sub s "previous_nontds_stance_type") (stanceCode x.prevNonTds), natE (sub s "subtype") (subtypeCode x.subtype),
    natE (sub s "duration_ms") x.duration, natE (sub s "total_duration_ms") x.total]

/-- `StanceFiniteStateMachine::log`, stance_finite_state_machine.h:521-531 (`stance_fsm`). -/
def logFSM (x : FSM) (parent : Str) (name : String) : List Entry :=
  let s := sub parent name
  logStance x.cur s "current_stance" ++
    [natE (sub s "ss_states_to_termination") x.left, natE (sub s "current_time") x.time, boolE (sub s "is_tds_started") x.tdsStarted]

/-! ## modules/wpg04 -/

section
variable (num : ℝ → Str)

/-- `WalkState::log`, preview_horizon.h:75-92. -/
def logWalkState (w : Wpg.WalkState) (parent : Str) (name : String) : List Entry :=
  let s := sub parent name
  [numE num (sub s "theta") w.theta, numE num (sub s "step_height") w.step_height, finE num (sub s "cvel_ref") w.cvel_ref,
    sqE num (sub s "rotation") w.rotation, finE num (sub s "R_cvel_ref") w.R_cvel_ref, sqE num (sub s "fd_bounds") w.fd_bounds,
    sqE num (sub s "cop_bounds") w.cop_bounds] ++ logStance w.stance s "stance"

/-- `PreviewHorizonInterval::log`, preview_horizon.h:119-130. -/
def logWpgInterval (i : Wpg.Interval) (parent : Str) (name : String) : List Entry :=
  let s := sub parent name
  [natE (sub s "state_index") i.state_index, numE num (sub s "omega") i.omega, numE num (sub s "T") i.T,
    finE num (sub s "cvel_ref") i.cvel_ref]

/-- `PreviewHorizon::log`, preview_horizon.h:551-580 (`preview_horizon`). -/
def logWpgHorizon (h : Wpg.Horizon) (parent : Str) (name : String) : List Entry :=
  let s := sub parent name
  listE (sub s "variable_steps_indices") h.variable_steps ::
    (logEach (logWpgInterval num) ((List.range h.intervals.n).map h.intervals.e) (sub s "interval") ++
      logEach (logWalkState num) h.walk_states (sub s "state"))

/-- `MPCforWPG::log`, mpc_wpg.h:626-655 (`mpcwpg`). -/
def logWpgMpc (c : Wpg.Mpc) (parent : Str) (name : String) : List Entry :=
  let s := sub parent name
  logWpgHorizon num c.horizon s "preview_horizon" ++
    [matE num (sub s "R") c.matrices.R.m, matE num (sub s "Rh") c.matrices.Rh.m, matE num (sub s "V") c.matrices.V,
      vecE num (sub s "V0") c.matrices.V0, matE num (sub s "Vfp") c.matrices.Vfp, vecE num (sub s "vfp") c.matrices.vfp,
      matE num (sub s "S") c.matrices.S, vecE num (sub s "s") c.matrices.s, matE num (sub s "Sdz") c.matrices.Sdz,
      vecE num (sub s "sdz") c.matrices.sdz, vecE num (sub s "cop_profile") c.cop_profile,
      vecE num (sub s "dcop_profile") c.dcop_profile, vecE num (sub s "cstate_profile") c.cstate_profile,
      vecE num (sub s "footpos_profile") c.footpos_profile]

/-- `ModelState::log`, model_state.h:179-191 (`model_state`). -/
def logWpgState (x : Wpg.ModelState) (parent : Str) (name : String) : List Entry :=
  let s := sub parent name
  natE (sub s "stance_type") (stanceCode x.stance_type) :: natE (sub s "next_stance_type") (stanceCode x.next_stance_type) ::
    (logPointMass num x.com_state s "com_state" ++ (logRigidBody num x.feet.left s "left_foot_state" ++
      logRigidBody num x.feet.right s "right_foot_state"))

/-- `Model::log`, model.h:222-234 (`model`). -/
def logWpgModel (m : Wpg.Model) (parent : Str) (name : String) : List Entry :=
  let s := sub parent name
  logFootParameters num m.params s "foot_parameters" ++ (logWpgState num m.state s "state" ++
    [finE num (sub s "cstate") m.getCState, finE num (sub s "current_support_position") m.current_support_position])

/-- The objects which are written by an iteration of the program test_000.cpp: the program after the solver, the active sets, and members
of the solver and of the solutions which are not in the model of the program. -/
structure WpgStep where
  program : Wpg.Program
  labels : ℕ → ℕ → Label ℝ
  status : ℕ
  iterations : ℤ
  code : ℤ
  oldIterations : ℤ
  oldCode : ℤ
  activeSetGuess : ActiveSetH
  activeSetActual : ActiveSetH

/-- `prefix = humoto::LogEntryName("humoto").add(i)`, modules/wpg04/tests/test_000.cpp:109. -/
def wpgPrefix (i : ℕ) : Str := appendIndex (sub [] "humoto") i

/-- Logging of an iteration, modules/wpg04/tests/test_000.cpp:155-166. -/
def logWpgStep (x : WpgStep) (s : Str) : List Entry :=
  logProblem num x.program.problem.hierarchy x.labels s "" ++ (
  logSolver num x.program.solver.mem.problem.1 x.status (logILUALU num x.program.solver.mem.problem.2) s "qpoases" ++ (
  logQpoasesSolution num x.program.solution x.iterations x.code s "solution" ++ (
  logFSM x.program.fsm s "stance_fsm" ++ (
  logWpgMpc num x.program.mpc s "mpcwpg" ++ (
  logWpgModel num x.program.model s "model" ++ (
  logActiveSet x.activeSetGuess s "active_set_guess" ++ (
  logActiveSet x.activeSetActual s "active_set_actual" ++ (
  logSolution num x.program.solutionGuess s "solution_guess" ++
  logQpoasesSolution num x.program.oldSolution x.oldIterations x.oldCode s "old_solution"))))))))

/-- Everything that is written by the loop, modules/wpg04/tests/test_000.cpp:107-170. -/
def logWpgProgram (steps : List WpgStep) : List Entry := steps.zipIdx.flatMap fun x => logWpgStep num x.1 (wpgPrefix x.2)

end

/-! ## modules/pepper_mpc -/

/-- `PreviewHorizonInterval::log`, preview_horizon.h:121-140. -/
def logMgInterval (i : Pepper.Interval K) (parent : Str) (name : String) : List Entry :=
  let s := sub parent name
  [numE num (sub s "base_height") i.base_height, numE num (sub s "body_height") i.body_height, numE num (sub s "base_mass") i.base_mass,
    numE num (sub s "body_mass") i.body_mass, numE num (sub s "T") i.T, natE (sub s "T_ms") i.T_ms,
    finE num (sub s "base_vel_ref") i.base_vel_ref, finE num (sub s "base_pos_ref") i.base_pos_ref, numE num (sub s "theta") i.theta,
    sqE num (sub s "rotation") i.rotation, sqE num (sub s "body_bounds") i.body_bounds, sqE num (sub s "cop_bounds") i.cop_bounds,
    sqE num (sub s "nominal_base_velocity_bounds") i.nominal_base_velocity_bounds,
    sqE num (sub s "nominal_base_acceleration_bounds") i.nominal_base_acceleration_bounds]

/-- `PreviewHorizon::log`, preview_horizon.h:423-434 (`preview_horizon`). -/
def logMgHorizon (l : List (Pepper.Interval K)) (parent : Str) (name : String) : List Entry :=
  logEach (logMgInterval num) l (sub (sub parent name) "interval")

/-- `MPCforMG::log`, mpc_mg.h:713-744 (`mpcmg`). -/
def logMg (c : Pepper.Mpc K) (parent : Str) (name : String) : List Entry :=
  let s := sub parent name
  logMgHorizon num c.intervals s "preview_horizon" ++
    [matE num (sub s "R") c.matrices.R.m, matE num (sub s "S") c.matrices.S, vecE num (sub s "s") c.matrices.s,
      vecE num (sub s "sp") c.matrices.sp, matE num (sub s "Ap") c.matrices.Ap, vecE num (sub s "sas") c.matrices.sas,
      matE num (sub s "Aas") c.matrices.Aas, vecE num (sub s "sps") c.matrices.sps, matE num (sub s "Aps") c.matrices.Aps,
      vecE num (sub s "sjs") c.matrices.sjs, matE num (sub s "Ajs") c.matrices.Ajs, vecE num (sub s "base_controls") c.base_controls,
      vecE num (sub s "body_controls") c.body_controls, vecE num (sub s "cstate_profile") c.cstate_profile,
      vecE num (sub s "jerk_profile") c.base_jerk_profile, vecE num (sub s "cop_profile") c.cop_profile]

/-- `ModelState::log`, model_state.h:195-206 (`model_state`). -/
def logMgState (x : Pepper.ModelState K) (parent : Str) (name : String) : List Entry :=
  let s := sub parent name
  numE num (sub s "base_mass") x.base_mass :: numE num (sub s "body_mass") x.body_mass ::
    (logRigidBody num x.base_state s "base_state" ++ logPointMass num x.body_state s "body_state")

/-- `Model::log`, model.h:371-380 (`model`). -/
def logMgModel [Field K] (m : Pepper.Model K) (parent : Str) (name : String) : List Entry :=
  let s := sub parent name
  logMgState num m.state s "state" ++
    [vecE num (sub s "mpc_state") m.getMPCState, finE num (sub s "current_base_position") m.current_base_position]

/-- The objects which are written by an iteration of the program modules/pepper_mpc/tests/test_000.cpp. -/
structure MgStep (K : Type) where
  program : Pepper.Program K
  labels : ℕ → ℕ → Label K
  status : ℕ
  iterations : ℤ
  code : ℤ

/-- Logging of an iteration, modules/pepper_mpc/tests/test_000.cpp:110, 134-138. -/
def logMgStep [Field K] (x : MgStep K) (s : Str) : List Entry :=
  logProblem num x.program.problem.hierarchy x.labels s "" ++ (
  logSolver num x.program.solver.mem.problem.1 x.status (logILUALU num x.program.solver.mem.problem.2) s "qpoases" ++ (
  logMg num x.program.mpc s "mpcmg" ++ (
  logMgModel num x.program.model s "model" ++
  logQpoasesSolution num x.program.solution x.iterations x.code s "solution")))

/-- Everything that is written by the loop, modules/pepper_mpc/tests/test_000.cpp:108-150. -/
def logMgProgram [Field K] (steps : List (MgStep K)) : List Entry := steps.zipIdx.flatMap fun x => logMgStep num x.1 (wpgPrefix x.2)

/-! ## modules/pepper_ik -/

/-- `GeneralizedCoordinates::log`, generalized_coordinates.h:135-142 (`model_state`). -/
def logCoords {root : Ik.Root} (num : Ik.Dbl K → Str) (g : Ik.Coords K root) (parent : Str) (name : String) :
    List Entry :=
  [finE num (sub (sub parent name) "root_pose") g.root_pose, finE num (sub (sub parent name) "joint_angles") g.joint_angles]

/-- `RobotCommand::log`, model.h:37-48 (`robot_command`). -/
def logCommand (num : Ik.Dbl K → Str) (c : Ik.RobotCommand K) (parent : Str) (name : String) : List Entry :=
  let s := sub parent name
  [finE num (sub s "joint_angles") c.joint_angles, finE num (sub s "wheel_velocities") c.wheel_velocities,
    finE num (sub s "base_velocities") c.base_velocities, numE num (sub s "time_interval") c.time_interval]

/-- `Model::log`, model.h:786-795 (`model`). -/
def logIkModel {root : Ik.Root} (num : Ik.Dbl K → Str) (m : Ik.IkModel K root) (parent : Str) (name : String) :
    List Entry :=
  let s := sub parent name
  logCoords num m.generalized_coordinates s "state" ++
    [sqE (fun x => num (.fin x)) (sub s "root_motion_to_wheels") m.root_motion_to_wheels]

/-- The objects which are written by an iteration of the inner loop of the program modules/pepper_ik/tests/test_001.cpp: the optimization
problem, the QP with equality constraints in the solver, the solution. -/
structure IkInner (K : Type) where
  levels : Hierarchy Unit K
  labels : ℕ → ℕ → Label K
  objective : QPObjective K
  status : ℕ
  constraints : ContainerAB K
  solution : Solution K

/-- The objects which are written by an iteration of the outer loop of the program modules/pepper_ik/tests/test_001.cpp. -/
structure IkOuter (K : Type) (root : Ik.Root) where
  inner : List (IkInner K)
  coords : Ik.Coords K root
  command : Ik.RobotCommand K
  model : Ik.IkModel K root

/-- Logging of an iteration of the inner loop, modules/pepper_ik/tests/test_001.cpp:160-162. -/
def logIkInner (x : IkInner K) (s : Str) : List Entry :=
  logProblem num x.levels x.labels s "" ++ (
  logSolver num x.objective x.status (logABOnly num x.constraints) s "kktsolver" ++
  logSolution num x.solution s "solution")

/-- Logging of an iteration of the outer loop, modules/pepper_ik/tests/test_001.cpp:133-162, 226-229. -/
def logIkOuter {root : Ik.Root} (num : Ik.Dbl K → Str) (x : IkOuter K root) (i : ℕ) : List Entry :=
  (x.inner.zipIdx.flatMap fun y => logIkInner (fun v => num (.fin v)) y.1 (appendIndex (appendIndex (sub [] "ik_loop") i) y.2)) ++ (
  logCoords num x.coords (appendIndex (sub [] "control_loop") i) "model_state" ++ (
  logCommand num x.command (appendIndex (sub [] "control_loop") i) "robot_command" ++
  logIkModel num x.model (appendIndex (sub [] "control_loop") i) "model"))

/-- Everything that is written by the loop, modules/pepper_ik/tests/test_001.cpp:118-235. -/
def logIkProgram {root : Ik.Root} (num : Ik.Dbl K → Str) (steps : List (IkOuter K root)) : List Entry :=
  steps.zipIdx.flatMap fun x => logIkOuter num x.1 x.2

end Humoto.LogTree
