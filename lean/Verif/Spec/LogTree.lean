import Verif.Spec.LogText
import Verif.Model.LogTree

/-!
# Contents of logs

What the logs of objects contain: a structure for an object, its members are named, arrays are cells.
-/

namespace Humoto.LogTree.Spec

open LogName LogText LogText.Spec

variable {K : Type} (num : K → Str)

/-- A natural number. -/
def nat (n : ℕ) : Contents := leaf (.number (decimal n))

/-- An integer. -/
def int (z : ℤ) : Contents := leaf (.number ((if z < 0 then ['-'] else []) ++ decimal z.natAbs))

/-- A string. -/
def text (s : Str) : Contents := leaf (.string s)

/-- A real number. -/
def real (x : K) : Contents := leaf (.number (num x))

/-- A column of real numbers. -/
def column (l : List K) : Contents := leaf (.matrix (l.map fun x => [num x]))

/-- A dynamic vector. -/
def vec (v : Vec K) : Contents := column num ((List.range v.n).map v.e)

/-- A vector of a constant size. -/
def fin {n : ℕ} (v : Fin n → K) : Contents := column num (List.ofFn v)

/-- A dynamic matrix: rows. -/
def mat (M : Mat K) : Contents :=
  leaf (.matrix (if M.rows = 0 ∨ M.cols = 0 then [] else (List.range M.rows).map fun i => (List.range M.cols).map fun j => num (M.e i j)))

/-- A square matrix of a constant size: rows. -/
def square {n : ℕ} (M : Fin n → Fin n → K) : Contents := leaf (.matrix (List.ofFn fun i => List.ofFn fun j => num (M i j)))

/-! Members of enumerations are written as numbers: their places in the lists below. -/

/-- Activation of a constraint. -/
def actNumber (a : Act) : ℕ := [.undefined, .inactive, .lowerBound, .upperBound, .equality].idxOf a

/-- Status of a solver. -/
def statusNumber (s : SolverStatus) : ℕ := [.undefined, .ok, .maxIter, .other].idxOf s

/-- Type of a stance: double support, supports by the left and by the right foot, transitional double support. -/
def stanceNumber (t : StanceType) : ℕ := [.undefined, .ds, .lss, .rss, .tds].idxOf t

/-- Place of a stance within a larger one. -/
def subtypeNumber (t : StanceSubType) : ℕ := [.undefined, .first, .intermediate, .last].idxOf t

/-- Type of a Hessian. -/
def hessianNumber (t : HessianType) : ℕ := [.undefined, .generic, .diagonal, .lowerTriangular].idxOf t

/-- Active set of a level or of a task. -/
def activeSetC (a : ActiveSetC) : Contents := column decimal (a.map actNumber)

/-- Active set of a hierarchy. -/
def activeSet (a : ActiveSetH) : Contents := cells (a.map activeSetC)

/-- Violations of a level. -/
def violationsC (v : ViolationsC K) : Contents :=
  fields [("violations", vec num v.data), ("lower_bound_diff", vec num v.lower), ("upper_bound_diff", vec num v.upper)]

/-- Violations of a hierarchy. -/
def violations (v : List (ViolationsC K)) : Contents := cells (v.map (violationsC num))

/-- Members of a solution. -/
def solutionFields (x : Solution K) : List (String × Contents) := [("x", column num x.x), ("status", nat (statusNumber x.status))]

/-- A solution. -/
def solution (x : Solution K) : Contents := fields (solutionFields num x)

/-- A solution of qpOASES. -/
def qpoasesSolution (x : Solution K) (iterations code : ℤ) : Contents :=
  fields (solutionFields num x ++ [("number_of_iterations", int iterations), ("qpoases_return_value", int code)])

/-- A solution of qpmad. -/
def qpmadSolution (x : Solution K) (code : ℤ) : Contents := fields (solutionFields num x ++ [("qpmad_return_value", int code)])

/-- A solution of QuadProg++. -/
def quadprogSolution (x : Solution K) (value : K) : Contents := fields (solutionFields num x ++ [("quadprogpp_return_value", real num value)])

/-- A location. -/
def location (l : Location) : Contents := fields [("offset", nat l.offset), ("length", nat l.length)]

/-- The matrix of constraints: a matrix, a matrix with an offset, indices of variables, indices of variables with gains. -/
def bodyFields (c : Ctr K) : List (String × Contents) :=
  match c.ctype.body with
  | .a => [("A", mat num c.data.A)]
  | .as => [("A", mat num c.data.A), ("offset", int c.data.offset)]
  | .i => [("A", vec decimal c.data.idx)]
  | .gi => [("A", vec decimal c.data.idx), ("Agains", vec num c.data.gains)]

/-- Those bounds which the class of constraints has. -/
def boundFields (c : Ctr K) : List (String × Contents) :=
  match c.ctype.bounds with
  | .b0 => []
  | .b => [("b", vec num c.data.b)]
  | .l => [("lb", vec num c.data.lb)]
  | .u => [("ub", vec num c.data.ub)]
  | .lu => [("lb", vec num c.data.lb), ("ub", vec num c.data.ub)]

/-- The gain of a task: simple tasks have none. -/
def gainFields (body : BodyKind) (l : Label K) : List (String × Contents) := if body = .i then [] else [("gain", real num l.gain)]

/-- Parameters of the tasks of inverse kinematics. -/
def ownFields (o : Own K) : List (String × Contents) :=
  match o with
  | .nothing => []
  | .tagPose k tag => [("k_pose_gain", real num k), ("tag_string_id", text tag)]
  | .tagOrientation k tag rpy => [("k_orientation_gain", real num k), ("tag_string_id", text tag), ("reference_rpy", fin num rpy)]
  | .tagCompleteVelocity k tag => [("k_complete_velocity_gain", real num k), ("tag_string_id", text tag)]
  | .tagAngularVelocity k tag => [("k_angular_velocity_gain", real num k), ("tag_string_id", text tag)]
  | .baseCoM k => [("k_position_gain", real num k)]
  | .baseOrientation k => [("k_orientation_gain", real num k)]
  | .bodyCoM k axes => [("k_position_gain", real num k), ("axis_flag", int axes)]
  | .jointsReference k reference => [("k_position_gain", real num k), ("joint_angles_reference", fin num reference)]

/-- A task of a level. -/
def task {E : Type} (t : TaskInfo E K) (l : Label K) : Contents :=
  fields ([("location", location t.loc), ("id", text l.description)] ++ gainFields num t.task.ctr.ctype.body l ++ ownFields num l.own ++
    [("active_set_guess", activeSetC t.task.guess), ("active_set_actual", activeSetC t.task.actual),
      ("number_of_variables", nat t.task.ctr.nvars)] ++ bodyFields num t.task.ctr ++ boundFields num t.task.ctr)

/-- A level: tasks. -/
def level {E : Type} (L : Level E K) (labels : ℕ → Label K) : Contents :=
  cells (L.tasks.zipIdx.map fun x => task num x.1 (labels x.2))

/-- A hierarchy: levels. -/
def problem {E : Type} (P : Hierarchy E K) (labels : ℕ → ℕ → Label K) : Contents :=
  cells (P.levels.zipIdx.map fun x => level num x.1 (labels x.2))

/-- The objective of a QP. -/
def objective (q : QPObjective K) (status : ℕ) : Contents :=
  fields [("H", mat num q.H), ("g", vec num q.g), ("hessian_type", nat (hessianNumber q.hessianType)), ("status", nat status)]

/-- Equality constraints. -/
def containerAB (c : ContainerAB K) : Contents := fields [("number_of_variables", nat c.nvars), ("A", mat num c.A), ("b", vec num c.b)]

/-- One-sided inequality constraints. -/
def containerAL (c : ContainerAL K) : Contents := fields [("number_of_variables", nat c.nvars), ("A", mat num c.A), ("lb", vec num c.lb)]

/-- Two-sided inequality constraints. -/
def containerALU (c : ContainerALU K) : Contents :=
  fields [("number_of_variables", nat c.nvars), ("A", mat num c.A), ("lb", vec num c.lb), ("ub", vec num c.ub)]

/-- Bounds of variables. -/
def containerILU (c : ContainerILU K) : Contents :=
  fields [("number_of_variables", nat c.nvars), ("A", vec decimal c.idx), ("lb", vec num c.lb), ("ub", vec num c.ub)]

/-- Constraints of qpOASES and of qpmad. -/
def constraintsILUALU (c : QPConstraintsILUALU K) : Contents :=
  fields [("bounds", containerILU num c.bounds), ("general_constraints", containerALU num c.general), ("lb", vec num c.lb), ("ub", vec num c.ub)]

/-- Constraints of QuadProg++. -/
def constraintsABAL (c : QPConstraintsABAL K) : Contents :=
  fields [("equality_constraints", containerAB num c.eq), ("inequality_constraints", containerAL num c.ineq)]

/-- Constraints of the KKT solver. -/
def constraintsAB (c : ContainerAB K) : Contents := fields [("equality_constraints", containerAB num c)]

/-- A solver: the QP in it. -/
def solver (q : QPObjective K) (status : ℕ) (constraints : Contents) : Contents :=
  fields [("qp_problem", fields [("objective", objective num q status), ("constraints", constraints)])]

/-- A point mass. -/
def pointMassFields (position velocity acceleration : Fin 3 → K) : List (String × Contents) :=
  [("position", fin num position), ("velocity", fin num velocity), ("acceleration", fin num acceleration)]

/-- The state of a point mass. -/
def pointMass (x : PointMassState K) : Contents := fields (pointMassFields num x.position x.velocity x.acceleration)

/-- The state of a rigid body. -/
def rigidBody (x : RigidBodyState K) : Contents :=
  fields (pointMassFields num x.position x.velocity x.acceleration ++
    [("rpy", fin num x.rpy), ("angular_velocity", fin num x.angularVelocity), ("angular_acceleration", fin num x.angularAcceleration)])

/-- A pose. -/
def pose (position rpy : Fin 3 → K) : Contents := fields [("position", fin num position), ("rpy", fin num rpy)]

/-- Parameters of feet. -/
def footParameters (p : FootParameters K) : Contents :=
  fields [("max_step_len", real num p.maxStepLen), ("min_feet_dist", real num p.minFeetDist), ("max_feet_dist", real num p.maxFeetDist),
    ("feet_dist_default", real num p.feetDistDefault), ("foot_length", real num p.footLength), ("foot_width", real num p.footWidth)]

/-- A stance. -/
def stance (x : Stance) : Contents :=
  fields [("type", nat (stanceNumber x.type)), ("previous_nonds_stance_type", nat (stanceNumber x.prevNonDs)),
    ("previous_nontds_stance_type", nat (stanceNumber x.prevNonTds)), ("subtype", nat (subtypeNumber x.subtype)),
    ("duration_ms", nat x.duration), ("total_duration_ms", nat x.total)]

/-- The finite state machine. -/
def fsm (x : FSM) : Contents :=
  fields [("current_stance", stance x.cur), ("ss_states_to_termination", nat x.left), ("current_time", nat x.time),
    ("is_tds_started", nat (if x.tdsStarted then 1 else 0))]

section
variable (num : ℝ → Str)

/-- A state of the walk. -/
def walkState (w : Wpg.WalkState) : Contents :=
  fields [("theta", real num w.theta), ("step_height", real num w.step_height), ("cvel_ref", fin num w.cvel_ref),
    ("rotation", square num w.rotation), ("R_cvel_ref", fin num w.R_cvel_ref), ("fd_bounds", square num w.fd_bounds),
    ("cop_bounds", square num w.cop_bounds), ("stance", stance w.stance)]

/-- An interval of the preview horizon. -/
def wpgInterval (i : Wpg.Interval) : Contents :=
  fields [("state_index", nat i.state_index), ("omega", real num i.omega), ("T", real num i.T), ("cvel_ref", fin num i.cvel_ref)]

/-- The preview horizon. -/
def wpgHorizon (h : Wpg.Horizon) : Contents :=
  fields [("variable_steps_indices", column decimal h.variable_steps),
    ("interval", cells (((List.range h.intervals.n).map h.intervals.e).map (wpgInterval num))),
    ("state", cells (h.walk_states.map (walkState num)))]

/-- The control problem. -/
def wpgMpc (c : Wpg.Mpc) : Contents :=
  fields [("preview_horizon", wpgHorizon num c.horizon), ("R", mat num c.matrices.R.m), ("Rh", mat num c.matrices.Rh.m),
    ("V", mat num c.matrices.V), ("V0", vec num c.matrices.V0), ("Vfp", mat num c.matrices.Vfp), ("vfp", vec num c.matrices.vfp),
    ("S", mat num c.matrices.S), ("s", vec num c.matrices.s), ("Sdz", mat num c.matrices.Sdz), ("sdz", vec num c.matrices.sdz),
    ("cop_profile", vec num c.cop_profile), ("dcop_profile", vec num c.dcop_profile), ("cstate_profile", vec num c.cstate_profile),
    ("footpos_profile", vec num c.footpos_profile)]

/-- The state of the model. -/
def wpgState (x : Wpg.ModelState) : Contents :=
  fields [("stance_type", nat (stanceNumber x.stance_type)), ("next_stance_type", nat (stanceNumber x.next_stance_type)),
    ("com_state", pointMass num x.com_state), ("left_foot_state", rigidBody num x.feet.left), ("right_foot_state", rigidBody num x.feet.right)]

/-- The model. -/
def wpgModel (m : Wpg.Model) : Contents :=
  fields [("foot_parameters", footParameters num m.params), ("state", wpgState num m.state), ("cstate", fin num m.getCState),
    ("current_support_position", fin num m.current_support_position)]

/-- An iteration of the walking program. -/
def wpgStep (x : WpgStep) : Contents :=
  fields [("tasks", problem num x.program.problem.hierarchy x.labels),
    ("qpoases", solver num x.program.solver.mem.problem.1 x.status (constraintsILUALU num x.program.solver.mem.problem.2)),
    ("solution", qpoasesSolution num x.program.solution x.iterations x.code), ("stance_fsm", fsm x.program.fsm),
    ("mpcwpg", wpgMpc num x.program.mpc), ("model", wpgModel num x.program.model), ("active_set_guess", activeSet x.activeSetGuess),
    ("active_set_actual", activeSet x.activeSetActual), ("solution_guess", solution num x.program.solutionGuess),
    ("old_solution", qpoasesSolution num x.program.oldSolution x.oldIterations x.oldCode)]

/-- The walking program: all iterations. -/
def wpgProgram (steps : List WpgStep) : Contents := fields [("humoto", cells (steps.map (wpgStep num)))]

end

/-- An interval of the preview horizon. -/
def mgInterval (i : Pepper.Interval K) : Contents :=
  fields [("base_height", real num i.base_height), ("body_height", real num i.body_height), ("base_mass", real num i.base_mass),
    ("body_mass", real num i.body_mass), ("T", real num i.T), ("T_ms", nat i.T_ms), ("base_vel_ref", fin num i.base_vel_ref),
    ("base_pos_ref", fin num i.base_pos_ref), ("theta", real num i.theta), ("rotation", square num i.rotation),
    ("body_bounds", square num i.body_bounds), ("cop_bounds", square num i.cop_bounds),
    ("nominal_base_velocity_bounds", square num i.nominal_base_velocity_bounds),
    ("nominal_base_acceleration_bounds", square num i.nominal_base_acceleration_bounds)]

/-- The control problem. -/
def mg (c : Pepper.Mpc K) : Contents :=
  fields [("preview_horizon", fields [("interval", cells (c.intervals.map (mgInterval num)))]), ("R", mat num c.matrices.R.m),
    ("S", mat num c.matrices.S), ("s", vec num c.matrices.s), ("sp", vec num c.matrices.sp), ("Ap", mat num c.matrices.Ap),
    ("sas", vec num c.matrices.sas), ("Aas", mat num c.matrices.Aas), ("sps", vec num c.matrices.sps), ("Aps", mat num c.matrices.Aps),
    ("sjs", vec num c.matrices.sjs), ("Ajs", mat num c.matrices.Ajs), ("base_controls", vec num c.base_controls),
    ("body_controls", vec num c.body_controls), ("cstate_profile", vec num c.cstate_profile), ("jerk_profile", vec num c.base_jerk_profile),
    ("cop_profile", vec num c.cop_profile)]

/-- The state of the model. -/
def mgState (x : Pepper.ModelState K) : Contents :=
  fields [("base_mass", real num x.base_mass), ("body_mass", real num x.body_mass), ("base_state", rigidBody num x.base_state),
    ("body_state", pointMass num x.body_state)]

/-- The model. -/
def mgModel [Field K] (m : Pepper.Model K) : Contents :=
  fields [("state", mgState num m.state), ("mpc_state", vec num m.getMPCState), ("current_base_position", fin num m.current_base_position)]

/-- An iteration of the program of Pepper. -/
def mgStep [Field K] (x : MgStep K) : Contents :=
  fields [("tasks", problem num x.program.problem.hierarchy x.labels),
    ("qpoases", solver num x.program.solver.mem.problem.1 x.status (constraintsILUALU num x.program.solver.mem.problem.2)),
    ("mpcmg", mg num x.program.mpc), ("model", mgModel num x.program.model),
    ("solution", qpoasesSolution num x.program.solution x.iterations x.code)]

/-- The program of Pepper: all iterations. -/
def mgProgram [Field K] (steps : List (MgStep K)) : Contents := fields [("humoto", cells (steps.map (mgStep num)))]

/-- Generalized coordinates. -/
def coords {root : Ik.Root} (num : Ik.Dbl K → Str) (g : Ik.Coords K root) : Contents :=
  fields [("root_pose", fin num g.root_pose), ("joint_angles", fin num g.joint_angles)]

/-- A command. -/
def command (num : Ik.Dbl K → Str) (c : Ik.RobotCommand K) : Contents :=
  fields [("joint_angles", fin num c.joint_angles), ("wheel_velocities", fin num c.wheel_velocities),
    ("base_velocities", fin num c.base_velocities), ("time_interval", real num c.time_interval)]

/-- The model of inverse kinematics. -/
def ikModel {root : Ik.Root} (num : Ik.Dbl K → Str) (m : Ik.IkModel K root) : Contents :=
  fields [("state", coords num m.generalized_coordinates),
    ("root_motion_to_wheels", square (fun x => num (.fin x)) m.root_motion_to_wheels)]

/-- An iteration of the inner loop of inverse kinematics. -/
def ikInner (x : IkInner K) : Contents :=
  fields [("tasks", problem num x.levels x.labels), ("kktsolver", solver num x.objective x.status (constraintsAB num x.constraints)),
    ("solution", solution num x.solution)]

/-- The end of an iteration of the outer loop of inverse kinematics. -/
def ikControl {root : Ik.Root} (num : Ik.Dbl K → Str) (x : IkOuter K root) : Contents :=
  fields [("model_state", coords num x.coords), ("robot_command", command num x.command), ("model", ikModel num x.model)]

/-- The program of inverse kinematics: iterations of the inner loops, iterations of the outer loop. -/
def ikProgram {root : Ik.Root} (num : Ik.Dbl K → Str) (steps : List (IkOuter K root)) : Contents :=
  fields [("ik_loop", cells (steps.map fun x => cells (x.inner.map (ikInner fun v => num (.fin v))))),
    ("control_loop", cells (steps.map (ikControl num)))]

/-! ## Conditions -/

/-- There are no apostrophes in the strings of a task. -/
def Plain (l : Label K) : Prop :=
  '\'' ∉ l.description ∧
    match l.own with
    | .tagPose _ tag | .tagOrientation _ tag _ | .tagCompleteVelocity _ tag | .tagAngularVelocity _ tag => '\'' ∉ tag
    | _ => True

/-- Sizes of a hierarchy are those of containers. -/
def Fits {E : Type} (P : Hierarchy E K) : Prop := P.levels.length < 2 ^ 64 ∧ ∀ L ∈ P.levels, L.tasks.length < 2 ^ 64

/-- Strings and sizes of an iteration of the walking program. -/
def WpgFits (x : WpgStep) : Prop :=
  Fits x.program.problem.hierarchy ∧ (∀ i j, Plain (x.labels i j)) ∧ x.program.mpc.horizon.intervals.n < 2 ^ 64 ∧
    x.program.mpc.horizon.walk_states.length < 2 ^ 64 ∧ x.activeSetGuess.length < 2 ^ 64 ∧ x.activeSetActual.length < 2 ^ 64

/-- Strings and sizes of an iteration of the program of Pepper. -/
def MgFits (x : MgStep K) : Prop :=
  Fits x.program.problem.hierarchy ∧ (∀ i j, Plain (x.labels i j)) ∧ x.program.mpc.intervals.length < 2 ^ 64

/-- Strings and sizes of the program of inverse kinematics. -/
def IkFits {root : Ik.Root} (l : List (IkOuter K root)) : Prop :=
  l.length < 2 ^ 64 ∧ ∀ x ∈ l, x.inner.length < 2 ^ 64 ∧ ∀ y ∈ x.inner, (∀ i j, Plain (y.labels i j)) ∧ Fits y.levels

end Humoto.LogTree.Spec
