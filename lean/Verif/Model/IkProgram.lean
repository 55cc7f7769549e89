import Verif.Model.IkProblem
import Verif.Model.QpoasesSolver
import Verif.Model.Kkt

/-!
# The programs of Pepper IK: modules/pepper_ik/tests

test_001.cpp, test_003.cpp, regression_test_001.cpp and the inner loops of test_002.cpp, test_004.cpp. In all of them the coordinates of the
robot are displaced again and again, until the displacement (or the error) is small. Reading of the configuration, logging
and time measurement are not modelled; numbers are real.
-/

namespace Humoto

namespace Ik

noncomputable section

open Bridge

variable {root : Root} {σ : Type}

/-- Contents of memory which is not initialised: in tasks (`tasks`, `vectors`), in the solution, in the solver (`objective`, `constraints`,
`diagonal`). -/
structure IkMemory where
  tasks : ℕ → ℕ → ℕ → ℝ
  vectors : ℕ → ℕ → ℝ
  solution : ℕ → ℝ
  objective : ℕ → ℕ → ℝ
  constraints : Junk ℝ
  diagonal : ℕ → ℝ

/-- A solver; it may depend on the contents of the memory. -/
abbrev IkSolver (root : Root) (σ : Type) := IkMemory → Backend (Hierarchy (ProblemEnv root) ℝ) ActiveSetH ℝ σ

/-- `qpoases::Solver`. -/
def qpoasesIk (ext : Qpoases ℝ) : IkSolver root (QpoasesMem ℝ) := fun u => qpoasesBackend ext u.objective u.constraints

/-- `kktsolver::Solver`, kktsolver.h:83-213, with `QPSolverMixin`, core/include/humoto/solver.h:460-490. It has no methods for guesses and
active sets. -/
def kktIk (D : Decompositions ℝ) (par : KktParameters ℝ) : IkSolver root (KktProblem ℝ) := fun u =>
  { checkInputs := fun P s => (qpCheckInputs s.params P, s)
    init := fun P str => changing fun old => do
      let qp ← kktInitialize u.objective u.constraints old P str.nvars
      pure ((), qp)
    setSolutionGuess := fun _ s => (.error .thrown, s)
    setActiveSet := fun _ _ s => (.error .thrown, s)
    solveHierarchy := fun sol _ => changing fun qp => do
      let sol ← kktSolveHierarchy D par u.diagonal qp sol
      pure (sol, qp)
    getActiveSet := fun _ s => (.error .thrown, s) }

/-- `getBasePosition`, model.h:514-517. -/
def Robot.getBasePosition (r : Robot root) : Res (Fin 3 → ℝ) := r.rbdl_model.getLinkPosition r.base_position_tag

/-- The coordinates as they are seen by the checks of limits. -/
def State.coords (g : State root) : Coords ℝ root := ⟨fun i => .fin (g.root_pose i), fun i => .fin (g.joint_angles i)⟩

/-- `saveCurrentState`, model.h:303-309. -/
def Robot.saveCurrentState (r : Robot root) : Res (SavedState ℝ root) := do
  let R ← r.getBaseOrientation
  let p ← r.getBasePosition
  pure ⟨fun i => .fin (p i), R.map .fin, r.state.coords⟩

/-- `checkCurrentState`, model.h:643-646. -/
def Robot.checkCurrentState (r : Robot root) : Res Unit := r.constraints.checkJointPositions r.state.coords.joint_angles

/-- `getRobotCommand`, model.h:527-559, see `IkModel.getRobotCommand`. The position and the orientation of the base are computed before
the checks; for a model which is loaded this makes no difference. A command which is left by an exception is not used. -/
def Robot.getRobotCommand (r : Robot root) (wheels : Mat3 ℝ) (saved : SavedState ℝ root) (command : RobotCommand ℝ) (dt : ℝ) :
    Res (RobotCommand ℝ) := do
  let R ← r.getBaseOrientation
  let p ← r.getBasePosition
  let m : IkModel ℝ root :=
    { kinematics := ⟨fun _ i => .fin (p i), fun _ => R.map .fin⟩
      root_motion_to_wheels := wheels
      saved_state := some saved
      generalized_coordinates := r.state.coords
      constraints := r.constraints
      rbdl_model := r.state.coords }
  match m.getRobotCommand command (.fin dt) with
  | (command, .ok _) => pure command
  | (_, .error e) => .error e

/-- The objects of the programs which survive from iteration to iteration, e.g. test_001.cpp:56-97. -/
structure IkProgram (root : Root) (σ : Type) where
  robot : Robot root
  wbc : Wbc
  problem : IkProblem root
  solver : SolverState σ
  solution : Solution ℝ

/-- `WBCParameters`, common.h:25-70, without the control interval, which is a parameter here. -/
structure WbcParameters where
  joint_angle_error_tolerance : ℝ
  motion_parameters_tolerance : ℝ
  maximal_number_of_iterations : ℕ

/-- `lpNorm<Eigen::Infinity>()`. -/
def normInf (x : List ℝ) : ℝ := x.foldl (fun m a => max m |a|) 0

/-- `norm()` of a vector of size 3. -/
def norm3 (v : Fin 3 → ℝ) : ℝ := Real.sqrt (v 0 ^ 2 + v 1 ^ 2 + v 2 ^ 2)

/-- The size of the error, test_002.cpp:297-299, test_003.cpp:223-225. -/
def errorSize (e : MotionParameters) : ℝ := norm3 e.base_com_position + norm3 e.base_orientation_rpy + norm3 e.body_com_position

/-- Whether the loop stops when the error is small: test_002.cpp:297-302; it does not in test_001.cpp, test_003.cpp, test_004.cpp and
regression_test_001.cpp. -/
inductive StopKind
  | displacement
  | displacementOrError
  deriving DecidableEq

namespace IkProgram

/-- Forming of the problem: e.g. test_001.cpp:140-148. `update` always returns `OK`. The changes which are made if there is an
exception are not modelled. -/
def prepare (u : IkMemory) (q : MotionParameters) (s : IkProgram root σ) : Res (IkProgram root σ) := do
  let w := s.wbc.update root q
  let solution ← initSolutionStructure w.sol_structure s.solution u.solution
  let p ← s.problem.form u.tasks u.vectors s.robot w
  pure { s with wbc := w, problem := p, solution := solution }

/-- Solution of the problem and displacement of the robot: e.g. test_001.cpp:151-178. The exception of the solver is
kept apart, since it is caught in test_003.cpp:156-166. -/
def move (B : IkSolver root σ) (u : IkMemory) (s : IkProgram root σ) : Res (IkProgram root σ × Option Fault) :=
  match (B u).solve s.solution s.problem.hierarchy .plain s.solver with
  | (.ok (solution, _), m) => do
    let (w, g) ← s.wbc.getNextGeneralizedCoordinates solution s.robot
    pure ({ s with robot := s.robot.updateState g, wbc := w, solver := m, solution := solution }, none)
  | (.error e, m) => pure ({ s with solver := m }, some e)

/-- The conditions at the end of the loop: e.g. test_001.cpp:181-194, test_002.cpp:283-308. -/
def stop (k : StopKind) (par : WbcParameters) (q : MotionParameters) (s : IkProgram root σ) : Res Bool :=
  match k with
  | .displacement => pure (decide (normInf s.solution.x < par.joint_angle_error_tolerance))
  | .displacementOrError => do
    let e ← s.robot.getStateError q
    if errorSize e < par.motion_parameters_tolerance then pure true
    else pure (decide (normInf s.solution.x < par.joint_angle_error_tolerance))

/-- How the loop ends: as it should, by reaching the maximal number of iterations, or by an exception of the solver. -/
inductive Outcome
  | done
  | exhausted
  | failed (e : Fault)
  deriving DecidableEq

/-- The inner loop: e.g. test_001.cpp:133-195. `left` is the number of iterations which are left, `n` that of iterations which were made. The result:
the objects after the loop, the number of iterations, the reason to leave the loop. -/
def loop (B : IkSolver root σ) (k : StopKind) (par : WbcParameters) (q : MotionParameters) :
    (u : ℕ → IkMemory) → (left : ℕ) → IkProgram root σ → Res (IkProgram root σ × ℕ × Outcome)
  | _, 0, s => pure (s, 0, .exhausted)
  | u, left + 1, s => do
    let s ← s.prepare (u 0) q
    let (s, e) ← s.move B (u 0)
    match e with
    | some e => pure (s, 0, .failed e)
    | none => do
      if ← s.stop k par q then pure (s, 1, .done)
      else do
        let (s, n, o) ← loop B k par q (fun i => u (i + 1)) left s
        pure (s, n + 1, o)

/-- The inner loop of the programs which do not catch exceptions: both failures are exceptions. -/
def solveIk (B : IkSolver root σ) (k : StopKind) (par : WbcParameters) (u : ℕ → IkMemory) (q : MotionParameters) (s : IkProgram root σ) :
    Res (IkProgram root σ) := do
  let (s, _, o) ← s.loop B k par q u par.maximal_number_of_iterations
  match o with
  | .done => pure s
  | .exhausted => .error .thrown
  | .failed e => .error e

/-- An iteration of the control loop: test_001.cpp:132-197, test_002.cpp:246-311 (the inverse kinematics part). -/
def control (B : IkSolver root σ) (k : StopKind) (par : WbcParameters) (wheels : Mat3 ℝ) (dt : ℝ) (u : ℕ → IkMemory)
    (q : MotionParameters) (s : IkProgram root σ) (command : RobotCommand ℝ) : Res (IkProgram root σ × RobotCommand ℝ) := do
  let saved ← s.robot.saveCurrentState
  let s ← s.solveIk B k par u q
  let command ← s.robot.getRobotCommand wheels saved command dt
  pure (s, command)

/-- The control loop for given references: the objects at the end and the commands. -/
def run (B : IkSolver root σ) (k : StopKind) (par : WbcParameters) (wheels : Mat3 ℝ) (dt : ℝ) :
    (u : ℕ → ℕ → IkMemory) → List MotionParameters → IkProgram root σ → RobotCommand ℝ → Res (IkProgram root σ × List (RobotCommand ℝ))
  | _, [], s, _ => pure (s, [])
  | u, q :: qs, s, command => do
    let (s, c) ← s.control B k par wheels dt (u 0) q command
    let (s, cs) ← run B k par wheels dt (fun i => u (i + 1)) qs s c
    pure (s, c :: cs)

end IkProgram

/-- The change of the references in an iteration, test_001.cpp:126-127. -/
def advanceReferences (q : MotionParameters) : MotionParameters :=
  { q with
    base_com_position := ![q.base_com_position 0 + 5 / 10000, q.base_com_position 1, q.base_com_position 2]
    body_com_position := ![q.body_com_position 0 + 5 / 10000, q.body_com_position 1, q.body_com_position 2] }

/-- The references in `n` iterations of test_001.cpp. -/
def references : ℕ → MotionParameters → List MotionParameters
  | 0, _ => []
  | n + 1, q => advanceReferences q :: references n (advanceReferences q)

/-- test_001.cpp:118-197: 100 iterations of the control loop. -/
def test_001 (B : IkSolver root σ) (par : WbcParameters) (wheels : Mat3 ℝ) (dt : ℝ) (u : ℕ → ℕ → IkMemory) (q : MotionParameters)
    (s : IkProgram root σ) (command : RobotCommand ℝ) : Res (IkProgram root σ × List (RobotCommand ℝ)) :=
  s.run B .displacement par wheels dt u (references 100 q) command

/-- `Hierarchy01`, modules/pepper_ik/config/hierarchies_planar.yaml:22-40, which is used by test_003.cpp. -/
def hierarchy01 : List (List IkTask) :=
  [[.baseCoM 1 1, .baseOrientation 1 1, .fixArms, .fixHead, .jointsBounds], [.bodyCoM 1 1 7#32]]

/-- The value of `feasibility_flags(points_i)` for a point, test_003.cpp:135-228; the element is zero before. -/
def feasibility (B : IkSolver root σ) (par : WbcParameters) (u : ℕ → IkMemory) (q : MotionParameters) (s : IkProgram root σ) : Res ℤ := do
  let _ ← s.robot.saveCurrentState
  let (s, _, o) ← s.loop B .displacement par q u par.maximal_number_of_iterations
  let flag ← (match o with
    | .exhausted => pure 1
    | .failed .thrown => pure 2
    | .failed .ub => .error .ub
    | .done => pure 3 : Res ℤ)
  let flag ← (match s.robot.checkCurrentState with
    | .ok _ => pure flag
    | .error .thrown => pure 4
    | .error .ub => .error .ub : Res ℤ)
  let e ← s.robot.getStateError q
  if errorSize e < par.motion_parameters_tolerance then pure (-1) else pure flag

/-- The loop `for (double x = first; x <= last; x += step)`, test_003.cpp:83-87; at most `fuel` iterations. -/
def gridValues (last step : ℝ) : (fuel : ℕ) → (x : ℝ) → List ℝ
  | 0, _ => []
  | fuel + 1, x => if x ≤ last then x :: gridValues last step fuel (x + step) else []

/-- The number of values for which memory is reserved, test_003.cpp:69-79: `1 + round((last - first) / step)`. -/
def gridSize (first last step : ℝ) : ℤ := 1 + round ((last - first) / step)

end

end Ik

end Humoto
