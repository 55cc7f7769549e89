import Verif.Model.PepperProgram
import Verif.Spec.PepperProblem
import Verif.Spec.QpoasesSolver

/-!
# What is expected from the programs of Pepper
-/

namespace Humoto.Spec

open Pepper Bridge

variable {K : Type} [Field K]

/-- Sensible parameters of the controller for a loop of the given kind: nothing is empty, times are representable, an iteration does not
advance by more than an interval, and if it advances by an interval and active sets are guessed, there are at least two intervals. -/
structure PepperParameters (v : ProgramKind) (q : MPCParameters) : Prop where
  sampling : 0 < q.sampling_time_ms
  horizon : 0 < q.preview_horizon_length
  representable : q.preview_horizon_length * q.sampling_time_ms < 2 ^ 63
  step : 0 < v.step q ∧ v.step q ≤ q.sampling_time_ms
  guess : v.activeSet = true → 1 < q.preview_horizon_length ∨ q.subsampling_time_ms < q.sampling_time_ms

/-- The beginning: a robot with symmetric bounds on the position of the body, whose masses do not cancel, the motion to be made, a new
controller, a hierarchy which was set up, a solver with default parameters, an empty old solution. The other solutions and the memory of the
solver are arbitrary. -/
structure PepperStart (q : MPCParameters) (o : ProblemSetup K) (m : MotionParameters K) (s : Program K) : Prop where
  masses : s.model.state.base_mass + s.model.state.body_mass ≠ 0
  symmetric : ∀ a, s.model.robot_parameters.body_bounds a 0 = -s.model.robot_parameters.body_bounds a 1
  motion : s.motion = m
  proper : ProperMotion m
  controller : s.mpc = Mpc.make q
  problem : ∃ P, setupHierarchy o P = .ok s.problem
  solver : s.solver.params = SolverParameters.default
  old : s.oldSolution.structure_ = .empty

/-- What remains of a motion after the given time. -/
def remainingMotion (m : MotionParameters K) (ms : ℤ) : MotionParameters K :=
  { m with duration_ms := if m.duration_ms = -1 then -1 else max (m.duration_ms - ms) 0 }

section
variable [LinearOrder K]

/-- States of the program after `n` iterations; what is in memory is different in each of them. -/
inductive PepperAfter (v : ProgramKind) (ext : Qpoases K) (tr : Trig K) (s : Program K) : ℕ → Program K → Prop
  | start : PepperAfter v ext tr s 0 s
  | step {n : ℕ} {a b : Program K} {u : Memory K} : PepperAfter v ext tr s n a → a.iterate v ext tr u = .ok (some b) →
      PepperAfter v ext tr s (n + 1) b

/-- The program ends with the given outcome. -/
def PepperReturns (v : ProgramKind) (ext : Qpoases K) (tr : Trig K) (u : ℕ → Memory K) (s : Program K) (r : Res (Program K × ℕ)) : Prop :=
  ∃ left, s.run v ext tr u left = some r

/-- What an iteration does: the controller is updated for what remains of the motion, the solution is the best of the motions which are
allowed at this moment, the robot moves as the beginning of this motion says. -/
structure PepperIteration (v : ProgramKind) (tr : Trig K) (q : MPCParameters) (o : ProblemSetup K) (u : Memory K) (s : Program K) (mpc : Mpc K)
    (s' : Program K) : Prop where
  update : s.mpc.update u.matrices tr u.horizon s.motion s.model = .ok (mpc, .ok)
  horizon : HorizonFor tr q s.model [s.motion] mpc.intervals
  size : s'.solution.x.length = 4 * mpc.intervals.length
  best : PepperBest o mpc.intervals s.model.getMPCState 0 (PepperModerate mpc.intervals) (entries s'.solution.x)
  moves : ∃ iv, mpc.intervals[0]? = some iv ∧ StateWithin iv (s.model.state.base_state.rpy 2) ((v.step q : K) / 1000) s.model.getMPCState
    (controlAt mpc.intervals.length (entries s'.solution.x) 0) s'.model.state
  robot : s'.model.robot_parameters = s.model.robot_parameters
  motion : s'.motion = remainingMotion s.motion (v.step q)

/-- Solutions with allowed motions. -/
def PepperFeasible (intervals : List (Interval K)) (x0 : Vec K) (x : ℕ → K) : Prop :=
  ∀ X, Simulates intervals x0 x X → PepperAllowed intervals X

/-- qpOASES has been given arguments which describe the problem of the best motion, with bounds on all variables, and it has not reported
success. -/
def PepperSolverFails (ext : Qpoases K) (o : ProblemSetup K) (intervals : List (Interval K)) (x0 : Vec K) : Prop :=
  ∃ a g s, QpoasesDescribes a (4 * intervals.length) (PepperFeasible intervals x0) (PepperModerate intervals)
    (fun x c => ∃ X, Simulates intervals x0 x X ∧ c = pepperCost o intervals X) True ∧ (ext a g s).status ≠ .successfulReturn

/-- Why an iteration does not succeed: no motion is allowed, or qpOASES has failed. -/
def PepperFails (ext : Qpoases K) (o : ProblemSetup K) (mpc : Mpc K) (model : Model K) : Prop :=
  (∀ x, PepperModerate mpc.intervals x → ¬ PepperFeasible mpc.intervals model.getMPCState x) ∨
    PepperSolverFails ext o mpc.intervals model.getMPCState

/-- Why the program was stopped by an exception. -/
def PepperStopped (v : ProgramKind) (ext : Qpoases K) (tr : Trig K) (o : ProblemSetup K) (s0 : Program K) (u : ℕ → Memory K) : Prop :=
  ∃ n s mpc, PepperAfter v ext tr s0 n s ∧ s.mpc.update (u n).matrices tr (u n).horizon s.motion s.model = .ok (mpc, .ok) ∧
    PepperFails ext o mpc s.model

/-- The iteration `n` is made: what remains of the motion covers the horizon. -/
def PepperContinues (v : ProgramKind) (q : MPCParameters) (m : MotionParameters K) (n : ℕ) : Prop :=
  Unlimited m ∨ ((n * v.step q + q.preview_horizon_length * q.sampling_time_ms : ℕ) : ℤ) ≤ m.duration_ms

/-- The number of iterations for a motion of `d` milliseconds. -/
def pepperIterations (v : ProgramKind) (q : MPCParameters) (d : ℕ) : ℕ :=
  (d + v.step q - q.preview_horizon_length * q.sampling_time_ms) / v.step q

/-- The robot is within the bounds: velocity and acceleration of the base, and the position of the body in the frame of the base. -/
structure PepperSafe (tr : Trig K) (p : RobotParameters K) (s : ModelState K) : Prop where
  velocity : WithinBounds p.nominal_base_velocity_bounds fun a => s.base_state.velocity a.castSucc
  acceleration : WithinBounds p.nominal_base_acceleration_bounds fun a => s.base_state.acceleration a.castSucc
  body : WithinBounds p.body_bounds
    ![tr.cos (s.base_state.rpy 2) * (s.body_state.position 0 - s.base_state.position 0) +
        tr.sin (s.base_state.rpy 2) * (s.body_state.position 1 - s.base_state.position 1),
      -tr.sin (s.base_state.rpy 2) * (s.body_state.position 0 - s.base_state.position 0) +
        tr.cos (s.base_state.rpy 2) * (s.body_state.position 1 - s.base_state.position 1)]

/-- The robot stands at the given place, with the body over the base. -/
structure StandsAt (p : Fin 2 → K) (s : ModelState K) : Prop where
  base : ∀ a : Fin 2, s.base_state.position a.castSucc = p a ∧ s.base_state.velocity a.castSucc = 0 ∧ s.base_state.acceleration a.castSucc = 0
  body : ∀ a : Fin 2, s.body_state.position a.castSucc = p a ∧ s.body_state.velocity a.castSucc = 0 ∧ s.body_state.acceleration a.castSucc = 0

/-- The motion consists in standing at the given place. -/
def AsksToStand (o : ProblemSetup K) (p : Fin 2 → K) (m : MotionParameters K) : Prop :=
  if o.mode = .maintainPosition then m.base_position = p else m.base_velocity = 0

/-- To stand is allowed. -/
structure MayStand (p : RobotParameters K) : Prop where
  velocity : WithinBounds p.nominal_base_velocity_bounds fun _ => 0
  acceleration : WithinBounds p.nominal_base_acceleration_bounds fun _ => 0
  cop : WithinBounds p.cop_bounds fun _ => 0
  body : WithinBounds p.body_bounds fun _ => 0

end

end Humoto.Spec
