import Verif.Model.PepperLoop
import Verif.Spec.IkProgram
import Verif.Spec.PepperProgram
import Verif.Spec.Rotary

/-!
# What the closed loop of Pepper is expected to do
-/

namespace Humoto.Spec.Closed

open Humoto.Ik Humoto.Closed Humoto.Spec.Ik Humoto.Bridge

variable {σ : Type}

/-- The queue `q` is what remains of the queue `Q` after the given time. -/
structure QueueAfter (Q : List (Pepper.MotionParameters ℝ)) (ms : ℕ) (q : List (Pepper.MotionParameters ℝ)) : Prop where
  proper : ∀ m ∈ q, ProperMotion m
  commands : ∀ t : ℤ, 0 < t → ∀ c, CommandAt q t c ↔ CommandAt Q (t + ms) c
  endless : ∀ m, Unlimited m → (m ∈ q ↔ m ∈ Q)
  total : (∀ m ∈ Q, ¬ Unlimited m) → totalDuration q = max 0 (totalDuration Q - ms)

/-- Where the robot is after its base has moved with the velocity `v` during the time `t`; the joints have not moved. -/
noncomputable def baseMoved (r : Robot .planar) (v : Fin 3 → ℝ) (t : ℝ) : Robot .planar :=
  r.updateState ⟨fun i => r.state.root_pose i + t * v i, r.state.joint_angles⟩

/-- The state `s'` of two point masses is what is seen of the robot: positions and masses of its parts, the yaw angle of the base. Velocities and
accelerations are those in the state `s`. -/
structure Measured (r : Robot .planar) (s s' : Pepper.ModelState ℝ) : Prop where
  base : r.getBaseCoM = .ok s'.base_state.position
  body : r.getBodyCoM = .ok s'.body_state.position
  base_mass : s'.base_mass = massOf r.rbdl_model.rbdl_model baseLinks
  body_mass : s'.body_mass = massOf r.rbdl_model.rbdl_model bodyLinks
  yaw : ∃ R roll pitch, r.getBaseOrientation = .ok R ∧ DescribesRpy ![roll, pitch, s'.base_state.rpy 2] R
  base_motion : s'.base_state.velocity = s.base_state.velocity ∧ s'.base_state.acceleration = s.base_state.acceleration
  body_motion : s'.body_state.velocity = s.body_state.velocity ∧ s'.body_state.acceleration = s.body_state.acceleration

/-- The references of the inverse kinematics for a planned state. -/
def targetOf (s : Pepper.ModelState ℝ) : Ik.MotionParameters where
  base_com_position := s.base_state.position
  body_com_position := s.body_state.position
  base_orientation_rpy := ![0, 0, s.base_state.rpy 2]

/-- Time between iterations in milliseconds: the subsampling time and the delay. -/
noncomputable def period (q : Pepper.MPCParameters) (cfg : Settings σ) : ℕ := q.subsampling_time_ms + toMilliseconds cfg.difference

/-- Sensible settings: both solvers and the extraction of angles do what they should, the robot is loaded, there are tasks. -/
structure ClosedSettings (cfg : Settings σ) (q : Pepper.MPCParameters) (r0 : Robot .planar) (levels : List (List IkTask))
    (Inv : SolverState σ → Prop) (good : Robot .planar → Wbc → (ℕ → ℝ) → Prop) (hopeless : Robot .planar → Wbc → Prop) : Prop where
  parameters : PepperParameters Humoto.Closed.kind q
  qp : TrustedSolver cfg.qp
  angles : ExtractsAngles cfg.ea
  robot : Ready r0
  some_levels : levels ≠ []
  tasks : ∀ l ∈ levels, l ≠ []
  solver : SolvesIk cfg.solver Inv r0 levels good hopeless
  interval : 0 < cfg.interval
  difference : 0 ≤ cfg.difference

/-- The beginning: a robot whose masses do not cancel, symmetric bounds on the position of the body, a queue of motions `Q`, a new controller, hierarchies
which were set up, qpOASES with default parameters. Everything else is arbitrary. -/
structure ClosedStart (q : Pepper.MPCParameters) (o : Pepper.ProblemSetup ℝ) (r0 : Robot .planar) (levels : List (List IkTask))
    (Inv : SolverState σ → Prop) (Q : List (Pepper.MotionParameters ℝ)) (s : ClosedLoop σ) : Prop where
  ik : IkProgramReady r0 levels Inv s.ik
  masses : massOf r0.rbdl_model.rbdl_model baseLinks + massOf r0.rbdl_model.rbdl_model bodyLinks ≠ 0
  symmetric : ∀ a, s.mpc.model.robot_parameters.body_bounds a 0 = -s.mpc.model.robot_parameters.body_bounds a 1
  queue : s.queue = Q
  proper : ∀ m ∈ Q, ProperMotion m
  controller : s.mpc.mpc = Pepper.Mpc.make q
  problem : ∃ P, Pepper.setupHierarchy o P = .ok s.mpc.problem
  solver : s.mpc.solver.params = SolverParameters.default

/-- States of the program after `n` iterations. -/
inductive ClosedAfter (cfg : Settings σ) (s : ClosedLoop σ) : ℕ → ClosedLoop σ → Prop
  | start : ClosedAfter cfg s 0 s
  | step {n : ℕ} {a b : ClosedLoop σ} {u : LoopMemory} : ClosedAfter cfg s n a → a.iterate cfg u n = .ok (some b) → ClosedAfter cfg s (n + 1) b

/-- The iteration `n` is made: what remains of the queue covers the horizon. -/
def ClosedContinues (cfg : Settings σ) (q : Pepper.MPCParameters) (Q : List (Pepper.MotionParameters ℝ)) (n : ℕ) : Prop :=
  (∃ m ∈ Q, Unlimited m) ∨ ((n * period q cfg + q.preview_horizon_length * q.sampling_time_ms : ℕ) : ℤ) ≤ totalDuration Q

/-- The number of iterations for a queue of `d` milliseconds. -/
noncomputable def closedIterations (cfg : Settings σ) (q : Pepper.MPCParameters) (d : ℕ) : ℕ :=
  (d + period q cfg - q.preview_horizon_length * q.sampling_time_ms) / period q cfg

/-- What the plan of the iteration `n` is based on. The robot `r` is where it was left by the previous iteration, except that its base has moved during the
delay with the velocity of the last command. The model of the controller is what is seen of this robot. The horizon is formed for what remains of the queue. -/
structure Planned (cfg : Settings σ) (q : Pepper.MPCParameters) (Q : List (Pepper.MotionParameters ℝ)) (n : ℕ) (s : ClosedLoop σ)
    (r : Robot .planar) (model : Pepper.Model ℝ) (mpc : Pepper.Mpc ℝ) (queue : List (Pepper.MotionParameters ℝ)) : Prop where
  first : n = 0 → r = s.ik.robot
  later : 0 < n → ∃ v, s.command.base_velocities = (fun i => .fin (v i)) ∧ r = baseMoved s.ik.robot v cfg.difference
  measured : Measured r s.mpc.model.state model.state
  limits : model.robot_parameters = s.mpc.model.robot_parameters
  remaining : QueueAfter Q (n * period q cfg) queue
  horizon : HorizonFor cfg.tr q model queue mpc.intervals

/-- The plan: `x` is the best of the motions which are allowed; `st` is the state to which it leads in the subsampling time. -/
structure PlanIs (q : Pepper.MPCParameters) (o : Pepper.ProblemSetup ℝ) (model : Pepper.Model ℝ) (mpc : Pepper.Mpc ℝ) (x : List ℝ)
    (st : Pepper.ModelState ℝ) : Prop where
  size : x.length = 4 * mpc.intervals.length
  best : PepperBest o mpc.intervals model.getMPCState 0 (PepperModerate mpc.intervals) (entries x)
  leads : ∃ iv, mpc.intervals[0]? = some iv ∧ StateWithin iv (model.state.base_state.rpy 2) ((q.subsampling_time_ms : ℝ) / 1000)
    model.getMPCState (controlAt mpc.intervals.length (entries x) 0) st

/-- What an iteration does: it makes a plan, brings the robot to the planned state, and the command is what brings it there within the limits. -/
structure ClosedIteration (cfg : Settings σ) (q : Pepper.MPCParameters) (o : Pepper.ProblemSetup ℝ) (Q : List (Pepper.MotionParameters ℝ))
    (good : Robot .planar → Wbc → (ℕ → ℝ) → Prop) (n : ℕ) (s : ClosedLoop σ) (r : Robot .planar) (model : Pepper.Model ℝ) (mpc : Pepper.Mpc ℝ)
    (s' : ClosedLoop σ) : Prop where
  planned : Planned cfg q Q n s r model mpc s'.queue
  plan : PlanIs q o model mpc s'.mpc.solution.x s'.mpc.model.state
  limits : s'.mpc.model.robot_parameters = s.mpc.model.robot_parameters
  follows : ∃ k, k ≤ cfg.par.maximal_number_of_iterations ∧ Run (good · (s.ik.wbc.update .planar (targetOf s'.mpc.model.state)))
    (Stops .displacementOrError cfg.par (targetOf s'.mpc.model.state)) r k s'.ik.robot true
  command : CommandFor cfg.wheels cfg.interval r s'.ik.robot s'.command

/-- Why an iteration does not succeed: there is no plan, or it cannot be followed. -/
def ClosedFails (cfg : Settings σ) (q : Pepper.MPCParameters) (o : Pepper.ProblemSetup ℝ) (Q : List (Pepper.MotionParameters ℝ))
    (good : Robot .planar → Wbc → (ℕ → ℝ) → Prop) (hopeless : Robot .planar → Wbc → Prop) (n : ℕ) (s : ClosedLoop σ) : Prop :=
  ∃ r model mpc queue, Planned cfg q Q n s r model mpc queue ∧
    (PepperFails cfg.qp o mpc model ∨
      ∃ x st, PlanIs q o model mpc x st ∧
        CannotApproach (good · (s.ik.wbc.update .planar (targetOf st))) (Stops .displacementOrError cfg.par (targetOf st))
          (hopeless · (s.ik.wbc.update .planar (targetOf st))) cfg.par.maximal_number_of_iterations cfg.wheels cfg.interval r)

/-- The program ends with the given outcome. -/
def ClosedReturns (cfg : Settings σ) (u : ℕ → LoopMemory) (s : ClosedLoop σ) (r : Res (List (RobotCommand ℝ))) : Prop :=
  ∃ left, s.run cfg u left 0 = some r

/-- These are the commands of the iterations. -/
def CommandsOf (cfg : Settings σ) (u : ℕ → LoopMemory) (s : ClosedLoop σ) (cs : List (RobotCommand ℝ)) : Prop :=
  ∃ S : ℕ → ClosedLoop σ, S 0 = s ∧ ∀ (i : ℕ) c, cs[i]? = some c → (S i).iterate cfg (u i) i = .ok (some (S (i + 1))) ∧ c = (S (i + 1)).command

/-- Why the program was stopped by an exception. -/
def ClosedStopped (cfg : Settings σ) (q : Pepper.MPCParameters) (o : Pepper.ProblemSetup ℝ) (Q : List (Pepper.MotionParameters ℝ))
    (good : Robot .planar → Wbc → (ℕ → ℝ) → Prop) (hopeless : Robot .planar → Wbc → Prop) (s0 : ClosedLoop σ) : Prop :=
  ∃ n s, ClosedAfter cfg s0 n s ∧ ClosedFails cfg q o Q good hopeless n s

end Humoto.Spec.Closed
