import Verif.Model.IkProgram
import Verif.Model.PepperProgram

/-!
# The closed loop of Pepper: modules/pepper_ik/tests/test_002.cpp

The model predictive controller plans the motion of two point masses, starting from what the kinematic model of the robot reports; the inverse
kinematics follows the plan; its command and a delay determine where the robot is in the next iteration. Reading of the configuration, logging
and time measurement are not modelled; numbers are real.
-/

namespace Humoto

namespace Closed

noncomputable section

open Ik Bridge

variable {σ : Type}

/-- Whether a value is finite. -/
def isFinite : Dbl ℝ → Bool
  | .fin _ => true
  | _ => false

/-- The finite value. -/
def value : Dbl ℝ → ℝ
  | .fin x => x
  | _ => 0

/-- Coordinates with finite numbers. Simplification: robots in other coordinates are not modelled, they are undefined behaviour. -/
def toState (g : Coords ℝ .planar) : Res (State .planar) := do
  require ((∀ i, isFinite (g.root_pose i) = true) ∧ ∀ i, isFinite (g.joint_angles i) = true)
  pure ⟨fun i => value (g.root_pose i), fun i => value (g.joint_angles i)⟩

/-- `correct(getState(), command, time_interval)`, model.h:624-637 and 569-609, test_002.cpp:171-173, see `IkModel.correctFrom`. -/
def correct (r : Robot .planar) (command : RobotCommand ℝ) (time_interval : ℝ) : Res (Robot .planar) :=
  if 0 < time_interval then do
    let g ← correctPlanar r.state.coords command (.fin time_interval)
    let g ← toState g
    pure (r.updateState g)
  else pure (r.updateState r.state)

/-- `getBaseYaw`, model.h:438-441. `ea` is `eulerAngles` of Eigen. -/
def getBaseYaw (ea : Mat3 ℝ → Fin 3 → Fin 3 → Fin 3 → (Fin 3 → ℝ)) (r : Robot .planar) : Res ℝ := do
  let R ← r.getBaseOrientation
  let e ← convertMatrixToEulerAngles ea R .rpy
  pure (e 2)

/-- `getBaseMass`, model.h:328-331; `getTagMass`, rbdl/model.h:414-417. -/
def getBaseMass (r : Robot .planar) : ℝ := r.base_com_tag.mass

/-- `getBodyMass`, model.h:350-353. -/
def getBodyMass (r : Robot .planar) : ℝ := r.body_com_tag.mass

/-- Synchronisation of the models: test_002.cpp:182-187. -/
def measure (ea : Mat3 ℝ → Fin 3 → Fin 3 → Fin 3 → (Fin 3 → ℝ)) (r : Robot .planar) (s : Pepper.ModelState ℝ) : Res (Pepper.ModelState ℝ) := do
  let base ← r.getBaseCoM
  let body ← r.getBodyCoM
  let yaw ← getBaseYaw ea r
  pure (s.update (getBaseMass r) (getBodyMass r) base body yaw)

/-- The references for the inverse kinematics: test_002.cpp:229-237. -/
def referencesOf (s : Pepper.ModelState ℝ) : Ik.MotionParameters where
  base_com_position := ![s.base_state.position 0, s.base_state.position 1, s.base_state.position 2]
  body_com_position := ![s.body_state.position 0, s.body_state.position 1, s.body_state.position 2]
  base_orientation_rpy := ![0, 0, s.base_state.rpy 2]

/-- `convertSecondToMillisecond`, core/include/humoto/time.h:35-38, for numbers which are not negative. -/
def toMilliseconds (seconds : ℝ) : ℕ := (round (seconds * 1000)).toNat

/-- What does not change: the solver for the inverse kinematics, qpOASES, functions of the libraries, parameters of the inverse kinematics, the
matrix for the wheels, the control interval, and `sampling_interval_difference`, test_002.cpp:65. -/
structure Settings (σ : Type) where
  solver : IkSolver .planar σ
  qp : Qpoases ℝ
  tr : Pepper.Trig ℝ
  ea : Mat3 ℝ → Fin 3 → Fin 3 → Fin 3 → (Fin 3 → ℝ)
  par : WbcParameters
  wheels : Mat3 ℝ
  interval : ℝ
  difference : ℝ

/-- Contents of memory which is not initialised. -/
structure LoopMemory where
  mpc : Pepper.Memory ℝ
  ik : ℕ → IkMemory

/-- The objects of the program which survive from iteration to iteration, test_002.cpp:73-159. `mpc.model.state` stands for `mpc_model_state` between
iterations; there the state in `mpc_model` itself is not used. `mpc.motion` and the guesses in `mpc` are not used. -/
structure ClosedLoop (σ : Type) where
  ik : IkProgram .planar σ
  mpc : Pepper.Program ℝ
  queue : List (Pepper.MotionParameters ℝ)
  command : RobotCommand ℝ

/-- The model predictive controller makes no guesses, test_002.cpp:205-208; the plan is used at the subsampling time, test_002.cpp:227. -/
def kind : Pepper.ProgramKind := ⟨false, false, true⟩

namespace ClosedLoop

/-- Feedback: test_002.cpp:164-178. -/
def feedback (cfg : Settings σ) (s : ClosedLoop σ) : Res (ClosedLoop σ) := do
  let r ← correct s.ik.robot s.command cfg.difference
  pure { s with
    ik := { s.ik with robot := r }
    queue := Pepper.shiftQueue s.mpc.mpc.parameters s.queue
      ((s.mpc.mpc.parameters.subsampling_time_ms + toMilliseconds cfg.difference : ℕ) : ℤ) }

/-- After the feedback: test_002.cpp:181-315. -/
def react (cfg : Settings σ) (u : LoopMemory) (s : ClosedLoop σ) : Res (Option (ClosedLoop σ)) := do
  let st ← measure cfg.ea s.ik.robot s.mpc.model.state
  let model := s.mpc.model.updateState st
  let (mpc, status) ← s.mpc.mpc.updateQueue u.mpc.matrices cfg.tr u.mpc.horizon s.queue model
  if status = .ok then do
    let p ← Pepper.Program.solveProblem kind cfg.qp u.mpc { s.mpc with model := model } mpc s.mpc.motion
    let p ← p.advance kind
    let (ik, command) ← s.ik.control cfg.solver .displacementOrError cfg.par cfg.wheels cfg.interval u.ik (referencesOf p.model.state) s.command
    pure (some { s with ik := ik, mpc := p, command := command })
  else pure none

/-- The iteration `n`: test_002.cpp:161-316. The result `none`: the loop is left. -/
def iterate (cfg : Settings σ) (u : LoopMemory) (n : ℕ) (s : ClosedLoop σ) : Res (Option (ClosedLoop σ)) := do
  let s ← (if 0 < n then s.feedback cfg else pure s)
  s.react cfg u

/-- The loop, from the iteration `n`; at most `left` iterations. The result: the commands. -/
def run (cfg : Settings σ) (u : ℕ → LoopMemory) : (left n : ℕ) → ClosedLoop σ → Option (Res (List (RobotCommand ℝ)))
  | 0, _, _ => none
  | left + 1, n, s =>
    match s.iterate cfg (u n) n with
    | .error e => some (.error e)
    | .ok none => some (.ok [])
    | .ok (some s') =>
      match run cfg u left (n + 1) s' with
      | none => none
      | some (.error e) => some (.error e)
      | some (.ok cs) => some (.ok (s'.command :: cs))

end ClosedLoop

end

end Closed

end Humoto
