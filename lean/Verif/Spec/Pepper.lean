import Verif.Model.PepperHorizon

/-!
# Specification for Pepper: motions and horizons
-/

namespace Humoto.Spec

open Pepper

variable {K : Type}

/-- The motion has no end. -/
def Unlimited (m : MotionParameters K) : Prop := m.duration_ms = -1

/-- Meaningful durations: a motion has no end, or a duration which is representable. -/
def ProperMotion (m : MotionParameters K) : Prop := Unlimited m ∨ (0 ≤ m.duration_ms ∧ m.duration_ms < 2 ^ 63)

/-- Sum of durations. -/
def totalDuration (q : List (MotionParameters K)) : ℤ := (q.map fun m => m.duration_ms).sum

/-- What the robot is asked to do, apart from how long. -/
def command (m : MotionParameters K) : (Fin 2 → K) × (Fin 2 → K) × K × MotionMode :=
  (m.base_velocity, m.base_position, m.base_angular_velocity, m.motion_mode)

/-- The motions of a queue are executed one after another; `m` is the one which is executed `s` milliseconds after the start
(a motion still counts at the instant when it ends). -/
def InForce (q : List (MotionParameters K)) (s : ℤ) (m : MotionParameters K) : Prop :=
  ∃ before after : List (MotionParameters K), q = before ++ m :: after ∧ (∀ b ∈ before, ¬ Unlimited b) ∧
    totalDuration before < s ∧ (Unlimited m ∨ s ≤ totalDuration before + m.duration_ms)

/-- The command which is executed `s` milliseconds after the start. -/
def CommandAt (q : List (MotionParameters K)) (s : ℤ) (c : (Fin 2 → K) × (Fin 2 → K) × K × MotionMode) : Prop :=
  ∃ m, InForce q s m ∧ command m = c

/-- The queue does not end before the time `s`. -/
def LastsUntil (q : List (MotionParameters K)) (s : ℤ) : Prop := (∃ m ∈ q, Unlimited m) ∨ s ≤ totalDuration q

/-- An interval of a preview horizon whose motion is `m`, and which starts with the orientation `theta`: everything but the
references comes from the parameters and from the current state of the model. -/
structure IntervalFor [Field K] (tr : Trig K) (p : MPCParameters) (model : Model K) (m : MotionParameters K) (theta : K)
    (iv : Interval K) : Prop where
  duration_ms : iv.T_ms = p.sampling_time_ms
  duration : iv.T = (p.sampling_time_ms : K) / 1000
  turn : iv.theta = theta + m.base_angular_velocity * ((p.sampling_time_ms : K) / 1000)
  rotation : iv.rotation = !![tr.cos iv.theta, -tr.sin iv.theta; tr.sin iv.theta, tr.cos iv.theta]
  velocity : iv.base_vel_ref = iv.rotation.mulVec m.base_velocity
  position : iv.base_pos_ref = m.base_position
  base_height : iv.base_height = model.state.base_state.position 2
  body_height : iv.body_height = model.state.body_state.position 2
  base_mass : iv.base_mass = model.state.base_mass
  body_mass : iv.body_mass = model.state.body_mass
  cop_bounds : iv.cop_bounds = model.robot_parameters.cop_bounds
  velocity_bounds : iv.nominal_base_velocity_bounds = model.robot_parameters.nominal_base_velocity_bounds
  acceleration_bounds : iv.nominal_base_acceleration_bounds = model.robot_parameters.nominal_base_acceleration_bounds
  body_bounds : iv.body_bounds = model.robot_parameters.body_bounds

/-- The orientation in which interval `i` starts: that of the model, or the one in which the preceding interval ends. -/
def StartsWith (model : Model K) (ivs : List (Interval K)) : ℕ → K → Prop
  | 0, theta => theta = model.state.base_state.rpy 2
  | i + 1, theta => ∃ prev, ivs[i]? = some prev ∧ theta = prev.theta

/-- A preview horizon: interval `i` executes the motion which is in force at the end of the interval, and starts with the
orientation in which the preceding one ends. -/
def HorizonFor [Field K] (tr : Trig K) (p : MPCParameters) (model : Model K) (q : List (MotionParameters K))
    (ivs : List (Interval K)) : Prop :=
  ivs.length = p.preview_horizon_length ∧
  ∀ (i : ℕ) iv, ivs[i]? = some iv → ∃ m theta, InForce q ((i + 1) * p.sampling_time_ms) m ∧
    StartsWith model ivs i theta ∧ IntervalFor tr p model m theta iv

/-- Time between the start of the horizon and the start of interval `k`. -/
def startOf {T : Type} [AddCommMonoid T] (durations : List T) (k : ℕ) : T := (durations.take k).sum

/-- The instant `off` after the start of a horizon belongs to the interval `k`, whose start it follows by `rest`: it is not
before the start and not after the end of the interval, and all preceding intervals end before it. -/
structure Contains {T : Type} [AddCommMonoid T] [LE T] [LT T] (durations : List T) (off : T) (k : ℕ) (rest : T) : Prop where
  inside : k < durations.length
  offset : startOf durations k + rest = off
  start : 0 ≤ rest
  stop : off ≤ startOf durations (k + 1)
  first : ∀ j, j < k → startOf durations (j + 1) < off

end Humoto.Spec
