import Verif.Model.PepperProblem
import Verif.Spec.PepperTasks
import Verif.Spec.Bridges
import Verif.Spec.Pepper

/-!
# What the optimization problem of Pepper is expected to be
-/

namespace Humoto.Spec

open Pepper

variable {K : Type} [Field K]

/-- Motions which are allowed: at the end of each interval the velocity and the acceleration of the base, the centre of pressure and the
position of the body relative to the base are within their bounds. -/
structure PepperAllowed [LinearOrder K] (intervals : List (Interval K)) (X : ℕ → Vec K) : Prop where
  velocity : MotionWithin intervals velocityQuantity Interval.nominal_base_velocity_bounds X
  acceleration : MotionWithin intervals accelerationQuantity Interval.nominal_base_acceleration_bounds X
  cop : MotionWithin intervals copQuantity Interval.cop_bounds X
  body : MotionWithin intervals bodyQuantity Interval.body_bounds X

/-- What is minimised: squared distances from the reference position or velocity of the base, squared jerks of the base and of the body,
and squared distances of the centre of pressure from the base, with squared gains. -/
def pepperCost (o : ProblemSetup K) (intervals : List (Interval K)) (X : ℕ → Vec K) : K :=
  (if o.mode = .maintainPosition then o.positionGain ^ 2 * motionCost intervals positionErrorQuantity X
    else o.velocityGain ^ 2 * motionCost intervals velocityErrorQuantity X) +
  o.baseJerkGain ^ 2 * motionCost intervals baseJerkQuantity X + o.bodyJerkGain ^ 2 * motionCost intervals bodyJerkQuantity X +
  o.copGain ^ 2 * motionCost intervals copQuantity X

/-- `mpc` is a controller after a successful update for the model. Before the update it was new or had the same number of intervals; the
masses do not cancel, and the bounds of the position of the body are symmetric. -/
def PepperUpdated (model : Model K) (mpc : Mpc K) : Prop :=
  ∃ (junk : ℕ → ℕ → ℕ → ℕ → K) (tr : Trig K) (dflt : Interval K) (old : Mpc K) (M : ℕ),
    0 < old.parameters.sampling_time_ms ∧ 0 < old.parameters.preview_horizon_length ∧
    old.parameters.preview_horizon_length * old.parameters.sampling_time_ms < 2 ^ 63 ∧
    (M = 0 ∨ M = old.parameters.preview_horizon_length) ∧ (old.matrices.S.rows = 12 * M ∧ old.matrices.S.cols = 4 * M) ∧
    model.state.base_mass + model.state.body_mass ≠ 0 ∧
    (∀ a, model.robot_parameters.body_bounds a 0 = -model.robot_parameters.body_bounds a 1) ∧
    ((∃ m, ProperMotion m ∧ old.update junk tr dflt m model = .ok (mpc, .ok)) ∨
      ∃ q, (∀ m ∈ q, ProperMotion m) ∧ old.updateQueue junk tr dflt q model = .ok (mpc, .ok))

/-- Problems which a program can have in its hands: after a setup, after forming for any controller which was updated successfully, and
after processing an active set. Guesses are not made. -/
inductive PepperProblemAfter (o : ProblemSetup K) : Problem K → Prop
  | setup {P : Hierarchy (ProblemEnv K) K} {p : Problem K} : setupHierarchy o P = .ok p → PepperProblemAfter o p
  | form {p p' : Problem K} {junk : ℕ → ℕ → ℕ → K} {junkI : ℕ → ℕ → ℕ} {model : Model K} {mpc : Mpc K} : PepperProblemAfter o p →
      PepperUpdated model mpc → p.form junk junkI false mpc = .ok p' → PepperProblemAfter o p'
  | process {p p' : Problem K} {s : ActiveSetH} : PepperProblemAfter o p → p.processActiveSet s = .ok p' → PepperProblemAfter o p'

/-- Problems of a loop which forms the problem with a guess of the active set, solves it and processes the active set. The number is the
number of intervals for which the problem was formed last. -/
inductive PepperSolvedAfter (o : ProblemSetup K) : Option ℕ → Problem K → Prop
  | setup {P : Hierarchy (ProblemEnv K) K} {p : Problem K} : setupHierarchy o P = .ok p → PepperSolvedAfter o none p
  | cycle {n : Option ℕ} {p p' p'' : Problem K} {junk : ℕ → ℕ → ℕ → K} {junkI : ℕ → ℕ → ℕ} {model : Model K} {mpc : Mpc K}
      {s : ActiveSetH} : PepperSolvedAfter o n p → PepperUpdated model mpc → p.form junk junkI true mpc = .ok p' →
      p'.processActiveSet s = .ok p'' → PepperSolvedAfter o (some mpc.intervals.length) p''

/-- The problem was formed for the controller `mpc`, in a loop with guesses, or after a history without guesses. -/
def PepperFormed (o : ProblemSetup K) (mpc : Mpc K) (p' : Problem K) : Prop :=
  ∃ p junk junkI guessing, ((∃ n, PepperSolvedAfter o n p) ∨ PepperProblemAfter o p) ∧ p.form junk junkI guessing mpc = .ok p'

/-- An active set of the size of the problem. -/
def PepperActiveSetFor (p : Problem K) (s : ActiveSetH) : Prop := s.map (·.length) = p.hierarchy.levels.map (·.nConstraints)

/-- The first level allows exactly the solutions with allowed motions; the sum of squared residuals of the second level is the cost of the
motion. `x0` is the current state. -/
structure PepperLevels [LinearOrder K] (o : ProblemSetup K) (intervals : List (Interval K)) (x0 : Vec K)
    (L0 L1 : Level (ProblemEnv K) K) : Prop where
  allowed : ∀ x X, Simulates intervals x0 x X → (LevelSatisfied L0 x ↔ PepperAllowed intervals X)
  cost : ∀ x X, Simulates intervals x0 x X → leastSquares L1.tasks x = pepperCost o intervals X

/-- The motion of the solution `x` is allowed, and its cost plus `reg` times the squared norm of the solution is not greater than that of
any other solution in the set `S` with an allowed motion. -/
def PepperBest [LinearOrder K] (o : ProblemSetup K) (intervals : List (Interval K)) (x0 : Vec K) (reg : K) (S : (ℕ → K) → Prop)
    (x : ℕ → K) : Prop :=
  ∀ X, Simulates intervals x0 x X → PepperAllowed intervals X ∧
    ∀ y Y, Simulates intervals x0 y Y → PepperAllowed intervals Y → S y →
      pepperCost o intervals X + reg * ∑ i ∈ Finset.range (4 * intervals.length), x i ^ 2 ≤
        pepperCost o intervals Y + reg * ∑ i ∈ Finset.range (4 * intervals.length), y i ^ 2

/-- The variables do not exceed the library infinity. -/
def PepperModerate [LinearOrder K] (intervals : List (Interval K)) (x : ℕ → K) : Prop :=
  ∀ v < 4 * intervals.length, -10 ^ 20 ≤ x v ∧ x v ≤ 10 ^ 20

end Humoto.Spec
