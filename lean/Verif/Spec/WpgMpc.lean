import Verif.Model.WpgMpc
import Verif.Spec.PepperMpc
import Verif.Spec.PointMass
import Verif.Spec.WpgHorizon

/-!
# What the walking pattern generator is expected to do: the control problem

A solution contains two numbers for each of `N` intervals, the centre of pressure in the frame of the support, and then two numbers
for each step, the new position of the support in the frame of the preceding one.
-/

namespace Humoto.Spec.Wpg

open Humoto.Wpg

/-- `x'` is the state at the time `t` of a point mass at the constant height `h` which starts from `x`, while its ZMP moves from where
it is with a constant velocity, such that it arrives in `u` at the time `T`. A state consists of the position, velocity and
acceleration for each of two axes. -/
def Moves (h T t : ℝ) (x : Fin 6 → ℝ) (u : Fin 2 → ℝ) (x' : Fin 6 → ℝ) : Prop :=
  ∃ c v a z : Fin 2 → ℝ → ℝ,
    (∀ k, IsMotion (c k) (v k) (a k)) ∧ (∀ k t, IsZmp PointMass6z.gravity h (c k t) (a k t) (z k t)) ∧
    (∀ k t, z k t = z k 0 + t / T * (u k - z k 0)) ∧
    x = ![c 0 0, v 0 0, a 0 0, c 1 0, v 1 0, a 1 0] ∧ x' = ![c 0 t, v 0 t, a 0 t, c 1 t, v 1 t, a 1 t]

/-- Number of steps made by the beginning of the interval `i`, including the one with which it begins. -/
def stepsBy (H : Horizon) (i : ℕ) : ℕ := (H.variable_steps.filter (· ≤ i)).length

/-- `P j` is the position of the support after `j` steps, when the new positions are `f` in the frames of preceding supports. -/
structure Footsteps (H : Horizon) (support : Fin 2 → ℝ) (f : ℕ → ℝ) (P : ℕ → Fin 2 → ℝ) : Prop where
  start : P 0 = support
  step : ∀ (j k : ℕ) (s : WalkState), H.variable_steps[j]? = some k → H.getWalkState (k - 1) = .ok s →
    IsTurned s.theta ![f (2 * j), f (2 * j + 1)] (P (j + 1) - P j)

/-- `cop i` is the centre of pressure at the end of the interval `i`, when it is given by `z` in the frame of the support. -/
def CentresOfPressure (H : Horizon) (P : ℕ → Fin 2 → ℝ) (z : ℕ → ℝ) (cop : ℕ → Fin 2 → ℝ) : Prop :=
  ∀ (i : ℕ) (s : WalkState), i < H.intervals.n → H.getWalkState i = .ok s →
    IsTurned s.theta ![z (2 * i), z (2 * i + 1)] (cop i - P (stepsBy H i))

/-- The motion which a solution `x` produces: positions of supports, centres of pressure at ends of intervals, states at their
beginnings. -/
structure Prediction (H : Horizon) (model : Model) (x : ℕ → ℝ) (P cop : ℕ → Fin 2 → ℝ) (X : ℕ → Fin 6 → ℝ) : Prop where
  footsteps : Footsteps H model.current_support_position (fun i => x (2 * H.intervals.n + i)) P
  pressure : CentresOfPressure H P x cop
  start : X 0 = model.getCState
  motion : ∀ i < H.intervals.n, Moves model.getCoMHeight (H.intervals.e i).T (H.intervals.e i).T (X i) (cop i) (X (i + 1))

/-- The velocity of the centre of pressure in the interval of length `T` which begins in the state `x` and ends with the centre of
pressure in `u`, along the axis `a`. -/
def IsCopVelocity (h T : ℝ) (x : Fin 6 → ℝ) (u : Fin 2 → ℝ) (a : Fin 2) (v : ℝ) : Prop :=
  ∃ z, IsZmp PointMass6z.gravity h (x (if a = 0 then 0 else 3)) (x (if a = 0 then 2 else 5)) z ∧ v * T = u a - z

/-- The matrices of the problem relate the solution to the motion which it produces. -/
structure PredictionMatrices (H : Horizon) (model : Model) (m : Matrices) : Prop where
  solution : m.solution = solutionStructure H.intervals.n H.variable_steps.length
  sizes : m.S.rows = 6 * H.intervals.n ∧ m.S.cols = 2 * (H.intervals.n + H.variable_steps.length) ∧ m.s.n = 6 * H.intervals.n ∧
    m.Sdz.rows = 2 * H.intervals.n ∧ m.Sdz.cols = 2 * (H.intervals.n + H.variable_steps.length) ∧ m.sdz.n = 2 * H.intervals.n ∧
    m.Vfp.rows = 2 * H.variable_steps.length ∧ m.Vfp.cols = 2 * H.variable_steps.length ∧
    m.vfp.n = 2 * H.variable_steps.length ∧ m.V.rows = 2 * H.intervals.n ∧ m.V.cols = 2 * H.variable_steps.length ∧
    m.V0.n = 2 * H.intervals.n ∧ m.Rh.m.rows = 2 * H.intervals.n ∧ m.Rh.m.cols = 2 * H.intervals.n
  /-- States at ends of the intervals. -/
  states : ∀ x P cop X, Prediction H model x P cop X → ∀ i < H.intervals.n, ∀ l : Fin 6,
    AffineRow m.S m.s x (6 * i + l) (X (i + 1) l)
  /-- Velocities of the centre of pressure. -/
  velocities : ∀ x P cop X, Prediction H model x P cop X → ∀ i < H.intervals.n, ∀ a : Fin 2, ∃ v,
    AffineRow m.Sdz m.sdz x (2 * i + a) v ∧ IsCopVelocity model.getCoMHeight (H.intervals.e i).T (X i) (cop i) a v
  /-- Positions of the supports. -/
  supports : ∀ f P, Footsteps H model.current_support_position f P → ∀ j < H.variable_steps.length, ∀ a : Fin 2,
    AffineRow m.Vfp m.vfp f (2 * j + a) (P (j + 1) a)
  /-- Centres of pressure. -/
  pressure : ∀ z f P cop, Footsteps H model.current_support_position f P → CentresOfPressure H P z cop →
    ∀ i < H.intervals.n, ∀ a : Fin 2,
    AffineRow m.V m.V0 f (2 * i + a) (cop i a - ∑ k ∈ Finset.range m.Rh.m.cols, m.Rh.m.e (2 * i + a) k * z k)
  /-- The rotations of the intervals. -/
  rotations : ∀ i < H.intervals.n, ∀ s, H.getWalkState i = .ok s → ∀ (z : ℕ → ℝ) (r : Fin 2 → ℝ),
    IsTurned s.theta ![z (2 * i), z (2 * i + 1)] r → ∀ a : Fin 2, ∑ k ∈ Finset.range m.Rh.m.cols, m.Rh.m.e (2 * i + a) k * z k = r a

/-- The profiles which are computed from the solution. -/
structure PredictionProfiles (H : Horizon) (model : Model) (P cop : ℕ → Fin 2 → ℝ) (X : ℕ → Fin 6 → ℝ) (c : Mpc) : Prop where
  sizes : c.cstate_profile.n = 6 * H.intervals.n ∧ c.cop_profile.n = 2 * H.intervals.n ∧ c.dcop_profile.n = 2 * H.intervals.n ∧
    c.footpos_profile.n = 2 * H.variable_steps.length
  states : ∀ i < H.intervals.n, ∀ l : Fin 6, c.cstate_profile.e (6 * i + l) = X (i + 1) l
  pressure : ∀ i < H.intervals.n, ∀ a : Fin 2, c.cop_profile.e (2 * i + a) = cop i a
  velocities : ∀ i < H.intervals.n, ∀ a : Fin 2,
    IsCopVelocity model.getCoMHeight (H.intervals.e i).T (X i) (cop i) a (c.dcop_profile.e (2 * i + a))
  supports : ∀ j < H.variable_steps.length, ∀ a : Fin 2, c.footpos_profile.e (2 * j + a) = P (j + 1) a

/-- The call `update` returns with the given outcome. -/
def UpdateReturns (nan : ℝ) (junkH : ℕ → Interval) (junk : ℕ → ℕ → ℕ → ℕ → ℝ) (junkI : ℕ → ℕ → ℕ) (model : Model) (f : FSM)
    (w : WalkParameters) (c : Mpc) (r : Res (Mpc × Pepper.Status)) : Prop := ∃ fuel, c.update fuel nan junkH junk junkI model f w = some r

/-- A horizon of `N` intervals reaches the last support of the preview: the stances before the last transition do not provide `N`
intervals. -/
def ReachesLast (N T : ℕ) (l : List Stance) : Prop := capacity T (l.take (l.length - 2)) < N

/-- A solution for a horizon. -/
structure SolutionFor (H : Horizon) (sol : Solution ℝ) : Prop where
  structure_ : sol.structure_ = solutionStructure H.intervals.n H.variable_steps.length
  size : sol.x.length = 2 * H.intervals.n + 2 * H.variable_steps.length

/-- Entries of a solution. -/
def entries (sol : Solution ℝ) : ℕ → ℝ := fun i => sol.x.getD i 0

end Humoto.Spec.Wpg
