import Verif.Model.WpgTasks
import Verif.Spec.WpgMpc
import Verif.Spec.TaskGeneric

/-!
# What the tasks of the walking pattern generator are expected to do
-/

namespace Humoto.Spec.Wpg

open Humoto.Wpg

/-- Each new position of the support, in the frame of the preceding one, is within the bounds of the support. -/
def StepsWithin (H : Horizon) (x : ℕ → ℝ) : Prop :=
  ∀ j k s, H.variable_steps[j]? = some k → H.getWalkState k = .ok s → ∀ a : Fin 2,
    s.fd_bounds a 0 ≤ x (2 * H.intervals.n + 2 * j + a) ∧ x (2 * H.intervals.n + 2 * j + a) ≤ s.fd_bounds a 1

/-- The steps are fixed: each of them is as long as possible, and across it is on the upper bound for a right foot, on the lower bound
otherwise. -/
def StepsFixed (H : Horizon) (x : ℕ → ℝ) : Prop :=
  ∀ j k s, H.variable_steps[j]? = some k → H.getWalkState k = .ok s →
    x (2 * H.intervals.n + 2 * j) = s.fd_bounds 0 1 ∧
    x (2 * H.intervals.n + 2 * j + 1) = if s.stance.type = .rss then s.fd_bounds 1 1 else s.fd_bounds 1 0

/-- In each interval the centre of pressure, in the frame of the support, is within the bounds of the support. -/
def CopWithin (H : Horizon) (x : ℕ → ℝ) : Prop :=
  ∀ i s, i < H.intervals.n → H.getWalkState i = .ok s → ∀ a : Fin 2,
    s.cop_bounds a 0 ≤ x (2 * i + a) ∧ x (2 * i + a) ≤ s.cop_bounds a 1

/-- Residual of the row `r` of a task. -/
noncomputable def rowResidual (c : Ctr ℝ) (x : ℕ → ℝ) (r : ℕ) : ℝ := lhs c x r - target c r

/-- Velocity along the axis `a` in a state. -/
def velocityOf (x : Fin 6 → ℝ) (a : Fin 2) : ℝ := x (if a = 0 then 1 else 4)

/-- `v` is the velocity along the axis `a` of the capture point in the state `x` of a point mass at the height `h`: the capture point
is the position plus the velocity divided by the natural frequency. -/
def IsCapturePointVelocity (h : ℝ) (x : Fin 6 → ℝ) (a : Fin 2) (v : ℝ) : Prop :=
  ∃ w, 0 < w ∧ w ^ 2 * h = PointMass6z.gravity ∧ v = x (if a = 0 then 1 else 4) + x (if a = 0 then 2 else 5) / w

/-- What the tasks penalise for the predicted motion `X`, `cop`. -/
structure ComVelocityTask (H : Horizon) (model : Model) (gain : ℝ) (c : Ctr ℝ) : Prop where
  size : rows c = 2 * H.intervals.n
  value : ∀ x P cop X, Prediction H model x P cop X → ∀ i < H.intervals.n, ∀ a : Fin 2,
    rowResidual c x (2 * i + a) = gain * (velocityOf (X (i + 1)) a - (H.intervals.e i).cvel_ref a)

/-- The task on the velocity of the centre of pressure. -/
structure CopVelocityTask (H : Horizon) (model : Model) (gain : ℝ) (c : Ctr ℝ) : Prop where
  size : rows c = 2 * H.intervals.n
  value : ∀ x P cop X, Prediction H model x P cop X → ∀ i < H.intervals.n, ∀ a : Fin 2, ∃ v,
    rowResidual c x (2 * i + a) = gain * v ∧ IsCopVelocity model.getCoMHeight (H.intervals.e i).T (X i) (cop i) a v

/-- The task on the position of the centre of pressure in the frame of the support. -/
structure CopPositionTask (H : Horizon) (gain : ℝ) (c : Ctr ℝ) : Prop where
  size : rows c = 2 * H.intervals.n
  value : ∀ x : ℕ → ℝ, ∀ i < 2 * H.intervals.n, rowResidual c x i = gain * x i

/-- The task on the state at the end of the horizon. -/
structure TerminalTask (H : Horizon) (model : Model) (gain : ℝ) (c : Ctr ℝ) : Prop where
  size : rows c = 2
  value : ∀ x P cop X, Prediction H model x P cop X → ∀ a : Fin 2, ∃ v,
    rowResidual c x a = gain * v ∧ IsCapturePointVelocity model.getCoMHeight (X H.intervals.n) a v

end Humoto.Spec.Wpg
