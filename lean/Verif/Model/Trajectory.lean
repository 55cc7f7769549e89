import Verif.Model.Basic
import Mathlib.Data.Fin.VecNotation

/-!
# Polynomial trajectories

core/include/rigid_body/cubic_polynomial.h, core/include/walking/foot_trajectory.h. Vectors of a fixed size are functions on `Fin n`.
-/

namespace Humoto

/-- `TrajectoryEvaluationType::Type`, cubic_polynomial.h:21-31. -/
inductive EvaluationType
  | undefined
  | position
  | velocity
  | acceleration
  deriving DecidableEq, Repr

/-- `CubicPolynomial1D`, cubic_polynomial.h:41, 208-212. -/
structure Cubic (K : Type) where
  a0 : K
  a1 : K
  a2 : K
  a3 : K

namespace Cubic

variable {K : Type} [Field K]

/-- `initialize(a, b)`, cubic_polynomial.h:60-66. -/
def ends (a b : K) : Cubic K := ⟨a, 0, 3 * (b - a), -2 * (b - a)⟩

/-- `initialize(a, adot, b, bdot)`, cubic_polynomial.h:78-87. -/
def endsWithVelocities (a adot b bdot : K) : Cubic K :=
  ⟨a, adot, 3 * (b - a) - 2 * (adot - bdot), -2 * (b - a) + 1 * (bdot - adot)⟩

/-- Default constructor, cubic_polynomial.h:47-50. -/
def default : Cubic K := ends 0 0

variable [LinearOrder K]

/-- `getPosition`, cubic_polynomial.h:97-101. -/
def getPosition (c : Cubic K) (t : K) : Res K := do
  assertThat (t ≥ 0 ∧ t ≤ 1)
  pure (c.a0 + c.a1 * t + c.a2 * t * t + c.a3 * t * t * t)

/-- `getVelocity`, cubic_polynomial.h:111-115. -/
def getVelocity (c : Cubic K) (t : K) : Res K := do
  assertThat (t ≥ 0 ∧ t ≤ 1)
  pure (c.a1 + 2 * c.a2 * t + 3 * c.a3 * t * t)

/-- `getAcceleration`, cubic_polynomial.h:125-129. -/
def getAcceleration (c : Cubic K) (t : K) : Res K := do
  assertThat (t ≥ 0 ∧ t ≤ 1)
  pure (2 * c.a2 + 6 * c.a3 * t)

/-- `getJerk`, cubic_polynomial.h:137-140. -/
def getJerk (c : Cubic K) : K := 6 * c.a3

/-- `eval(t, trajectory_type)`, cubic_polynomial.h:151-165. -/
def eval (c : Cubic K) (t : K) : EvaluationType → Res K
  | .position => c.getPosition t
  | .velocity => c.getVelocity t
  | .acceleration => c.getAcceleration t
  | .undefined => .error .thrown

/-- `eval(time_points, trajectory_type)`, cubic_polynomial.h:176-188; the loop over the points. -/
def evalPoints (c : Cubic K) (ty : EvaluationType) : List K → Res (List K)
  | [] => .ok []
  | t :: ts => do
    let y ← c.eval t ty
    let ys ← c.evalPoints ty ts
    pure (y :: ys)

/-- `scale(time_points)`, cubic_polynomial.h:198-208. When all points are equal the C++ code divides zero by zero and gives NaNs:
`none`. -/
def scale (ts : List K) : Option (List K) :=
  match ts.min?, ts.max? with
  | some lo, some hi => if hi = lo then none else some (ts.map fun t => (t - lo) / (hi - lo))
  | _, _ => some []

end Cubic

/-- `PointMassState` and `RotaryState`, core/include/rigid_body/point_mass_state.h, rotary_state.h:240-242. -/
structure RigidBodyState (K : Type) where
  position : Fin 3 → K
  velocity : Fin 3 → K
  acceleration : Fin 3 → K
  rpy : Fin 3 → K
  angularVelocity : Fin 3 → K
  angularAcceleration : Fin 3 → K

/-- `Simple3DFootTrajectory`, foot_trajectory.h:191-196. -/
structure FootTrajectory (K : Type) where
  x : Cubic K
  y : Cubic K
  z1 : Cubic K
  z2 : Cubic K
  theta : Cubic K

namespace FootTrajectory

variable {K : Type} [Field K]

/-- Default constructor, foot_trajectory.h:27-29. -/
def default : FootTrajectory K := ⟨.default, .default, .default, .default, .default⟩

variable [LinearOrder K]

/-- `initialize(a, b, step_height)`, foot_trajectory.h:40-49. The orientation is kept. -/
def between (f : FootTrajectory K) (a b : Fin 3 → K) (h : K) : Res (FootTrajectory K) := do
  assertThat (b 2 ≤ a 2 + h)
  pure { f with
    x := .ends (a 0) (b 0)
    y := .ends (a 1) (b 1)
    z1 := .ends (a 2) (a 2 + h)
    z2 := .ends (h + a 2) (b 2) }

/-- `initialize(a, adot, b, bdot, step_height)`, foot_trajectory.h:62-71. -/
def betweenWithVelocities (f : FootTrajectory K) (a adot b bdot : Fin 3 → K) (h : K) : Res (FootTrajectory K) := do
  assertThat (b 2 ≤ a 2 + h)
  pure { f with
    x := .endsWithVelocities (a 0) (adot 0) (b 0) (bdot 0)
    y := .endsWithVelocities (a 1) (adot 1) (b 1) (bdot 1)
    z1 := .endsWithVelocities (a 2) (adot 2) (a 2 + h) 0
    z2 := .endsWithVelocities (h + a 2) 0 (b 2) (bdot 2) }

/-- `initialize(RigidBodyState, RigidBodyState, step_height)`, foot_trajectory.h:82-97. -/
def betweenStates (a b : RigidBodyState K) (h : K) : Res (FootTrajectory K) := do
  assertThat (b.position 2 ≤ a.position 2 + h)
  pure {
    x := .endsWithVelocities (a.position 0) (a.velocity 0) (b.position 0) (b.velocity 0)
    y := .endsWithVelocities (a.position 1) (a.velocity 1) (b.position 1) (b.velocity 1)
    theta := .endsWithVelocities (a.rpy 2) (a.angularVelocity 2) (b.rpy 2) (b.angularVelocity 2)
    z1 := .endsWithVelocities (a.position 2) (a.velocity 2) (a.position 2 + h) 0
    z2 := .endsWithVelocities (h + a.position 2) 0 (b.position 2) (b.velocity 2) }

/-- `evalz`, foot_trajectory.h:127-138. -/
def evalz (f : FootTrajectory K) (t : K) (ty : EvaluationType) : Res K :=
  if t ≤ 1 / 2 then f.z1.eval (t * 2) ty else f.z2.eval ((t - 1 / 2) * 2) ty

/-- `eval(t, trajectory_type)`, foot_trajectory.h:107-121, 159-169. -/
def eval (f : FootTrajectory K) (t : K) (ty : EvaluationType) : Res (Fin 3 → K) := do
  let x ← f.x.eval t ty
  let y ← f.y.eval t ty
  let z ← f.evalz t ty
  pure ![x, y, z]

/-- `eval(foot_state, t)`, foot_trajectory.h:178-188. -/
def evalState (f : FootTrajectory K) (s : RigidBodyState K) (t : K) : Res (RigidBodyState K) := do
  let p ← f.eval t .position
  let v ← f.eval t .velocity
  let a ← f.eval t .acceleration
  let th ← f.theta.eval t .position
  let w ← f.theta.eval t .velocity
  let dw ← f.theta.eval t .acceleration
  pure {
    position := p
    velocity := v
    acceleration := a
    rpy := Function.update s.rpy 2 th
    angularVelocity := Function.update s.angularVelocity 2 w
    angularAcceleration := Function.update s.angularAcceleration 2 dw }

end FootTrajectory

end Humoto
