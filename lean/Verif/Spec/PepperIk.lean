import Verif.Model.PepperIk

/-!
# What the limits, the commands and the coordinates of Pepper mean
-/

namespace Humoto

namespace Spec

namespace Ik

open Humoto.Ik

section
variable {K : Type} [Field K] [LinearOrder K] {n : ℕ}

/-- A number (not NaN, not an infinity) between the given ones. -/
def Between (lo hi : K) : Dbl K → Prop
  | .fin x => lo ≤ x ∧ x ≤ hi
  | _ => False

/-- All joint angles are within their limits, up to the tolerance. -/
def AnglesAllowed (c : Constraints K n) (q : Fin n → Dbl K) : Prop :=
  ∀ i, Between (c.joint_position_bounds_min i - c.error_tol) (c.joint_position_bounds_max i + c.error_tol) (q i)

/-- The wheels do not rotate faster than they can. -/
def WheelsAllowed (c : Constraints K n) (w : Fin 3 → Dbl K) : Prop :=
  ∀ i, Between (-c.wheel_velocities_max i) (c.wheel_velocities_max i) (w i)

/-- The joints can move from `a` to `b` in time `t`. -/
def SlowEnough (c : Constraints K n) (a b : Fin n → K) (t : K) : Prop := ∀ i, |b i - a i| ≤ c.joint_velocity_bounds i * t

/-- The limits of the joints in the URDF files, modules/pepper_ik/config/pepper_fixedwheels*.urdf: lower, upper, velocity. -/
def urdfLimits : Joint → K × K × K
  | .HeadYaw => (-208567 / 100000, 208567 / 100000, 733998 / 100000)
  | .HeadPitch => (-706858 / 1000000, 637045 / 1000000, 922756 / 100000)
  | .HipRoll => (-514872 / 1000000, 514872 / 1000000, 227032 / 100000)
  | .HipPitch => (-103847 / 100000, 103847 / 100000, 293276 / 100000)
  | .KneePitch => (-514872 / 1000000, 514872 / 1000000, 293276 / 100000)
  | .LShoulderPitch => (-208567 / 100000, 208567 / 100000, 733998 / 100000)
  | .LShoulderRoll => (872665 / 100000000, 156207 / 100000, 922756 / 100000)
  | .LElbowYaw => (-208567 / 100000, 208567 / 100000, 733998 / 100000)
  | .LElbowRoll => (-156207 / 100000, -872665 / 100000000, 922756 / 100000)
  | .LWristYaw => (-182387 / 100000, 182387 / 100000, 173835 / 10000)
  | .RShoulderPitch => (-208567 / 100000, 208567 / 100000, 733998 / 100000)
  | .RShoulderRoll => (-156207 / 100000, -872665 / 100000000, 922756 / 100000)
  | .RElbowYaw => (-208567 / 100000, 208567 / 100000, 733998 / 100000)
  | .RElbowRoll => (872665 / 100000000, 156207 / 100000, 922756 / 100000)
  | .RWristYaw => (-182387 / 100000, 182387 / 100000, 173835 / 10000)

/-- The commanded planar velocity of the base is its mean velocity when it moves from the position `p` and the orientation
`R` to `p'` and `R'` in time `t`; the rate of rotation is that of the vector measuring the rotation (see C34). -/
structure MeanVelocity (p p' : Fin 3 → K) (R R' : Mat3 K) (t : K) (v : Fin 3 → K) : Prop where
  x : p' 0 = p 0 + t * v 0
  y : p' 1 = p 1 + t * v 1
  yaw : getRotationErrorAngleAxis R R' 2 = t * v 2

/-- The kinematic data of the model correspond to its coordinates. -/
def UpToDate {root : Root} (m : IkModel K root) : Prop := m.rbdl_model = m.generalized_coordinates

end

/-- Velocity of the point `p` of a body, whose origin moves with velocity `v` and which rotates about the vertical axis. -/
def pointVelocity (v : Fin 3 → ℝ) (omega : ℝ) (p : Fin 3 → ℝ) : Fin 3 → ℝ := fun i => v i + cross ![0, 0, omega] p i

/-- A wheel, whose centre moves with velocity `v` and which rotates with velocity `w` about its axle `axle`, rolls along its
direction `along` without slipping: the velocity of its lowest point, which touches the ground, has no component in this
direction. All vectors are given in the frame of the base. -/
def RollsWithoutSlipping (radius : ℝ) (axle along v : Fin 3 → ℝ) (w : ℝ) : Prop :=
  ∑ i, along i * (v i + cross (fun j => w * axle j) ![0, 0, -radius] i) = 0

/-- The wheels in the URDF files: the angle of rotation about the vertical axis (the code uses a more precise value), the
position of the centre in the frame of the base, without the height. The axle is the axis X of the wheel. -/
noncomputable def urdfWheels : Fin 3 → ℝ × (Fin 3 → ℝ) :=
  ![(1.07519348146676, ![0.09, 0.155, 0]), (-1.07519348146676, ![0.09, -0.155, 0]), (-Real.pi, ![-0.17, 0, 0])]

/-- The axle of a wheel in the frame of the base. -/
noncomputable def axle (i : Fin 3) : Fin 3 → ℝ := ![Real.cos (urdfWheels i).1, Real.sin (urdfWheels i).1, 0]

/-- The direction in which a wheel rolls, in the frame of the base. -/
noncomputable def along (i : Fin 3) : Fin 3 → ℝ := ![-Real.sin (urdfWheels i).1, Real.cos (urdfWheels i).1, 0]

/-- Components of a horizontal velocity in the frame of the base, which is turned by the given angle. -/
noncomputable def inBaseFrame (yaw : ℝ) (v : Fin 3 → ℝ) : Fin 3 → ℝ :=
  ![Real.cos yaw * v 0 + Real.sin yaw * v 1, -Real.sin yaw * v 0 + Real.cos yaw * v 1, 0]

end Ik

end Spec

end Humoto
