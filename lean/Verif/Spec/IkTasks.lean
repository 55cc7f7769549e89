import Verif.Model.IkTasks
import Verif.Spec.Rbdl
import Verif.Spec.Objective

/-!
# Specification of the tasks of Pepper IK

A solution `x` is a displacement of the coordinates in one step: first those of the root, then those of the joints. It is at the same
time their velocity when the robot moves along it. Tasks are understood through positions and orientations which the robot
reports while it moves.
-/

namespace Humoto.Spec.Ik

open Humoto.Ik Humoto.Spec.Rbdl
open Humoto.Rbdl (RbdlModel)
open scoped Matrix

variable {root : Root}

/-- Contract of RBDL: what it computes for any coordinates belongs to the same robot, with the same names of links, and follows the
coordinates when they change. Frames of fixed links are rotated with respect to the frames of their parents by rotations. -/
structure RigidRobot (kinematics : (ℕ → ℝ) → RbdlModel ℝ) (n : ℕ) : Prop where
  tree : ∀ q, KinematicTree (kinematics q)
  size : ∀ q, (kinematics q).q_size = n
  same : ∀ q q', SameRobot (kinematics q) (kinematics q')
  names : ∀ q q', (kinematics q).GetBodyId = (kinematics q').GetBodyId
  moves : ∀ (q : ℝ → ℕ → ℝ) (dq : ℕ → ℝ) (t : ℝ), (∀ i < n, HasDerivAt (fun s => q s i) (dq i) t) →
    Moves (fun s => kinematics (q s)) t dq
  fixed : ∀ q, ∀ b ∈ (kinematics q).mFixedBodies, IsRotation b.mParentTransform.Eᵀ

/-- Mass of the bodies with the given names. -/
def massOf (T : RbdlModel ℝ) (names : List String) : ℝ := (names.map fun s => (T.mBodies (T.GetBodyId s)).mMass).sum

/-- The robot has the links which are needed by the model, and its parts are not weightless. -/
structure HasParts (T : RbdlModel ℝ) : Prop where
  base_link : IsLink T (T.GetBodyId "base_footprint")
  base : ∀ s ∈ baseLinks, T.GetBodyId s < T.size
  body : ∀ s ∈ bodyLinks, T.GetBodyId s < T.size
  base_mass : massOf T baseLinks ≠ 0
  body_mass : massOf T bodyLinks ≠ 0

/-- The model is loaded and follows its state. -/
structure Ready (r : Robot root) : Prop where
  rigid : RigidRobot r.kinematics (root.dof + jointsDof)
  updated : Updated r.rbdl_model (r.kinematics r.state.asVector)
  parts : HasParts r.rbdl_model.rbdl_model
  orientation : r.base_orientation_tag = r.rbdl_model.rbdl_model.GetBodyId "base_footprint"
  position : r.base_position_tag = r.rbdl_model.rbdl_model.GetBodyId "base_footprint"
  base : r.base_com_tag = ⟨baseLinks.map r.rbdl_model.rbdl_model.GetBodyId, massOf r.rbdl_model.rbdl_model baseLinks⟩
  body : r.body_com_tag = ⟨bodyLinks.map r.rbdl_model.rbdl_model.GetBodyId, massOf r.rbdl_model.rbdl_model bodyLinks⟩

/-- The coordinates after the displacement `s * x`. -/
def displaced (g : State root) (x : ℕ → ℝ) (s : ℝ) : State root :=
  ⟨fun i => g.root_pose i + s * x i, fun i => g.joint_angles i + s * x (root.dof + i)⟩

/-- The robot in the coordinates after the displacement `s * x`. -/
noncomputable def movedBy (r : Robot root) (x : ℕ → ℝ) (s : ℝ) : Robot root := r.updateState (displaced r.state x s)

/-- The observed point is at `P` and starts to move with the velocity `V` when the robot moves along `x`. -/
def PointMoves (point : Robot root → Res (Fin 3 → ℝ)) (r : Robot root) (x : ℕ → ℝ) (P V : Fin 3 → ℝ) : Prop :=
  ∃ Q : ℝ → Fin 3 → ℝ, (∀ s, point (movedBy r x s) = .ok (Q s)) ∧ Q 0 = P ∧ ∀ a, HasDerivAt (fun s => Q s a) (V a) 0

/-- The observed frame has the orientation `R` and starts to turn with the angular velocity `w` when the robot moves along `x`. -/
def FrameTurns (frame : Robot root → Res (Mat3 ℝ)) (r : Robot root) (x : ℕ → ℝ) (R : Mat3 ℝ) (w : Fin 3 → ℝ) : Prop :=
  IsRotation R ∧ ∃ (Q : ℝ → Mat3 ℝ) (Q' : Mat3 ℝ), (∀ s, frame (movedBy r x s) = .ok (Q s)) ∧ Q 0 = R ∧ MatDeriv Q Q' 0 ∧
    IsAngularVelocity w R Q'

/-- Difference between orientations as a vector: for a rotation about an axis it has the direction of the axis and the length
of the sine of the angle, see `C34_error_axis`. -/
def RotationError (e : Fin 3 → ℝ) (current reference : Mat3 ℝ) : Prop :=
  ∀ p, (reference * currentᵀ) *ᵥ p - (current * referenceᵀ) *ᵥ p = (2 : ℝ) • vectorProduct e p

/-- Orientation which is described by roll, pitch and yaw: rotations about the fixed axes in this order. -/
def DescribesRpy (e : Fin 3 → ℝ) (R : Mat3 ℝ) : Prop :=
  ∃ X Y Z, TurnsAbout 0 (e 0) X ∧ TurnsAbout 1 (e 1) Y ∧ TurnsAbout 2 (e 2) Z ∧ R = Z * Y * X

/-- The gain which is used: it is the requested one, or one if they differ less than by the tolerance. -/
def UsedGain (gain g : ℝ) : Prop := g = gain ∨ g = 1 ∧ |1 - gain| < 1 / 10 ^ 12

/-- A well formed task `A*x = b` with the given number of rows. -/
structure LinearTask (c : Ctr ℝ) (root : Root) (n : ℕ) : Prop where
  ctype : c.ctype = .ab
  wellFormed : WellFormed c
  rows : rows c = n
  nvars : c.nvars = root.dof + 15

/-- Rows of the task from the number `first`: the velocity of the point along the given axes must be `k` multiplied by the distance
to the reference position. -/
def TracksPoint (r : Robot root) (c : Ctr ℝ) (point : Robot root → Res (Fin 3 → ℝ)) (reference : Fin 3 → ℝ) (k g : ℝ) (first : ℕ)
    (axes : List (Fin 3)) : Prop :=
  ∀ x, ∃ P V, PointMoves point r x P V ∧ ∀ (i : ℕ) a, axes[i]? = some a →
    lhs c x (first + i) - target c (first + i) = g * (V a - k * (reference a - P a))

/-- Rows of the task from the number `first`: the angular velocity about the given axes must be `k` multiplied by the difference between
the reference orientation and the current one. -/
def TracksFrame (r : Robot root) (c : Ctr ℝ) (frame : Robot root → Res (Mat3 ℝ)) (reference : Mat3 ℝ) (k g : ℝ) (first : ℕ)
    (axes : List (Fin 3)) : Prop :=
  ∀ x, ∃ R w e, FrameTurns frame r x R w ∧ RotationError e R reference ∧ ∀ (i : ℕ) a, axes[i]? = some a →
    lhs c x (first + i) - target c (first + i) = g * (w a - k * e a)

/-- Velocity of a link which is requested by the user: linear and angular, in the frame of the link. -/
def requested (w : Wbc) (name : String) : Vec6 := (w.tags_velocity.lookup name).getD ⟨0, 0⟩

/-- Axes which are selected by flags: the bit 0 is the axis x, the bit 1 is y, the bit 2 is z. -/
def flagAxes (flags : BitVec 32) : List (Fin 3) := ([0, 1, 2] : List (Fin 3)).filter fun a : Fin 3 => flags.getLsbD a.val

/-- The joints of the arms. -/
def IsArmJoint : Joint → Bool
  | .LShoulderPitch | .LShoulderRoll | .LElbowYaw | .LElbowRoll | .LWristYaw => true
  | .RShoulderPitch | .RShoulderRoll | .RElbowYaw | .RElbowRoll | .RWristYaw => true
  | _ => false

/-- The joints of the head. -/
def IsHeadJoint : Joint → Bool
  | .HeadYaw | .HeadPitch => true
  | _ => false

end Humoto.Spec.Ik
