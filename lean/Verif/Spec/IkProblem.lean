import Verif.Model.IkProblem
import Verif.Spec.IkTasks
import Verif.Spec.TaskGeneric
import Verif.Spec.Bridges

/-!
# What the optimization problem of Pepper IK is expected to be
-/

namespace Humoto.Spec.Ik

open Humoto.Ik Humoto.Spec.Rbdl
open scoped Matrix

variable {root : Root}

/-- The same robot, perhaps in other coordinates: after any number of updates of its state. -/
inductive SameIkRobot (r0 : Robot root) : Robot root → Prop
  | same : SameIkRobot r0 r0
  | update {r : Robot root} (g : State root) : SameIkRobot r0 r → SameIkRobot r0 (r.updateState g)

/-- Problems which a program can have in its hands when it works with the robot `r0`: after a setup, after forming for any coordinates and
any references, and after processing an active set. -/
inductive IkProblemAfter (r0 : Robot root) (levels : List (List IkTask)) : IkProblem root → Prop
  | setup {p p' : IkProblem root} : p.setup levels = .ok p' → IkProblemAfter r0 levels p'
  | form {p p' : IkProblem root} {junkA : ℕ → ℕ → ℕ → ℝ} {junkB : ℕ → ℕ → ℝ} {r : Robot root} {w : Wbc} {q : MotionParameters} :
      IkProblemAfter r0 levels p → SameIkRobot r0 r → p.form junkA junkB r (w.update root q) = .ok p' → IkProblemAfter r0 levels p'
  | process {p p' : IkProblem root} {s : ActiveSetH} : IkProblemAfter r0 levels p → p.processActiveSet s = .ok p' →
      IkProblemAfter r0 levels p'

/-- The variables with a name: displacements of the root, displacements of the joints, or all of them. -/
def NamedVariable (root : Root) (name : String) (v : ℕ) : Prop :=
  name = "root_vel" ∧ v < root.dof ∨ name = "joints_vel" ∧ root.dof ≤ v ∧ v < root.dof + 15 ∨ name = "" ∧ v < root.dof + 15

/-- The axes of the tasks for the position of the base. -/
def baseAxes : Root → List (Fin 3)
  | .planar => [0, 1]
  | _ => [0, 1, 2]

/-- The axes of the tasks for the orientation of the base. -/
def baseTurns : Root → List (Fin 3)
  | .planar => [2]
  | _ => [0, 1, 2]

/-- The parameters of a task are sensible: the link exists, its desired pose is known, some axes and no others are selected, the variables
exist. -/
def Applicable (r : Robot root) (w : Wbc) : IkTask → Prop
  | .bodyCoM _ _ f => f ≠ 0#32 ∧ ∀ i, 3 ≤ i → f.getLsbD i = false
  | .tagOrientation _ _ name _ | .tagAngularVelocity _ _ name | .tagCompleteVelocity _ _ name =>
      IsLink r.rbdl_model.rbdl_model (r.getLinkTag name)
  | .tagPose _ _ name | .tagPose3Dof _ _ name =>
      IsLink r.rbdl_model.rbdl_model (r.getLinkTag name) ∧ ∃ pose, w.tags_desired_pose_global.lookup name = some pose
  | .zeroVariables _ id => id = "root_vel" ∨ id = "joints_vel" ∨ id = ""
  | .zeroSelected _ indices => 0 < indices.n ∧ ∀ i < indices.n, indices.e i < root.dof + 15
  | _ => True

/-- The angles of the joints after the displacement `x` are within the limits. -/
def StaysWithinLimits (r : Robot root) (x : ℕ → ℝ) : Prop :=
  ∀ j, r.constraints.joint_position_bounds_min j ≤ (displaced r.state x 1).joint_angles j ∧
    (displaced r.state x 1).joint_angles j ≤ r.constraints.joint_position_bounds_max j

/-- What the constraints `c` of a task mean for the robot `r` and the controller `w`, see `Spec/IkTasks.lean`. -/
def IkMeans (r : Robot root) (w : Wbc) (c : Ctr ℝ) : IkTask → Prop
  | .jointsBounds => c.ctype = .ilu ∧ WellFormed c ∧ ∀ x, Satisfied c x ↔ StaysWithinLimits r x
  | .jointsReference gain k reference => c.ctype = .gib ∧ WellFormed c ∧ rows c = 15 ∧
      ∀ x (j : Fin 15), lhs c x j - target c j =
        gain * ((displaced r.state x 1).joint_angles j - r.state.joint_angles j - k * (reference j - r.state.joint_angles j))
  | .baseCoM gain k => LinearTask c root (baseAxes root).length ∧ ∃ g, UsedGain gain g ∧
      TracksPoint r c Robot.getBaseCoM w.motion_parameters.base_com_position k g 0 (baseAxes root)
  | .bodyCoM gain k f => LinearTask c root (flagAxes f).length ∧ ∃ g, UsedGain gain g ∧
      TracksPoint r c Robot.getBodyCoM w.motion_parameters.body_com_position k g 0 (flagAxes f)
  | .baseOrientation gain k => LinearTask c root (baseTurns root).length ∧ ∃ g Rref, UsedGain gain g ∧
      DescribesRpy w.motion_parameters.base_orientation_rpy Rref ∧ TracksFrame r c Robot.getBaseOrientation Rref k g 0 (baseTurns root)
  | .tagOrientation gain k name rpy => LinearTask c root 3 ∧ ∃ g Rref, UsedGain gain g ∧ DescribesRpy rpy Rref ∧
      TracksFrame r c (fun r' => r'.getTagOrientation (r'.getLinkTag name)) Rref k g 0 [0, 1, 2]
  | .tagPose gain k name => LinearTask c root 6 ∧ ∃ g Rref pose, UsedGain gain g ∧ w.tags_desired_pose_global.lookup name = some pose ∧
      DescribesRpy pose.head Rref ∧
      TracksFrame r c (fun r' => r'.getTagOrientation (r'.getLinkTag name)) Rref k g 0 [0, 1, 2] ∧
      TracksPoint r c (fun r' => r'.getTagPosition (r'.getLinkTag name)) pose.tail k g 3 [0, 1, 2]
  | .tagPose3Dof gain k name => LinearTask c root 6 ∧ ∃ g Rref pose, UsedGain gain g ∧ w.tags_desired_pose_global.lookup name = some pose ∧
      DescribesRpy pose.head Rref ∧
      TracksFrame r c (fun r' => r'.getTagOrientation (r'.getLinkTag name)) Rref k g 0 [0, 1] ∧
      TracksPoint r c (fun r' => r'.getTagPosition (r'.getLinkTag name)) pose.tail k g 5 [2]
  | .tagAngularVelocity gain k name => LinearTask c root 3 ∧ ∃ g, UsedGain gain g ∧
      ∀ x, ∃ R ω, FrameTurns (fun r' => r'.getTagOrientation (r'.getLinkTag name)) r x R ω ∧
        ∀ a : Fin 3, lhs c x a - target c a = g * (ω a - k * (R *ᵥ (requested w name).tail) a)
  | .tagCompleteVelocity gain k name => LinearTask c root 6 ∧ ∃ g, UsedGain gain g ∧
      ∀ x, ∃ P V R ω, PointMoves (fun r' => r'.getTagPosition (r'.getLinkTag name)) r x P V ∧
        FrameTurns (fun r' => r'.getTagOrientation (r'.getLinkTag name)) r x R ω ∧
        (∀ a : Fin 3, lhs c x a - target c a = g * (ω a - k * (R *ᵥ (requested w name).tail) a)) ∧
        ∀ a : Fin 3, lhs c x (3 + a) - target c (3 + a) =
          g * (V a - k * ((R *ᵥ (requested w name).head) a + vectorProduct P (R *ᵥ (requested w name).tail) a))
  | .fixArms => c.ctype = .ib0 ∧ WellFormed c ∧ ∀ x, Satisfied c x ↔
      ∀ j, IsArmJoint j = true → (displaced r.state x 1).joint_angles (jointId root j) = r.state.joint_angles (jointId root j)
  | .fixHead => c.ctype = .ib0 ∧ WellFormed c ∧ ∀ x, Satisfied c x ↔
      ∀ j, IsHeadJoint j = true → (displaced r.state x 1).joint_angles (jointId root j) = r.state.joint_angles (jointId root j)
  | .zeroVariables gain id => c.ctype = .gib0 ∧ WellFormed c ∧ Penalises c (NamedVariable root id) gain
  | .zeroSelected gain indices => c.ctype = .gib0 ∧ WellFormed c ∧ rows c = indices.n ∧
      ∀ i < indices.n, ∀ x, lhs c x i - target c i = gain * x (indices.e i)

/-- The displacement `x` does what the task asks for. Velocities are those at the beginning of the displacement. -/
def Achieves (r : Robot root) (w : Wbc) (x : ℕ → ℝ) : IkTask → Prop
  | .jointsBounds => StaysWithinLimits r x
  | .jointsReference _ k reference => ∀ j, (displaced r.state x 1).joint_angles j =
      r.state.joint_angles j + k * (reference j - r.state.joint_angles j)
  | .baseCoM _ k => ∃ P V, PointMoves Robot.getBaseCoM r x P V ∧
      ∀ a ∈ baseAxes root, V a = k * (w.motion_parameters.base_com_position a - P a)
  | .bodyCoM _ k f => ∃ P V, PointMoves Robot.getBodyCoM r x P V ∧
      ∀ a ∈ flagAxes f, V a = k * (w.motion_parameters.body_com_position a - P a)
  | .baseOrientation _ k => ∃ Rref R ω e, DescribesRpy w.motion_parameters.base_orientation_rpy Rref ∧
      FrameTurns Robot.getBaseOrientation r x R ω ∧ RotationError e R Rref ∧ ∀ a ∈ baseTurns root, ω a = k * e a
  | .tagOrientation _ k name rpy => ∃ Rref R ω e, DescribesRpy rpy Rref ∧
      FrameTurns (fun r' => r'.getTagOrientation (r'.getLinkTag name)) r x R ω ∧ RotationError e R Rref ∧ ∀ a, ω a = k * e a
  | .tagPose _ k name => ∃ pose Rref R ω e P V, w.tags_desired_pose_global.lookup name = some pose ∧ DescribesRpy pose.head Rref ∧
      FrameTurns (fun r' => r'.getTagOrientation (r'.getLinkTag name)) r x R ω ∧ RotationError e R Rref ∧ (∀ a, ω a = k * e a) ∧
      PointMoves (fun r' => r'.getTagPosition (r'.getLinkTag name)) r x P V ∧ ∀ a, V a = k * (pose.tail a - P a)
  | .tagPose3Dof _ k name => ∃ pose Rref R ω e P V, w.tags_desired_pose_global.lookup name = some pose ∧ DescribesRpy pose.head Rref ∧
      FrameTurns (fun r' => r'.getTagOrientation (r'.getLinkTag name)) r x R ω ∧ RotationError e R Rref ∧
      (∀ a ∈ ([0, 1] : List (Fin 3)), ω a = k * e a) ∧
      PointMoves (fun r' => r'.getTagPosition (r'.getLinkTag name)) r x P V ∧ V 2 = k * (pose.tail 2 - P 2)
  | .tagAngularVelocity _ k name => ∃ R ω, FrameTurns (fun r' => r'.getTagOrientation (r'.getLinkTag name)) r x R ω ∧
      ∀ a, ω a = k * (R *ᵥ (requested w name).tail) a
  | .tagCompleteVelocity _ k name => ∃ P V R ω, PointMoves (fun r' => r'.getTagPosition (r'.getLinkTag name)) r x P V ∧
      FrameTurns (fun r' => r'.getTagOrientation (r'.getLinkTag name)) r x R ω ∧ (∀ a, ω a = k * (R *ᵥ (requested w name).tail) a) ∧
      ∀ a, V a = k * ((R *ᵥ (requested w name).head) a + vectorProduct P (R *ᵥ (requested w name).tail) a)
  | .fixArms => ∀ j, IsArmJoint j = true →
      (displaced r.state x 1).joint_angles (jointId root j) = r.state.joint_angles (jointId root j)
  | .fixHead => ∀ j, IsHeadJoint j = true →
      (displaced r.state x 1).joint_angles (jointId root j) = r.state.joint_angles (jointId root j)
  | .zeroVariables _ id => ∀ v, NamedVariable root id v → x v = 0
  | .zeroSelected _ indices => ∀ i < indices.n, x (indices.e i) = 0

/-- The gain of the task is not zero. -/
def Weighted : IkTask → Prop
  | .jointsReference gain _ _ | .baseCoM gain _ | .bodyCoM gain _ _ | .baseOrientation gain _ | .tagOrientation gain _ _ _
  | .tagPose gain _ _ | .tagPose3Dof gain _ _ | .tagAngularVelocity gain _ _ | .tagCompleteVelocity gain _ _
  | .zeroVariables gain _ | .zeroSelected gain _ => gain ≠ 0
  | _ => True

/-- Tasks with limits and tasks which require certain positions, orientations and velocities. `TaskTagPose3Dof` requires more than its
name tells, see `C94_tagPose3Dof_refuted`. -/
def Exact : IkTask → Prop
  | .tagPose3Dof .. => False
  | _ => True

/-- Tasks which can be put on the first level for qpOASES. -/
def CanConstrain : IkTask → Prop
  | .jointsReference .. | .zeroVariables .. | .zeroSelected .. => False
  | _ => True

/-- Tasks which can be put on the second level. -/
def CanBePreferred : IkTask → Prop
  | .jointsBounds => False
  | _ => True

/-- The variables do not exceed the infinity of the library. -/
def BelowInfinity (root : Root) (x : ℕ → ℝ) : Prop := ∀ v < root.dof + 15, -10 ^ 20 ≤ x v ∧ x v ≤ 10 ^ 20

/-- The displacement does what the tasks of the first level ask for, and among the displacements in `S` which do it, no one costs less. -/
structure BestDisplacement (r : Robot root) (w : Wbc) (ks0 : List IkTask) (cost : (ℕ → ℝ) → ℝ) (S : (ℕ → ℝ) → Prop) (x : ℕ → ℝ) : Prop where
  achieves : ∀ k ∈ ks0, Achieves r w x k
  best : ∀ y, S y → (∀ k ∈ ks0, Achieves r w y k) → cost x ≤ cost y

/-- The level consists of constraints with the meanings of the tasks, in some order. -/
def LevelMeans {E : Type} (r : Robot root) (w : Wbc) (L : Level E ℝ) (tasks : List IkTask) : Prop :=
  ∃ cs : List (Ctr ℝ), (L.tasks.map fun ti => ti.task.ctr).Perm cs ∧ List.Forall₂ (IkMeans r w) cs tasks

end Humoto.Spec.Ik
