import Verif.Spec.PepperIk

/-!
# Joints of Pepper in the URDF files, and histories of a model of Pepper
-/

namespace Humoto

namespace Spec

namespace Ik

open Humoto.Ik

/-- Joints which are moved by a joint are its children. -/
inductive JointTree
  | joint (j : Joint) (children : List JointTree)

/-- Depth first order of the joints: this is how RBDL numbers the joints of a URDF file. -/
def JointTree.order : JointTree → List Joint
  | .joint j children => j :: children.flatMap JointTree.order

/-- Joints of an arm, from the shoulder to the wrist. -/
def urdfArm (a b c d e : Joint) : JointTree := .joint a [.joint b [.joint c [.joint d [.joint e []]]]]

/-- The joints of the head and of the arms which are connected to the torso, in the alphabetical order. -/
def urdfHead : JointTree := .joint .HeadYaw [.joint .HeadPitch []]

/-- See `urdfHead`. -/
def urdfArms : List JointTree :=
  [urdfArm .LShoulderPitch .LShoulderRoll .LElbowYaw .LElbowRoll .LWristYaw,
   urdfArm .RShoulderPitch .RShoulderRoll .RElbowYaw .RElbowRoll .RWristYaw]

/-- The joints which are not fixed in the URDF files, without the joint of the root: pepper_fixedwheels.urdf (torso),
pepper_fixedwheels_roottibia.urdf (tibia), pepper_fixedwheels_roottibia_planar.urdf (planar). Joints connected to the same
body are in the alphabetical order, in which the parser of URDF gives them to RBDL. -/
def urdfJoints : Root → List JointTree
  | .torso => urdfHead :: .joint .HipRoll [.joint .HipPitch [.joint .KneePitch []]] :: urdfArms
  | _ => [.joint .KneePitch [.joint .HipPitch [.joint .HipRoll (urdfHead :: urdfArms)]]]

section
variable {K : Type} [Field K] [LinearOrder K] {root : Root}

/-- Calls of functions of a model which can change it, failing calls are included. -/
inductive Call (K : Type) (root : Root)
  | update (g : Coords K root)
  | save
  | correct (command : RobotCommand K) (dt : Dbl K)
  | correctFrom (g : Coords K root) (command : RobotCommand K) (dt : Dbl K)

/-- The model after a call. -/
def Call.after (m : IkModel K root) : Call K root → IkModel K root
  | .update g => m.updateState g
  | .save => m.saveCurrentState
  | .correct command dt => (m.correct command dt).1
  | .correctFrom g command dt => (m.correctFrom g command dt).1

/-- The model after a sequence of calls. -/
def afterCalls (m : IkModel K root) (calls : List (Call K root)) : IkModel K root := calls.foldl Call.after m

end

end Ik

end Spec

end Humoto
