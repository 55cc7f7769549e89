import Verif.Model.PepperIk
import Verif.Model.Rbdl
import Verif.Model.PepperTasks

/-!
# Pepper IK: the whole body controller and its tasks

modules/pepper_ik/include/pepper_ik/whole_body_controller.h, model.h (loading and queries of kinematics), task_*.h. All numbers are
real. The dynamic casts to the classes of this module succeed. `etools::Vector6` is a pair of vectors. Contents of memory which is
not initialised by `resize` are given by `junk`.
-/

namespace Humoto

namespace Ik

noncomputable section

open Rbdl (RbdlModel SpatialType)
open Rbdl.Model (TagPartialCoM)
open scoped Matrix

/-- `etools::Vector6`: rows 0–2 and 3–5. -/
structure Vec6 where
  head : Fin 3 → ℝ
  tail : Fin 3 → ℝ

/-- A vector of size 3 as a dynamic one. -/
def vec3 (v : Fin 3 → ℝ) : Vec ℝ := ⟨3, Rbdl.row3 v⟩

/-- A vector of size 6 as a dynamic one. -/
def Vec6.toVec (v : Vec6) : Vec ℝ := ⟨6, fun i => if i < 3 then Rbdl.row3 v.head i else Rbdl.row3 v.tail (i - 3)⟩

/-- `GeneralizedCoordinates`, generalized_coordinates.h:54-55, with finite numbers. -/
structure State (root : Root) where
  root_pose : Fin root.dof → ℝ
  joint_angles : Fin jointsDof → ℝ

/-- `asVector`, generalized_coordinates.h:119-125. -/
def State.asVector {root : Root} (g : State root) (i : ℕ) : ℝ :=
  if h : i < root.dof then g.root_pose ⟨i, h⟩
  else if h : i - root.dof < jointsDof then g.joint_angles ⟨i - root.dof, h⟩ else 0

/-- The members of `Model` which are used by tasks, model.h:79-89, 262-264. `kinematics q` is the model of RBDL after
`UpdateKinematicsCustom` with the coordinates `q`. -/
structure Robot (root : Root) where
  kinematics : (ℕ → ℝ) → RbdlModel ℝ
  rbdl_model : Rbdl.Model ℝ
  base_com_tag : TagPartialCoM ℝ
  body_com_tag : TagPartialCoM ℝ
  base_orientation_tag : ℕ
  base_position_tag : ℕ
  state : State root
  constraints : Constraints ℝ jointsDof

/-- `getBaseLinksStringIds`, model_description.h:83-92. -/
def baseLinks : List String := ["Tibia"]

/-- `getBodyLinksStringIds`, model_description.h:100-156. -/
def bodyLinks : List String :=
  ["Head", "Hip", "LBicep", "LElbow", "LForeArm", "LShoulder", "Neck", "Pelvis", "RBicep", "RElbow", "RForeArm", "RShoulder",
   "l_wrist", "r_wrist", "torso"]

/-- `getBaseOrientationLinkStringId`, `getBasePositionLinkStringId`, model_description.h:165-179. -/
def baseLink : String := "base_footprint"

variable {root : Root}

namespace Robot

/-- `loadParameters`, model.h:274-297, and `initialize`, model.h:96-119. `loaded` is the outcome of `URDFReadFromFile` and the
kinematics of the loaded robot. The matrix for the wheels is in `IkModel`. -/
def loadParameters (r : Robot root) (junk : ℕ → Rbdl.Spatial ℝ) (loaded : Option (RbdlModel ℝ × ((ℕ → ℝ) → RbdlModel ℝ))) :
    Res (Robot root) := do
  let m ← r.rbdl_model.load junk (loaded.map Prod.fst)
  assertThat (root.dof + jointsDof = m.getDOFNumber)
  let kinematics := (loaded.map Prod.snd).getD r.kinematics
  let base_com_tag ← m.getCoMTag baseLinks
  let body_com_tag ← m.getCoMTag bodyLinks
  pure { r with
    kinematics := kinematics
    base_orientation_tag := m.getLinkId baseLink
    base_position_tag := m.getLinkId baseLink
    base_com_tag := base_com_tag
    body_com_tag := body_com_tag
    rbdl_model := m.update (kinematics r.state.asVector) }

/-- `updateState`, model.h:717-725. -/
def updateState (r : Robot root) (g : State root) : Robot root :=
  { r with state := g, rbdl_model := r.rbdl_model.update (r.kinematics g.asVector) }

/-- `getBaseCoM`, model.h:317-320. -/
def getBaseCoM (r : Robot root) : Res (Fin 3 → ℝ) := r.rbdl_model.getPartialCoM r.base_com_tag

/-- `getBodyCoM`, model.h:339-342. -/
def getBodyCoM (r : Robot root) : Res (Fin 3 → ℝ) := r.rbdl_model.getPartialCoM r.body_com_tag

/-- `getBaseCoMJacobian`, model.h:383-386. -/
def getBaseCoMJacobian (r : Robot root) (J : Mat ℝ) : Res (Mat ℝ) := r.rbdl_model.getPartialCoMJacobian J r.base_com_tag

/-- `getBodyCoMJacobian`, model.h:405-408. -/
def getBodyCoMJacobian (r : Robot root) (J : Mat ℝ) : Res (Mat ℝ) := r.rbdl_model.getPartialCoMJacobian J r.body_com_tag

/-- `getBaseOrientationJacobian`, model.h:416-419. -/
def getBaseOrientationJacobian (r : Robot root) : Res (Mat ℝ) := r.rbdl_model.getTagJacobian .rotation r.base_orientation_tag 0

/-- `getBaseOrientation`, model.h:427-430. -/
def getBaseOrientation (r : Robot root) : Res (Mat3 ℝ) := r.rbdl_model.getTagOrientation r.base_orientation_tag

/-- `getLinkTag`, model.h:451-454. -/
def getLinkTag (r : Robot root) (name : String) : ℕ := r.rbdl_model.getLinkId name

/-- `getTagOrientation`, model.h:464-467. -/
def getTagOrientation (r : Robot root) (tag : ℕ) : Res (Mat3 ℝ) := r.rbdl_model.getTagOrientation tag

/-- `getTagPosition`, model.h:477-480. -/
def getTagPosition (r : Robot root) (tag : ℕ) : Res (Fin 3 → ℝ) := r.rbdl_model.getLinkPosition tag

/-- `getTagOrientationJacobian`, model.h:489-493. -/
def getTagOrientationJacobian (r : Robot root) (tag : ℕ) : Res (Mat ℝ) := r.rbdl_model.getTagJacobian .rotation tag 0

/-- `getTagCompleteJacobian`, model.h:502-506. -/
def getTagCompleteJacobian (r : Robot root) (tag : ℕ) : Res (Mat ℝ) := r.rbdl_model.getTagJacobian .complete tag 0

end Robot

/-- `MotionParameters`, common.h:87-91. -/
structure MotionParameters where
  base_com_position : Fin 3 → ℝ
  body_com_position : Fin 3 → ℝ
  base_orientation_rpy : Fin 3 → ℝ

/-- `getStateError`, model.h:750-760. -/
def Robot.getStateError (r : Robot root) (p : MotionParameters) : Res MotionParameters := do
  let base ← r.getBaseCoM
  let body ← r.getBodyCoM
  let R ← r.getBaseOrientation
  let ref ← convertEulerAnglesToMatrix p.base_orientation_rpy .rpy
  pure
    { base_com_position := p.base_com_position - base
      body_com_position := p.body_com_position - body
      base_orientation_rpy := getRotationErrorAngleAxis R ref }

/-- `ROOT_VARIABLES_ID`, common.h:17. -/
def rootVelId : String := "root_vel"

/-- `JOINTS_VARIABLES_ID`, common.h:19. -/
def jointsVelId : String := "joints_vel"

/-- `WholeBodyController`, whole_body_controller.h:22-33. Maps are lists of pairs with different keys. -/
structure Wbc where
  control_interval : ℝ
  solution_is_parsed : Bool
  sol_structure : SolutionStructure
  motion_parameters : MotionParameters
  tags_velocity : List (String × Vec6)
  tags_desired_pose_global : List (String × Vec6)

namespace Wbc

/-- The velocity which is used by `getTagVelocityInLocal`, whole_body_controller.h:48-58. -/
def localVelocity (w : Wbc) (tag_name : String) : Vec6 := (w.tags_velocity.lookup tag_name).getD ⟨0, 0⟩

/-- `getTagVelocityInLocal`, whole_body_controller.h:45-72. -/
def getTagVelocityInLocal (w : Wbc) (tag_name : String) (ty : SpatialType) : Res (Vec ℝ) :=
  match ty with
  | .rotation => .ok (vec3 (w.localVelocity tag_name).tail)
  | .translation => .ok (vec3 (w.localVelocity tag_name).head)
  | .complete => .ok (w.localVelocity tag_name).toVec
  | .undefined => .error .thrown

/-- `getTagVelocityInGlobal`, whole_body_controller.h:110-153. `getNumberOfElements` rejects other types before the `switch`. -/
def getTagVelocityInGlobal (r : Robot root) (tag_name : String) (v : Vec6) (ty : SpatialType) : Res (Vec ℝ) := do
  let tag := r.getLinkTag tag_name
  let _ ← ty.getNumberOfElements
  match ty with
  | .rotation => do
    let R ← r.getTagOrientation tag
    pure (vec3 (R *ᵥ v.tail))
  | .translation => do
    let p ← r.getTagPosition tag
    let R ← r.getTagOrientation tag
    pure (vec3 (cross p (R *ᵥ v.tail) + R *ᵥ v.head))
  | .complete => do
    let R ← r.getTagOrientation tag
    let p ← r.getTagPosition tag
    pure (Vec6.toVec ⟨R *ᵥ v.tail, cross p (R *ᵥ v.tail) + R *ᵥ v.head⟩)
  | .undefined => .error .thrown

/-- An iteration of the loop in `computeTagsDesiredPoseInGlobal`, whole_body_controller.h:166-182. `ea` is `eulerAngles` of Eigen. -/
def desiredPose (ea : Mat3 ℝ → Fin 3 → Fin 3 → Fin 3 → (Fin 3 → ℝ)) (w : Wbc) (r : Robot root) (tag_name : String) : Res Vec6 := do
  let tag := r.getLinkTag tag_name
  let R ← r.getTagOrientation tag
  let wl ← w.getTagVelocityInLocal tag_name .rotation
  let rpy ← convertMatrixToEulerAngles ea (integrateAngularVelocity R (fun i => wl.e i) w.control_interval) .rpy
  let p ← r.getTagPosition tag
  let _ ← w.getTagVelocityInLocal tag_name .complete
  let v ← getTagVelocityInGlobal r tag_name (w.localVelocity tag_name) .translation
  pure ⟨rpy, fun i => p i + w.control_interval * v.e i⟩

/-- Assignment to an element of a map. The order of elements in the list is not relevant. -/
def assign (m : List (String × Vec6)) (key : String) (v : Vec6) : List (String × Vec6) :=
  (key, v) :: m.filter fun p => p.1 ≠ key

/-- `computeTagsDesiredPoseInGlobal`, whole_body_controller.h:161-185. -/
def computeTagsDesiredPoseInGlobal (ea : Mat3 ℝ → Fin 3 → Fin 3 → Fin 3 → (Fin 3 → ℝ)) (w : Wbc) (r : Robot root) : Res Wbc := do
  let m ← w.tags_velocity.foldlM (fun m p => do
    let pose ← w.desiredPose ea r p.1
    pure (assign m p.1 pose)) w.tags_desired_pose_global
  pure { w with tags_desired_pose_global := m }

/-- `getTagPoseErrorInGlobal`, whole_body_controller.h:195-215. -/
def getTagPoseErrorInGlobal (w : Wbc) (r : Robot root) (tag_name : String) : Res Vec6 :=
  match w.tags_desired_pose_global.lookup tag_name with
  | none => .ok ⟨0, 0⟩
  | some pose => do
    let tag := r.getLinkTag tag_name
    let R ← r.getTagOrientation tag
    let ref ← convertEulerAnglesToMatrix pose.head .rpy
    let p ← r.getTagPosition tag
    pure ⟨getRotationErrorAngleAxis R ref, pose.tail - p⟩

/-- `setTagsVelocity`, whole_body_controller.h:80-83. -/
def setTagsVelocity (w : Wbc) (v : List (String × Vec6)) : Wbc := { w with tags_velocity := v }

/-- The structure of solutions, whole_body_controller.h:254-257. -/
def solutionStructure (root : Root) : SolutionStructure :=
  (SolutionStructure.empty.add rootVelId root.dof).add jointsVelId jointsDof

/-- `update`, whole_body_controller.h:247-262; it always returns `OK`. -/
def update (root : Root) (w : Wbc) (p : MotionParameters) : Wbc :=
  { w with solution_is_parsed := false, sol_structure := solutionStructure root, motion_parameters := p }

/-- `getNextGeneralizedCoordinates(solution, model)`, whole_body_controller.h:284-298, and `parseSolution`, 270-273. Addition of
vectors of different sizes is an assertion of Eigen, which is undefined behaviour in the model. -/
def getNextGeneralizedCoordinates (w : Wbc) (sol : Solution ℝ) (r : Robot root) : Res (Wbc × State root) := do
  assertThat (w.solution_is_parsed = false)
  let a ← sol.getPart rootVelId
  require (a.length = root.dof)
  let b ← sol.getPart jointsVelId
  require (b.length = jointsDof)
  pure ({ w with solution_is_parsed := true },
    ⟨fun i => r.state.root_pose i + a.getD i 0, fun i => r.state.joint_angles i + b.getD i 0⟩)

end Wbc

/-! ### Tasks -/

/-- Arguments of `form`. -/
structure IkEnv (root : Root) where
  structure_ : SolutionStructure
  robot : Robot root
  wbc : Wbc

/-- Multiplication by the gain at the end of `form`, e.g. task_tagpose.h:96-100; `isApproximatelyEqual`, utility.h:87-92. -/
def applyGain (gain : ℝ) (d : CtrData ℝ) (A : Mat ℝ) (b : Vec ℝ) : CtrData ℝ :=
  if |1 - gain| < genericTolerance then { d with A := A, b := b }
  else { d with A := Kron.scale gain A, b := ⟨b.n, fun i => b.e i * gain⟩ }

/-- Multiplication of a vector by a number. -/
def scaleVec (k : ℝ) (v : Vec ℝ) : Vec ℝ := ⟨v.n, fun i => k * v.e i⟩

/-- `TaskJointsBounds::form`, task_jointsbounds.h:29-55. -/
def jointsBoundsForm (env : IkEnv root) (d : CtrData ℝ) : Res (CtrData ℝ) :=
  let loc := env.structure_.location jointsVelId
  let c := env.robot.constraints
  let q := env.robot.state.joint_angles
  .ok { d with
    idx := ⟨loc.length, fun i => loc.offset + i⟩
    lb := ⟨jointsDof, fun i => if h : i < jointsDof then c.joint_position_bounds_min ⟨i, h⟩ - q ⟨i, h⟩ else 0⟩
    ub := ⟨jointsDof, fun i => if h : i < jointsDof then c.joint_position_bounds_max ⟨i, h⟩ - q ⟨i, h⟩ else 0⟩ }

/-- `TaskJointsReference::form`, task_jointsref.h:73-96. -/
def jointsReferenceForm (gain k : ℝ) (reference : Fin jointsDof → ℝ) (env : IkEnv root) (d : CtrData ℝ) : Res (CtrData ℝ) :=
  let loc := env.structure_.location jointsVelId
  let q := env.robot.state.joint_angles
  .ok { d with
    idx := ⟨loc.length, fun i => loc.offset + i⟩
    gains := ⟨loc.length, fun _ => gain⟩
    b := ⟨jointsDof, fun i => if h : i < jointsDof then k * gain * (reference ⟨i, h⟩ - q ⟨i, h⟩) else 0⟩ }

/-- The tag of a task is found in the first call of `form` and kept, e.g. task_tagpose.h:84-87. -/
def cachedTag (r : Robot root) (name : String) (tag : Option ℕ) : ℕ :=
  match tag with
  | some t => t
  | none => r.getLinkTag name

/-- `TaskTagPose::form`, task_tagpose.h:74-101. `tag` is the tag found before. -/
def tagPoseForm (gain k : ℝ) (name : String) (tag : Option ℕ) (env : IkEnv root) (d : CtrData ℝ) : Res (CtrData ℝ) := do
  let A ← env.robot.getTagCompleteJacobian (cachedTag env.robot name tag)
  let e ← env.wbc.getTagPoseErrorInGlobal env.robot name
  pure (applyGain gain d A (scaleVec k e.toVec))

/-- `TaskTagPose3Dof::form`, task_tagpose3dof.h:76-104. -/
def tagPose3DofForm (gain k : ℝ) (name : String) (tag : Option ℕ) (env : IkEnv root) (d : CtrData ℝ) : Res (CtrData ℝ) := do
  let A ← env.robot.getTagCompleteJacobian (cachedTag env.robot name tag)
  let e ← env.wbc.getTagPoseErrorInGlobal env.robot name
  let b := scaleVec k e.toVec
  pure (applyGain gain d A ⟨b.n, fun i => if 2 ≤ i ∧ i < 2 + 3 then b.e i * 0 else b.e i⟩)

/-- `TaskTagOrientation::form`, task_tagorient.h:79-109. -/
def tagOrientationForm (gain k : ℝ) (name : String) (reference_rpy : Fin 3 → ℝ) (tag : Option ℕ) (env : IkEnv root)
    (d : CtrData ℝ) : Res (CtrData ℝ) := do
  let t := cachedTag env.robot name tag
  let A ← env.robot.getTagOrientationJacobian t
  let R ← env.robot.getTagOrientation t
  let ref ← convertEulerAnglesToMatrix reference_rpy .rpy
  pure (applyGain gain d A (scaleVec k (vec3 (getRotationErrorAngleAxis R ref))))

/-- `TaskTagCompleteVelocity::form`, task_tagcompletevel.h:74-104. -/
def tagCompleteVelocityForm (gain k : ℝ) (name : String) (tag : Option ℕ) (env : IkEnv root) (d : CtrData ℝ) :
    Res (CtrData ℝ) := do
  let A ← env.robot.getTagCompleteJacobian (cachedTag env.robot name tag)
  let _ ← env.wbc.getTagVelocityInLocal name .complete
  let v ← Wbc.getTagVelocityInGlobal env.robot name (env.wbc.localVelocity name) .complete
  pure (applyGain gain d A (scaleVec k v))

/-- `TaskTagAngularVelocity::form`, task_tagangularvel.h:74-104. -/
def tagAngularVelocityForm (gain k : ℝ) (name : String) (tag : Option ℕ) (env : IkEnv root) (d : CtrData ℝ) :
    Res (CtrData ℝ) := do
  let A ← env.robot.getTagOrientationJacobian (cachedTag env.robot name tag)
  let _ ← env.wbc.getTagVelocityInLocal name .complete
  let v ← Wbc.getTagVelocityInGlobal env.robot name (env.wbc.localVelocity name) .rotation
  pure (applyGain gain d A (scaleVec k v))

/-- `TaskBaseOrientation::form`, task_baseorient.h:79-107 (six degrees of freedom of the root), 132-164 (planar). -/
def baseOrientationForm (gain k : ℝ) (env : IkEnv root) (d : CtrData ℝ) : Res (CtrData ℝ) := do
  let J ← env.robot.getBaseOrientationJacobian
  let R ← env.robot.getBaseOrientation
  let ref ← convertEulerAnglesToMatrix env.wbc.motion_parameters.base_orientation_rpy .rpy
  let e := getRotationErrorAngleAxis R ref
  if root = .planar then do
    require (1 ≤ J.rows)
    pure (applyGain gain d ⟨1, J.cols, fun i c => J.e (J.rows - 1 + i) c⟩ ⟨1, fun _ => k * e 2⟩)
  else pure (applyGain gain d J (scaleVec k (vec3 e)))

/-- `TaskBaseCoMTracking::form`, task_basecom.h:79-101 (six degrees of freedom of the root), 128-154 (planar). New rows of a matrix
which is resized are not initialised. -/
def baseCoMForm (gain k : ℝ) (junk : ℕ → ℕ → ℝ) (env : IkEnv root) (d : CtrData ℝ) : Res (CtrData ℝ) := do
  let A ← env.robot.getBaseCoMJacobian d.A
  let com ← env.robot.getBaseCoM
  let e := env.wbc.motion_parameters.base_com_position - com
  if root = .planar then
    pure (applyGain gain d ⟨2, A.cols, fun i c => if i < A.rows then A.e i c else junk i c⟩ (scaleVec k ⟨2, Rbdl.row3 e⟩))
  else pure (applyGain gain d A (scaleVec k (vec3 e)))

/-- `AxisIndex::FLAG_X`, `FLAG_Y`, `FLAG_Z`, utility.h:51-53. -/
def axisFlag : Fin 3 → BitVec 32
  | 0 => 1#32
  | 1 => 2#32
  | 2 => 4#32

/-- The variable `all_flags_set`, task_bodycom.h:88. -/
def allFlags : BitVec 32 := axisFlag 0 ||| axisFlag 1 ||| axisFlag 2

/-- The condition `AxisIndex::FLAG_… & axis_flag_`. -/
def hasFlag (flags : BitVec 32) (a : Fin 3) : Bool := decide (axisFlag a &&& flags ≠ 0#32)

/-- Copying of selected rows, task_bodycom.h:129-147: `A.row(num) = A_tmp.row(a); b(num) = b_tmp(a); ++num`. -/
def copyRow (flags : BitVec 32) (J : Mat ℝ) (e : Vec ℝ) (y : ℕ × Mat ℝ × Vec ℝ) (a : Fin 3) : Res (ℕ × Mat ℝ × Vec ℝ) :=
  if hasFlag flags a = true then do
    require (y.1 < y.2.1.rows ∧ a < J.rows)
    let b ← y.2.2.set y.1 (e.e a)
    pure (y.1 + 1, ⟨y.2.1.rows, y.2.1.cols, fun i c => if i = y.1 then J.e a c else y.2.1.e i c⟩, b)
  else pure y

/-- `TaskBodyCoMTracking::form`, task_bodycom.h:73-155. -/
def bodyCoMForm (gain k : ℝ) (axis_flag : BitVec 32) (junkA : ℕ → ℕ → ℝ) (junkB : ℕ → ℝ) (env : IkEnv root)
    (d : CtrData ℝ) : Res (CtrData ℝ) := do
  let com ← env.robot.getBodyCoM
  let e := scaleVec k (vec3 (env.wbc.motion_parameters.body_com_position - com))
  if allFlags = axis_flag then do
    let A ← env.robot.getBodyCoMJacobian d.A
    pure (applyGain gain d A e)
  else do
    let num := (if hasFlag axis_flag 0 = true then 1 else 0) + (if hasFlag axis_flag 1 = true then 1 else 0) +
      (if hasFlag axis_flag 2 = true then 1 else 0)
    assertThat (¬ (num = 0 ∨ allFlags ||| axis_flag ≠ allFlags))
    let J ← env.robot.getBodyCoMJacobian ⟨0, 0, fun _ _ => 0⟩
    let y ← [0, 1, 2].foldlM (copyRow axis_flag J e) (0, ⟨num, J.cols, junkA⟩, ⟨num, junkB⟩)
    pure (applyGain gain d y.2.1 y.2.2)

/-- The joints of the arms, task_fixarms.h:43-54. -/
def armJoints : List Joint :=
  [.LShoulderPitch, .LShoulderRoll, .LElbowYaw, .LElbowRoll, .LWristYaw,
   .RShoulderPitch, .RShoulderRoll, .RElbowYaw, .RElbowRoll, .RWristYaw]

/-- The joints of the head, task_fixhead.h:44-45. -/
def headJoints : List Joint := [.HeadYaw, .HeadPitch]

/-- `TaskFixArms::form`, task_fixarms.h:34-55, and `TaskFixHead::form`, task_fixhead.h:34-46. -/
def fixJointsForm (joints : List Joint) (env : IkEnv root) (d : CtrData ℝ) : Res (CtrData ℝ) :=
  let loc := env.structure_.location jointsVelId
  .ok { d with idx := ⟨joints.length, fun i => loc.offset + jointId root (joints.getD i .KneePitch)⟩ }

end

end Ik

end Humoto
