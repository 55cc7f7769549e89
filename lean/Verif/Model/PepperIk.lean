import Verif.Model.Basic
import Verif.Model.Rotary

/-!
# Model of `modules/pepper_ik`: limits, wheels, commands and coordinates of the robot

`model.h`, `model_description.h` and `generalized_coordinates.h`. Unlike in the rest of the model the special values of
`double` are kept, since the code handles them: a `double` is a finite number, an infinity or NaN. Rounding and the
sign of zero are ignored. The kinematics (RBDL) is a parameter: functions of the coordinates given to the last call of
`rbdl_model_.update`. The features of a model are the type of its root; the wheels are fixed in all models.
-/

namespace Humoto

namespace Ik

/-- `double` with its special values. -/
inductive Dbl (K : Type)
  | fin (x : K)
  | pinf
  | ninf
  | nan

namespace Dbl

variable {K : Type}

/-- `boost::math::isnan`. -/
def isNan : Dbl K → Bool
  | nan => true
  | _ => false

/-- Operator `<` of IEEE 754: false if an argument is NaN. -/
def lt [LT K] : Dbl K → Dbl K → Prop
  | fin x, fin y => x < y
  | fin _, pinf => True
  | ninf, fin _ => True
  | ninf, pinf => True
  | _, _ => False

instance [LT K] : LT (Dbl K) := ⟨lt⟩

instance [LT K] [DecidableLT K] (a b : Dbl K) : Decidable (a < b) := by
  cases a <;> cases b <;> simp only [LT.lt, lt] <;> infer_instance

/-- Comparison with `0.0`. -/
def isZero [Zero K] [DecidableEq K] : Dbl K → Bool
  | fin x => decide (x = 0)
  | _ => false

/-- Unary minus. -/
def neg [Neg K] : Dbl K → Dbl K
  | fin x => fin (-x)
  | pinf => ninf
  | ninf => pinf
  | nan => nan

instance [Neg K] : Neg (Dbl K) := ⟨neg⟩

/-- Addition of IEEE 754 without rounding. -/
def add [Add K] : Dbl K → Dbl K → Dbl K
  | nan, _ => nan
  | _, nan => nan
  | fin x, fin y => fin (x + y)
  | pinf, ninf => nan
  | ninf, pinf => nan
  | pinf, _ => pinf
  | _, pinf => pinf
  | ninf, _ => ninf
  | _, ninf => ninf

instance [Add K] : Add (Dbl K) := ⟨add⟩

/-- Subtraction. -/
instance [Add K] [Neg K] : Sub (Dbl K) := ⟨fun a b => a + -b⟩

/-- `std::abs`. -/
def abs [Lattice K] [AddGroup K] : Dbl K → Dbl K
  | fin x => fin |x|
  | nan => nan
  | _ => pinf

/-- Product of an infinity, negative if `s`, and a finite number. -/
def infMul [Zero K] [LinearOrder K] (s : Bool) (x : K) : Dbl K :=
  if x = 0 then nan else if s = decide (x < 0) then pinf else ninf

/-- Multiplication of IEEE 754 without rounding. -/
def mul [Mul K] [Zero K] [LinearOrder K] : Dbl K → Dbl K → Dbl K
  | nan, _ => nan
  | _, nan => nan
  | fin x, fin y => fin (x * y)
  | pinf, fin x => infMul false x
  | fin x, pinf => infMul false x
  | ninf, fin x => infMul true x
  | fin x, ninf => infMul true x
  | pinf, pinf => pinf
  | ninf, ninf => pinf
  | pinf, ninf => ninf
  | ninf, pinf => ninf

instance [Mul K] [Zero K] [LinearOrder K] : Mul (Dbl K) := ⟨mul⟩

/-- Division of IEEE 754 without rounding; a zero divisor is taken to be `+0.0`. -/
def div [Div K] [Zero K] [LinearOrder K] : Dbl K → Dbl K → Dbl K
  | nan, _ => nan
  | _, nan => nan
  | fin x, fin y => if y = 0 then (if x = 0 then nan else if x < 0 then ninf else pinf) else fin (x / y)
  | fin _, _ => fin 0
  | pinf, fin y => if y < 0 then ninf else pinf
  | ninf, fin y => if y < 0 then pinf else ninf
  | _, _ => nan

instance [Div K] [Zero K] [LinearOrder K] : Div (Dbl K) := ⟨div⟩

end Dbl

/-- The loops over the components of a vector of a fixed size which only check them. -/
def forEach {n : ℕ} (f : Fin n → Res Unit) : Res Unit := (List.finRange n).forM f

section
variable {K : Type} [Field K] [LinearOrder K]

/-- `Model::Constraints`, model.h:126-133. -/
structure Constraints (K : Type) (n : ℕ) where
  joint_position_bounds_min : Fin n → K
  joint_position_bounds_max : Fin n → K
  joint_velocity_bounds : Fin n → K
  wheel_velocities_max : Fin 3 → K
  error_tol : K

variable {n : ℕ}

/-- `Constraints::checkJointPositions`, model.h:158-196. -/
def Constraints.checkJointPositions (c : Constraints K n) (joint_angles : Fin n → Dbl K) : Res Unit :=
  forEach fun i => do
    let value := joint_angles i
    if value.isNan then throw .thrown
    if value < .fin (c.joint_position_bounds_min i - c.error_tol) then throw .thrown
    if .fin (c.joint_position_bounds_max i + c.error_tol) < value then throw .thrown

/-- `Constraints::checkJointVelocities`, model.h:206-223. -/
def Constraints.checkJointVelocities (c : Constraints K n) (joint_angles_from joint_angles_to : Fin n → Dbl K) (dt : Dbl K) : Res Unit :=
  forEach fun i => do
    let joint_vel := (joint_angles_to i - joint_angles_from i).abs / dt
    if .fin (c.joint_velocity_bounds i) < joint_vel then throw .thrown

/-- `Constraints::checkWheelVelocities`, model.h:231-258. -/
def Constraints.checkWheelVelocities (c : Constraints K n) (velocities : Fin 3 → Dbl K) : Res Unit :=
  forEach fun i => do
    let value := velocities i
    if value.isNan then throw .thrown
    if value < .fin (-c.wheel_velocities_max i) ∨ .fin (c.wheel_velocities_max i) < value then throw .thrown

/-- `ModelFeatures`, model_description.h:21-41: the type of the root. -/
inductive Root
  | torso
  | tibia
  | planar
  deriving DecidableEq

/-- `ROOT_DOF_NUMBER`, model_description.h:455, 640, 819. -/
def Root.dof : Root → ℕ
  | .torso => 6
  | .tibia => 6
  | .planar => 3

/-- The names of the joints, model_description.h:462-486. -/
inductive Joint
  | KneePitch | HipPitch | HipRoll | HeadYaw | HeadPitch
  | LShoulderPitch | LShoulderRoll | LElbowYaw | LElbowRoll | LWristYaw
  | RShoulderPitch | RShoulderRoll | RElbowYaw | RElbowRoll | RWristYaw
  deriving DecidableEq

/-- `JOINTS_DOF_NUMBER`, model_description.h:483, 668, 847. -/
abbrev jointsDof : ℕ := 15

/-- `JointsDoFIds`, model_description.h:462-486 (torso), 647-671 (tibia), 826-850 (planar). -/
def jointId : Root → Joint → Fin jointsDof
  | .torso, .HeadYaw => 0
  | .torso, .HeadPitch => 1
  | .torso, .HipRoll => 2
  | .torso, .HipPitch => 3
  | .torso, .KneePitch => 4
  | _, .KneePitch => 0
  | _, .HipPitch => 1
  | _, .HipRoll => 2
  | _, .HeadYaw => 3
  | _, .HeadPitch => 4
  | _, .LShoulderPitch => 5
  | _, .LShoulderRoll => 6
  | _, .LElbowYaw => 7
  | _, .LElbowRoll => 8
  | _, .LWristYaw => 9
  | _, .RShoulderPitch => 10
  | _, .RShoulderRoll => 11
  | _, .RElbowYaw => 12
  | _, .RElbowRoll => 13
  | _, .RWristYaw => 14

/-- A sequence of assignments `vector(ModelDescription<t_features>::joint) = value`. -/
def assignJoints {α : Type} (root : Root) (l : List (Joint × α)) (v : Fin jointsDof → α) : Fin jointsDof → α :=
  l.foldl (fun v p => Function.update v (jointId root p.1) p.2) v

/-- `getJointPositionBounds`, model_description.h:308-343, the lower bounds. -/
def minBounds : List (Joint × K) :=
  [(.KneePitch, -514872 / 1000000), (.HipPitch, -103847 / 100000), (.HipRoll, -514872 / 1000000),
   (.HeadYaw, -208566999999999991 / 10 ^ 17), (.HeadPitch, -706858 / 1000000 + 1 / 10 ^ 17),
   (.LShoulderPitch, -208566999999999991 / 10 ^ 17), (.LShoulderRoll, 872665 / 10 ^ 8),
   (.LElbowYaw, -208566999999999991 / 10 ^ 17), (.LElbowRoll, -156207000000000007 / 10 ^ 17),
   (.LWristYaw, -182387000000000010 / 10 ^ 17),
   (.RShoulderPitch, -208566999999999991 / 10 ^ 17), (.RShoulderRoll, -156207000000000007 / 10 ^ 17),
   (.RElbowYaw, -208566999999999991 / 10 ^ 17), (.RElbowRoll, 872665 / 10 ^ 8),
   (.RWristYaw, -182387000000000010 / 10 ^ 17)]

/-- `getJointPositionBounds`, model_description.h:308-343, the upper bounds. -/
def maxBounds : List (Joint × K) :=
  [(.KneePitch, 514872 / 1000000), (.HipPitch, 103847 / 100000), (.HipRoll, 514872 / 1000000),
   (.HeadYaw, 208566999999999991 / 10 ^ 17), (.HeadPitch, 637045 / 1000000 - 3 / 10 ^ 17),
   (.LShoulderPitch, 208566999999999991 / 10 ^ 17), (.LShoulderRoll, 156207000000000007 / 10 ^ 17),
   (.LElbowYaw, 208566999999999991 / 10 ^ 17), (.LElbowRoll, -872665 / 10 ^ 8),
   (.LWristYaw, 182387000000000010 / 10 ^ 17),
   (.RShoulderPitch, 208566999999999991 / 10 ^ 17), (.RShoulderRoll, -872665 / 10 ^ 8),
   (.RElbowYaw, 208566999999999991 / 10 ^ 17), (.RElbowRoll, 156207000000000007 / 10 ^ 17),
   (.RWristYaw, 182387000000000010 / 10 ^ 17)]

/-- `getJointVelocityBounds`, model_description.h:355-373. -/
def velocityBounds : List (Joint × K) :=
  [(.KneePitch, 293276 / 100000), (.HipPitch, 293276 / 100000), (.HipRoll, 227032 / 100000),
   (.HeadYaw, 733998 / 100000), (.HeadPitch, 922756 / 100000),
   (.LShoulderPitch, 733998 / 100000), (.LShoulderRoll, 922756 / 100000), (.LElbowYaw, 733998 / 100000),
   (.LElbowRoll, 922756 / 100000), (.LWristYaw, 173835 / 10000),
   (.RShoulderPitch, 733998 / 100000), (.RShoulderRoll, 922756 / 100000), (.RElbowYaw, 733998 / 100000),
   (.RElbowRoll, 922756 / 100000), (.RWristYaw, 173835 / 10000)]

/-- `getDefaultJointAngles`, model_description.h:383-425. -/
def defaultAngles : List (Joint × K) :=
  [(.KneePitch, -1975011835036236 / 10 ^ 16), (.HipPitch, 4160023626190753 / 10 ^ 16), (.HipRoll, 0),
   (.HeadYaw, 0), (.HeadPitch, 6850114982656237 / 10 ^ 17),
   (.LShoulderPitch, 1639454123287812 / 10 ^ 15), (.LShoulderRoll, 12 / 100), (.LElbowYaw, -12217007 / 10 ^ 7),
   (.LElbowRoll, -52345699 / 10 ^ 8), (.LWristYaw, 0),
   (.RShoulderPitch, 1639454123287804 / 10 ^ 15), (.RShoulderRoll, -12 / 100), (.RElbowYaw, 12217007 / 10 ^ 7),
   (.RElbowRoll, 52345699 / 10 ^ 8), (.RWristYaw, 0)]

/-- The constructor of `Constraints`, model.h:140-150; `getMaxWheelVelocities`, model_description.h:290-293. `junk` is the
uninitialised memory. -/
def Constraints.make (root : Root) (junk : Fin jointsDof → K) : Constraints K jointsDof where
  joint_position_bounds_min := assignJoints root minBounds junk
  joint_position_bounds_max := assignJoints root maxBounds junk
  joint_velocity_bounds := assignJoints root velocityBounds junk
  wheel_velocities_max := fun _ => 628319 / 100000
  error_tol := 1 / 10 ^ 7

/-- `GeneralizedCoordinates`, generalized_coordinates.h:54-55. -/
structure Coords (K : Type) (root : Root) where
  root_pose : Fin root.dof → Dbl K
  joint_angles : Fin jointsDof → Dbl K

/-- The quantities which the model gets from RBDL for the coordinates of the last update (contract): position and
orientation of the base. -/
structure Kinematics (K : Type) (root : Root) where
  basePosition : Coords K root → Fin 3 → Dbl K
  baseOrientation : Coords K root → Matrix (Fin 3) (Fin 3) (Dbl K)

/-- `SavedState`, model.h:60-75 (`none` if it is not initialized). -/
structure SavedState (K : Type) (root : Root) where
  base_position : Fin 3 → Dbl K
  base_orientation : Matrix (Fin 3) (Fin 3) (Dbl K)
  generalized_coordinates : Coords K root

/-- `Model`, model.h:57-89, 262-264. `rbdl_model` is the argument of the last `rbdl_model_.update`. -/
structure IkModel (K : Type) (root : Root) where
  kinematics : Kinematics K root
  root_motion_to_wheels : Matrix (Fin 3) (Fin 3) K
  saved_state : Option (SavedState K root)
  generalized_coordinates : Coords K root
  constraints : Constraints K jointsDof
  rbdl_model : Coords K root

/-- `RobotCommand`, model.h:20-26. -/
structure RobotCommand (K : Type) where
  joint_angles : Fin jointsDof → Dbl K
  wheel_velocities : Fin 3 → Dbl K
  base_velocities : Fin 3 → Dbl K
  time_interval : Dbl K

variable {root : Root}

namespace IkModel

/-- `getBasePosition`, model.h:514-517. -/
def getBasePosition (m : IkModel K root) : Fin 3 → Dbl K := m.kinematics.basePosition m.rbdl_model

/-- `getBaseOrientation`, model.h:427-430. -/
def getBaseOrientation (m : IkModel K root) : Matrix (Fin 3) (Fin 3) (Dbl K) := m.kinematics.baseOrientation m.rbdl_model

/-- `saveCurrentState`, model.h:303-309. -/
def saveCurrentState (m : IkModel K root) : IkModel K root :=
  { m with
    saved_state := some
      { base_orientation := m.getBaseOrientation
        base_position := m.getBasePosition
        generalized_coordinates := m.generalized_coordinates } }

/-- `updateState`, model.h:717-725, with the argument of the right type (otherwise `std::bad_cast` is thrown). -/
def updateState (m : IkModel K root) (g : Coords K root) : IkModel K root :=
  { m with
    generalized_coordinates := g
    rbdl_model := g }

/-- `checkCurrentState`, model.h:643-646. -/
def checkCurrentState (m : IkModel K root) : Res Unit := m.constraints.checkJointPositions m.generalized_coordinates.joint_angles

end IkModel

/-- `v.cross(w)` of Eigen with the special values. -/
def crossD (v w : Fin 3 → Dbl K) : Fin 3 → Dbl K :=
  ![v 1 * w 2 - v 2 * w 1, v 2 * w 0 - v 0 * w 2, v 0 * w 1 - v 1 * w 0]

/-- `getRotationErrorAngleAxis`, rotary_state.h:124-132, with the special values (see `Humoto.getRotationErrorAngleAxis`). -/
def rotationErrorD (current reference : Matrix (Fin 3) (Fin 3) (Dbl K)) : Fin 3 → Dbl K := fun i =>
  .fin (1 / 2) * (crossD (fun j => current j 0) (fun j => reference j 0) i + crossD (fun j => current j 1) (fun j => reference j 1) i +
    crossD (fun j => current j 2) (fun j => reference j 2) i)

/-- Product of a matrix of size 3 and a vector. -/
def mulVecD (A : Matrix (Fin 3) (Fin 3) (Dbl K)) (v : Fin 3 → Dbl K) : Fin 3 → Dbl K := fun i =>
  A i 0 * v 0 + A i 1 * v 1 + A i 2 * v 2

/-- Product of two matrices of size 3. -/
def mulD (A B : Matrix (Fin 3) (Fin 3) (Dbl K)) : Matrix (Fin 3) (Fin 3) (Dbl K) := fun i j =>
  A i 0 * B 0 j + A i 1 * B 1 j + A i 2 * B 2 j

/-- `getRobotCommand`, model.h:527-559: the command afterwards and whether the function returned. The last argument of
the function is not used. -/
def IkModel.getRobotCommand (m : IkModel K root) (command : RobotCommand K) (dt : Dbl K) : RobotCommand K × Res Unit :=
  match m.saved_state with
  | none => (command, .error .thrown)
  | some s =>
    match m.constraints.checkJointPositions m.generalized_coordinates.joint_angles with
    | .error e => (command, .error e)
    | .ok _ =>
      match m.constraints.checkJointVelocities s.generalized_coordinates.joint_angles m.generalized_coordinates.joint_angles dt with
      | .error e => (command, .error e)
      | .ok _ =>
        let base_orientation := m.getBaseOrientation
        let base_translation_velocity := fun i => (m.getBasePosition i - s.base_position i) / dt
        let base_rotation_velocity := fun i => rotationErrorD s.base_orientation base_orientation i / dt
        let base_velocities := ![base_translation_velocity 0, base_translation_velocity 1, base_rotation_velocity 2]
        let wheel_velocities := mulVecD (mulD (m.root_motion_to_wheels.map .fin) base_orientation.transpose) base_velocities
        let command :=
          { command with
            joint_angles := m.generalized_coordinates.joint_angles
            base_velocities := base_velocities
            wheel_velocities := wheel_velocities }
        match m.constraints.checkWheelVelocities wheel_velocities with
        | .error e => (command, .error e)
        | .ok _ => ({ command with time_interval := dt }, .ok ())

/-- `getRootPosition`, model_description.h:944-950 (planar); 578-582 and 761-765 (otherwise). -/
def getRootPosition : (root : Root) → (Fin root.dof → Dbl K) → Fin 3 → Dbl K
  | .planar, p => ![p (0 : Fin 3), p (1 : Fin 3), .fin 0]
  | .torso, p => fun i => p (i.castLE (by decide : 3 ≤ 6))
  | .tibia, p => fun i => p (i.castLE (by decide : 3 ≤ 6))

/-- `setRootPosition`, model_description.h:913-920 (planar, a non-zero or NaN height is rejected); 549-553 and 732-736
(otherwise). -/
def setRootPosition : (root : Root) → (Fin root.dof → Dbl K) → (Fin 3 → Dbl K) → Res (Fin root.dof → Dbl K)
  | .planar, p, position => do
    assertThat ((position 2).isZero = true)
    pure (show Fin 3 → Dbl K from ![position 0, position 1, p (2 : Fin 3)])
  | .torso, p, position => pure (show Fin 6 → Dbl K from ![position 0, position 1, position 2, p (3 : Fin 6), p (4 : Fin 6), p (5 : Fin 6)])
  | .tibia, p, position => pure (show Fin 6 → Dbl K from ![position 0, position 1, position 2, p (3 : Fin 6), p (4 : Fin 6), p (5 : Fin 6)])

/-- `getRootOrientation` of the planar model, model_description.h:959-963. -/
def getPlanarOrientation (p : Fin 3 → Dbl K) : Fin 3 → Dbl K := ![.fin 0, .fin 0, p 2]

/-- `setRootOrientation` of the planar model, model_description.h:929-935. -/
def setPlanarOrientation (p rpy : Fin 3 → Dbl K) : Res (Fin 3 → Dbl K) := do
  assertThat ((rpy 0).isZero = true ∧ (rpy 1).isZero = true)
  pure ![p 0, p 1, rpy 2]

/-- The branch of `correct` for the planar model, model.h:576-594. -/
def correctPlanar (g : Coords K .planar) (command : RobotCommand K) (time_interval : Dbl K) : Res (Coords K .planar) := do
  let position := getRootPosition .planar g.root_pose
  let rpy := getPlanarOrientation g.root_pose
  let position := ![position 0 + time_interval * command.base_velocities 0, position 1 + time_interval * command.base_velocities 1, position 2]
  let rpy := ![rpy 0, rpy 1, rpy 2 + time_interval * command.base_velocities 2]
  let p ← setRootPosition .planar g.root_pose position
  let p ← setPlanarOrientation p rpy
  pure
    { root_pose := p
      joint_angles := fun i => g.joint_angles i + (command.joint_angles i - g.joint_angles i) * time_interval / command.time_interval }

namespace IkModel

/-- `correct(command, time_interval)`, model.h:569-609: the model afterwards and whether the function returned. -/
def correct : {root : Root} → (m : IkModel K root) → (command : RobotCommand K) → (time_interval : Dbl K) → IkModel K root × Res Unit
  | .planar, m, command, time_interval =>
    if .fin 0 < time_interval then
      match correctPlanar m.generalized_coordinates command time_interval with
      | .error e => (m, .error e)
      | .ok g => ({ m with generalized_coordinates := g, rbdl_model := g }, .ok ())
    else (m, .ok ())
  | .torso, m, _, time_interval => if .fin 0 < time_interval then (m, .error .thrown) else (m, .ok ())
  | .tibia, m, _, time_interval => if .fin 0 < time_interval then (m, .error .thrown) else (m, .ok ())

/-- `correct(generalized_coordinates, command, time_interval)`, model.h:624-637. -/
def correctFrom (m : IkModel K root) (g : Coords K root) (command : RobotCommand K) (time_interval : Dbl K) : IkModel K root × Res Unit :=
  if .fin 0 < time_interval then correct { m with generalized_coordinates := g } command time_interval
  else (m.updateState g, .ok ())

end IkModel

/-- `asVector`, generalized_coordinates.h:119-125. -/
def Coords.asVector (g : Coords K root) : Fin (root.dof + jointsDof) → Dbl K := Fin.append g.root_pose g.joint_angles

end

/-- The yaw angles, the positions and the radius of the wheels (front left, front right, back), model_description.h:193-204. -/
noncomputable def wheelYaw : Fin 3 → ℝ := ![107519348146676 / 10 ^ 14, -107519348146676 / 10 ^ 14, -Real.pi]

/-- See `wheelYaw`. -/
noncomputable def wheelPosition : Fin 3 → Fin 3 → ℝ := ![![9 / 100, 155 / 1000, 0], ![9 / 100, -155 / 1000, 0], ![-17 / 100, 0, 0]]

/-- See `wheelYaw`. -/
noncomputable def wheelRadius : ℝ := 7 / 100

/-- A row of the matrix computed by `getRootMotionToWheelsTransform`, model_description.h:207-229. -/
noncomputable def wheelRow (yaw : ℝ) (position : Fin 3 → ℝ) : Res (Fin 3 → ℝ) := do
  let R ← convertEulerAnglesToMatrix ![0, 0, yaw] .rpy
  let tangent := fun i => -R i 1
  let c := cross position ![0, 0, 1]
  pure ![tangent 0, tangent 1, -tangent 0 * c 0 + -tangent 1 * c 1 + -tangent 2 * c 2]

/-- `getRootMotionToWheelsTransform`, model_description.h:188-241. -/
noncomputable def getRootMotionToWheelsTransform : Res (Mat3 ℝ) := do
  let fl ← wheelRow (wheelYaw 0) (wheelPosition 0)
  let fr ← wheelRow (wheelYaw 1) (wheelPosition 1)
  let b ← wheelRow (wheelYaw 2) (wheelPosition 2)
  pure (Matrix.of ![fun i => fl i / wheelRadius, fun i => fr i / wheelRadius, fun i => b i / wheelRadius])

/-- `getRootOrientation` of the models with six degrees of freedom of the root, model_description.h:591-597, 788-794, for finite
numbers. `ea` is `eulerAngles` of Eigen. -/
noncomputable def getRootOrientation (ea : Mat3 ℝ → Fin 3 → Fin 3 → Fin 3 → (Fin 3 → ℝ)) (p : Fin 6 → ℝ) : Res (Fin 3 → ℝ) :=
  convertEulerAngles ea ![p 3, p 4, p 5] .ypr .rpy

/-- `setRootOrientation` of the models with six degrees of freedom of the root, model_description.h:562-569, 745-752, for finite
numbers. -/
noncomputable def setRootOrientation (ea : Mat3 ℝ → Fin 3 → Fin 3 → Fin 3 → (Fin 3 → ℝ)) (p : Fin 6 → ℝ) (rpy : Fin 3 → ℝ) :
    Res (Fin 6 → ℝ) := do
  let e ← convertEulerAngles ea rpy .rpy .ypr
  pure ![p 0, p 1, p 2, e 0, e 1, e 2]

/-- The assignments of columns in `reorderJointsColumns`, model_description.h:263-277. -/
def reorderedJoints : List Joint :=
  [.KneePitch, .HipPitch, .HipRoll, .HeadYaw, .HeadPitch, .LShoulderPitch, .LShoulderRoll, .LElbowYaw, .LElbowRoll, .LWristYaw,
   .RShoulderPitch, .RShoulderRoll, .RElbowYaw, .RElbowRoll, .RWristYaw]

/-- `reorderJointsColumns`, model_description.h:252-280. Accessing a column which does not exist is undefined. `unset` is the
content of the matrix after `unsetMatrix`. -/
def reorderJointsColumns {K : Type} (out inp : Root) (unset : ℕ → ℕ → K) (A : Mat K) : Res (Mat K) :=
  reorderedJoints.foldlM (fun (B : Mat K) j => do
    require (inp.dof + jointId inp j < A.cols)
    pure ⟨B.rows, B.cols, fun i k => if k = out.dof + jointId out j then A.e i (inp.dof + jointId inp j) else B.e i k⟩)
    ⟨A.rows, out.dof + jointsDof, unset⟩

end Ik

end Humoto
