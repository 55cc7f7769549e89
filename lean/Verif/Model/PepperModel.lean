import Verif.Model.Kronecker
import Verif.Model.PointMass
import Verif.Model.Trajectory
import Verif.Model.TripleIntegrator

/-!
# Pepper: parameters and the model with two point masses

modules/pepper_mpc/include/pepper_mpc/common.h, model_state.h, two_point_mass_model.h, model.h. Logging and reading of
configuration files are not modelled.
-/

namespace Humoto.Pepper

variable {K : Type}

/-! ## Parameters -/

/-- `RobotParameters`, common.h:24-94. The first column of a matrix of bounds contains lower bounds, the second one upper
bounds. -/
structure RobotParameters (K : Type) where
  base_radius : K
  max_nominal_base_velocity : K
  max_nominal_base_acceleration : K
  max_base_velocity : K
  max_base_acceleration : K
  body_bounds : Fin 2 → Fin 2 → K
  cop_bounds : Fin 2 → Fin 2 → K
  nominal_base_velocity_bounds : Fin 2 → Fin 2 → K
  nominal_base_acceleration_bounds : Fin 2 → Fin 2 → K
  base_velocity_bounds : Fin 2 → Fin 2 → K
  base_acceleration_bounds : Fin 2 → Fin 2 → K

/-- `getEncircledSquareSide`, core/include/humoto/utility.h:133-136. -/
noncomputable def getEncircledSquareSide (radius : ℝ) : ℝ := 2 / Real.sqrt 2 * radius

/-- The comma initialisation of a matrix of bounds, common.h:59-60. -/
def boundsOf [Neg K] (b : K) : Fin 2 → Fin 2 → K := ![![-b, b], ![-b, b]]

/-- `RobotParameters::finalize`, common.h:55-87. -/
noncomputable def RobotParameters.finalize (p : RobotParameters ℝ) : RobotParameters ℝ :=
  { p with
    cop_bounds := boundsOf (getEncircledSquareSide p.base_radius / 2)
    nominal_base_velocity_bounds := boundsOf (getEncircledSquareSide p.max_nominal_base_velocity / 2)
    base_velocity_bounds := boundsOf (getEncircledSquareSide p.max_base_velocity / 2)
    nominal_base_acceleration_bounds := boundsOf (getEncircledSquareSide p.max_nominal_base_acceleration / 2)
    base_acceleration_bounds := boundsOf (getEncircledSquareSide p.max_base_acceleration / 2) }

/-- `MotionMode::Mode`, common.h:161-170. -/
inductive MotionMode
  | undefined
  | maintainPosition
  | maintainVelocity
  deriving DecidableEq

/-- `MotionParameters`, common.h:176-200. -/
structure MotionParameters (K : Type) where
  base_velocity : Fin 2 → K
  base_position : Fin 2 → K
  base_angular_velocity : K
  duration_ms : ℤ
  motion_mode : MotionMode

/-- `MotionParameters::UNLIMITED_DURATION`, common.h:190. -/
def unlimitedDuration : ℤ := -1

/-- `convertMillisecondToSecond`, core/include/humoto/time.h:22-25. -/
def convertMillisecondToSecond [DivisionRing K] (ms : ℕ) : K := (ms : K) / 1000

/-- `MPCParameters`, common.h:279-325, with `finalize`, common.h:302-308, applied when the values are read: the sampling time
in seconds is a function of the one in milliseconds. -/
structure MPCParameters where
  preview_horizon_length : ℕ
  sampling_time_ms : ℕ
  subsampling_time_ms : ℕ

/-- `getSamplingTime`, common.h:360-363 and 302-308. -/
def MPCParameters.getSamplingTime [DivisionRing K] (p : MPCParameters) : K := convertMillisecondToSecond p.sampling_time_ms

/-! ## States -/

/-- `ModelState`, model_state.h:19-78. -/
structure ModelState (K : Type) where
  base_state : RigidBodyState K
  body_state : PointMassState K
  base_mass : K
  body_mass : K

/-- `PointMassState::setDefaults`, core/include/rigid_body/point_mass_state.h:49-54. -/
def defaultPointMass [Zero K] : PointMassState K := ⟨0, 0, 0⟩

/-- `RigidBodyState::setDefaults`, core/include/rigid_body/rigid_body_state.h:123-127, rotary_state.h:255-260. -/
def defaultRigidBody [Zero K] : RigidBodyState K := ⟨0, 0, 0, 0, 0, 0⟩

/-- `ModelState::setParameters`, model_state.h:41-61. -/
def ModelState.setParameters [Zero K] (base_height body_height body_x_offset base_mass body_mass : K) : ModelState K where
  base_state := { defaultRigidBody with position := ![0, 0, base_height], rpy := ![0, 0, 0] }
  body_state := { defaultPointMass with position := ![body_x_offset, 0, body_height] }
  base_mass := base_mass
  body_mass := body_mass

/-- Default arguments of `setParameters`: the masses, model_state.h:46-47. -/
def defaultBaseMass [DivisionRing K] : K := 1634234 / 100000
/-- See `defaultBaseMass`. -/
def defaultBodyMass [DivisionRing K] : K := 123389 / 10000

/-- Default constructor, model_state.h:41-47, 85-88. -/
def ModelState.default [DivisionRing K] : ModelState K :=
  ModelState.setParameters (125564931735602 / 10 ^ 15) (750001340031501 / 10 ^ 15) (-(656061094036387 / 10 ^ 17))
    defaultBaseMass defaultBodyMass

/-- The constructor with heights, model_state.h:98-103. Note the order of the arguments of `setParameters`. -/
def ModelState.ofHeights [DivisionRing K] (base_height body_height body_x_offset : K) : ModelState K :=
  ModelState.setParameters body_height base_height body_x_offset defaultBaseMass defaultBodyMass

/-- `set(base_mass, ...)`, model_state.h:146-160. -/
def ModelState.set [Zero K] (base_mass body_mass : K) (base_position body_position : Fin 3 → K) : ModelState K where
  base_state := { defaultRigidBody with position := base_position }
  body_state := { defaultPointMass with position := body_position }
  base_mass := base_mass
  body_mass := body_mass

/-- `update`, model_state.h:172-187. -/
def ModelState.update (s : ModelState K) (base_mass body_mass : K) (base_position body_position : Fin 3 → K)
    (base_orientation : K) : ModelState K where
  base_state := { s.base_state with
    position := base_position
    rpy := Function.update s.base_state.rpy 2 base_orientation }
  body_state := { s.body_state with position := body_position }
  base_mass := base_mass
  body_mass := body_mass

/-! ## Two point masses -/

/-- `g_gravitational_acceleration`, core/include/humoto_helpers.h. -/
def gravity [DivisionRing K] : K := 98 / 10

section

variable [Field K]

/-- `getAs3`, two_point_mass_model.h:54-57. -/
def getAs3 (T : K) : Res (Mat K) := TripleIntegrator.getAVel 1 T

/-- `getAd3`, two_point_mass_model.h:66-69. -/
def getAd3 (T : K) : Res (Mat K) := TripleIntegrator.getAJerk 1 T

/-- `getBs3`, two_point_mass_model.h:78-81. -/
def getBs3 (T : K) : Res (Mat K) := TripleIntegrator.getBVel 1 T

/-- `getBd3`, two_point_mass_model.h:90-93. -/
def getBd3 (T : K) : Res (Mat K) := TripleIntegrator.getBJerk 1 T

/-- `getDps3`, two_point_mass_model.h:104-112. -/
def getDps3 (base_height base_mass body_mass : K) : Mat K :=
  Mat.ofRows 3 [[1 / (base_mass + body_mass) * -body_mass, 1 / (base_mass + body_mass) * 0,
    1 / (base_mass + body_mass) * (-base_mass * (base_height / gravity))]]

/-- `getDpd3`, two_point_mass_model.h:123-131. -/
def getDpd3 (body_height base_mass body_mass : K) : Mat K :=
  Mat.ofRows 3 [[1 / (base_mass + body_mass) * body_mass, 1 / (base_mass + body_mass) * 0,
    1 / (base_mass + body_mass) * (-body_mass * (body_height / gravity))]]

/-- `getDjs3`, two_point_mass_model.h:142-145. -/
def getDjs3 (T : K) : Res (Mat K) := TripleIntegrator.getDVel 1 T

/-- `getEjs3`, two_point_mass_model.h:155-158; a number, kept as a matrix with one entry. -/
def getEjs3 (T : K) : Mat K := Mat.ofRows 1 [[(TripleIntegrator.getEVel 1 T).e 0 0]]

/-- `convertBaseStateRBtoMPC`, two_point_mass_model.h:173-184. -/
def convertBaseStateRBtoMPC (s : RigidBodyState K) : Vec K :=
  Vec.ofList [s.position 0, s.velocity 0, s.acceleration 0, s.position 1, s.velocity 1, s.acceleration 1]

/-- `convertBodyStateRBtoMPC`, two_point_mass_model.h:194-205. -/
def convertBodyStateRBtoMPC (s : PointMassState K) : Vec K :=
  Vec.ofList [s.position 0, s.velocity 0, s.acceleration 0, s.position 1, s.velocity 1, s.acceleration 1]

/-- `v << a, b`. -/
def append (a b : Vec K) : Vec K := ⟨a.n + b.n, fun i => if i < a.n then a.e i else b.e (i - a.n)⟩

/-- `convertStateRBtoMPC`, two_point_mass_model.h:216-223. -/
def convertStateRBtoMPC (base : RigidBodyState K) (body : PointMassState K) : Vec K :=
  append (convertBaseStateRBtoMPC base) (convertBodyStateRBtoMPC body)

/-- `convertBaseStateMPCtoRB`, two_point_mass_model.h:234-244. The vector has the fixed size 12. -/
def convertBaseStateMPCtoRB (c : Vec K) (base_height : K) : RigidBodyState K :=
  { defaultRigidBody with
    position := ![c.e 0, c.e 3, base_height]
    velocity := ![c.e 1, c.e 4, 0]
    acceleration := ![c.e 2, c.e 5, 0] }

/-- `convertBodyStateMPCtoRB`, two_point_mass_model.h:254-264. -/
def convertBodyStateMPCtoRB (c : Vec K) (body_height : K) : PointMassState K :=
  ⟨![c.e 6, c.e 9, body_height], ![c.e 7, c.e 10, 0], ![c.e 8, c.e 11, 0]⟩

variable [LinearOrder K]

/-- `getA12`, two_point_mass_model.h:305-326: `A12_bmi(i)` is the diagonal block `i`. -/
def getA12 (T Ts : K) : Res (Mat K) := do
  let A ← BlockMat.setZero ⟨3, 3, ⟨0, 0, fun _ _ => 0⟩⟩ 4 4
  let s ← (if Ts = T then TripleIntegrator.getAVel 1 T else TripleIntegrator.getAsVel 1 T Ts)
  let A ← A.setBlk 0 0 s
  let s ← A.blk 0 0
  let A ← A.setBlk 1 1 s
  let d ← TripleIntegrator.getAJerk 1 Ts
  let A ← A.setBlk 2 2 d
  let d ← A.blk 2 2
  let A ← A.setBlk 3 3 d
  pure A.m

/-- `getB12`, two_point_mass_model.h:337-358. -/
def getB12 (T Ts : K) : Res (Mat K) := do
  let B ← BlockMat.setZero ⟨3, 1, ⟨0, 0, fun _ _ => 0⟩⟩ 4 4
  let s ← (if Ts = T then TripleIntegrator.getBVel 1 T else TripleIntegrator.getBsVel 1 T Ts)
  let B ← B.setBlk 0 0 s
  let s ← B.blk 0 0
  let B ← B.setBlk 1 1 s
  let d ← TripleIntegrator.getBJerk 1 Ts
  let B ← B.setBlk 2 2 d
  let d ← B.blk 2 2
  let B ← B.setBlk 3 3 d
  pure B.m

/-- `evaluate`, two_point_mass_model.h:278-292. -/
def evaluate (T Ts : K) (preceding base_control body_control : Vec K) : Res (Vec K) := do
  let A ← getA12 T Ts
  let B ← getB12 T Ts
  affine A preceding B (append base_control body_control)

/-- `getDj6`, two_point_mass_model.h:369-379. -/
def getDj6 (T : K) : Res (Mat K) := do
  let D ← BlockMat.setZero ⟨1, 3, ⟨0, 0, fun _ _ => 0⟩⟩ 2 2
  let d ← TripleIntegrator.getDVel 1 T
  let D ← D.setBlk 0 0 d
  let d ← D.blk 0 0
  let D ← D.setBlk 1 1 d
  pure D.m

/-- `getEjs6`, two_point_mass_model.h:388-397. -/
def getEjs6 (T : K) : Mat K :=
  Mat.ofRows 2 [[(TripleIntegrator.getEVel 1 T).e 0 0, 0], [0, (TripleIntegrator.getEVel 1 T).e 0 0]]

end

/-! ## Model -/

/-- `Model`, model.h:22-46. -/
structure Model (K : Type) where
  state : ModelState K
  robot_parameters : RobotParameters K
  current_base_position : Fin 2 → K

namespace Model

/-- `finalize`, model.h:27-30. -/
def finalize (m : Model K) : Model K :=
  { m with current_base_position := ![m.state.base_state.position 0, m.state.base_state.position 1] }

/-- `setParameters`, model.h:66-70. -/
def setParameters (m : Model K) (p : RobotParameters K) : Model K := finalize { m with robot_parameters := p }

/-- `updateState`, model.h:356-361. -/
def updateState (m : Model K) (s : ModelState K) : Model K := finalize { m with state := s }

variable [Field K]

/-- `getMPCState`, model.h:99-105. -/
def getMPCState (m : Model K) : Vec K := convertStateRBtoMPC m.state.base_state m.state.body_state

/-- `getMPCBaseState(model_state)`, model.h:138-144. -/
def getMPCBaseState (s : ModelState K) : Vec K := convertBaseStateRBtoMPC s.base_state

/-- `getMPCBodyState(model_state)`, model.h:154-160. -/
def getMPCBodyState (s : ModelState K) : Vec K := convertBodyStateRBtoMPC s.body_state

/-- `GenericBlockKroneckerProduct<1,3>(D, 2) * x`, model.h:193-195; uninitialised memory is irrelevant: `junk`. -/
def kron2 (junk : ℕ → K) (D : Mat K) (x : Vec K) : Res (Vec K) := do
  let X ← Kron.construct D 2 1 3
  X.multiplyRightVec junk junk x

/-- `getCoP(model_state)`, model.h:181-198. -/
def getCoP (junk : ℕ → K) (s : ModelState K) : Res (Vec K) := do
  let a ← kron2 junk (getDps3 (s.base_state.position 2) s.base_mass s.body_mass) (getMPCBaseState s)
  let b ← kron2 junk (getDpd3 (s.body_state.position 2) s.base_mass s.body_mass) (getMPCBodyState s)
  a.add b

/-- `getTheta`, `getBaseOrientation`, model.h:276-292, 345-348. -/
def getTheta (s : ModelState K) : K := s.base_state.rpy 2

variable [LinearOrder K]

/-- `getNextState(model_state, ..., preceding_mpcstate, ...)`, model.h:249-267. `model_state` is an output, but only the states
of the base and of the body are assigned. -/
def getNextStateFrom (model_state : ModelState K) (T Ts : K) (preceding base_control body_control : Vec K)
    (base_height body_height theta : K) : Res (ModelState K) := do
  let c ← evaluate T Ts preceding base_control body_control
  let base := convertBaseStateMPCtoRB c base_height
  pure { model_state with
    base_state := { base with rpy := Function.update base.rpy 2 theta }
    body_state := convertBodyStateMPCtoRB c body_height }

/-- `getNextState(model_state, ...)`, model.h:214-233. -/
def getNextState (m : Model K) (model_state : ModelState K) (T Ts : K) (base_control body_control : Vec K)
    (base_height body_height theta : K) : Res (ModelState K) :=
  getNextStateFrom model_state T Ts m.getMPCState base_control body_control base_height body_height theta

end Model

end Humoto.Pepper
