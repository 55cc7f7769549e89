import Verif.Model.Config
import Verif.Model.FootParameters
import Verif.Model.PepperModel
import Verif.Model.Solution
import Verif.Model.Solver
import Verif.Model.Kkt
import Verif.Model.Stance

/-!
# Configurable classes of the library and of the modules

Every class derived from `ConfigurableBase` is described by its entries, by `setDefaults`, and by `finalize`; reading and writing
are those of Model/Config. Members which are not entries of the configuration (derived quantities, members which were not listed)
are part of the objects.

Simplifications: numbers are finite rationals (quantities which are "unset", i.e., not a number, are represented by a parameter
`nan`); negative numbers in files are not considered for unsigned members; the contents of an object after an exception are not
represented.
-/

namespace Humoto.Config

/-- A configurable class: `getConfigSectionID` (define_accessors.h:86-91), the entries (define_accessors.h:17-82), `setDefaults` and
`finalize` (config.h:83-103). `setMembers` is `setDefaults` of all members which are configurable classes, which is called when they
are read (config.h:138), `assign` stores the entries which were read. -/
structure ConfClass (α : Type) where
  sectionId : String
  entries : α → Entries
  setDefaults : α → α
  setMembers : α → α := id
  assign : α → Entries → Res α
  finalize : α → Res α := .ok

/-- The outcome of a step which does not use the reader. -/
def RM.lift {α : Type} (r : Res α) : RM α := fun st => (r, st)

namespace ConfClass

variable {α : Type}

/-- `readConfig`, `readNestedConfig` (config.h:131-156, 166-188); `finalize` is called when all entries are read, before the reader
leaves the section (define_accessors.h:63-69). -/
def read (c : ConfClass α) (f : Format) (file : Fields) (strict : Bool) (o : α) (name : String) : RM α := do
  let found ← descend f file name
  if found then do
    let e ← readEntries f file strict (c.entries (c.setMembers (c.setDefaults o)))
    let x ← RM.lift (c.assign (c.setDefaults o) e)
    let y ← RM.lift (c.finalize x)
    ascend
    pure y
  else missing strict (c.setDefaults o)

end ConfClass

/-! ## Members -/

/-- A vector of fixed size. -/
def vecVal {n : ℕ} (v : Fin n → ℚ) : Val := .vec true (List.ofFn v)

/-- A number of type `double`. -/
def realVal (x : ℚ) : Val := .scalar (.real x)

/-- A number of type `std::size_t`. -/
def natVal (n : ℕ) : Val := .scalar (.int n)

/-- A flag. -/
def boolVal (b : Bool) : Val := .scalar (.bool b)

/-- A value of another type cannot be read into a member, see `readVal`. -/
def wrongType {α : Type} : Res α := .error .ub

/-- A member of type `double`. -/
def Val.toReal : Val → Res ℚ
  | .scalar (.real x) => .ok x
  | _ => wrongType

/-- A member of type `std::size_t`. -/
def Val.toNat : Val → Res ℕ
  | .scalar (.int i) => .ok i.toNat
  | _ => wrongType

/-- A member of type `int` or `std::ptrdiff_t`. -/
def Val.toInt : Val → Res ℤ
  | .scalar (.int i) => .ok i
  | _ => wrongType

/-- A member of type `bool`. -/
def Val.toBool : Val → Res Bool
  | .scalar (.bool b) => .ok b
  | _ => wrongType

/-- A member which is a vector of fixed size. -/
def Val.toVec (n : ℕ) : Val → Res (Fin n → ℚ)
  | .vec _ l => if h : l.length = n then .ok fun i => l[i.val]'(by omega) else wrongType
  | _ => wrongType

/-- A member of an enumeration type. -/
def Val.toEnum : Val → Res ℤ
  | .enum i => .ok i
  | _ => wrongType

/-- `StanceType::Type`, stance_finite_state_machine.h:20-42. -/
def stanceCode : StanceType → ℤ
  | .undefined => 0
  | .ds => 1
  | .lss => 2
  | .rss => 3
  | .tds => 4

/-- `static_cast<StanceType::Type>`; other values are not values of the enumeration. -/
def stanceOf (i : ℤ) : Res StanceType :=
  if i = 0 then .ok .undefined else if i = 1 then .ok .ds else if i = 2 then .ok .lss else if i = 3 then .ok .rss
  else if i = 4 then .ok .tds else .error .ub

/-! ## States of rigid bodies -/

/-- Entries of `PointMassState` (point_mass_state.h:23-26). -/
def pointMassEntries (s : PointMassState ℚ) : Entries :=
  .leaf "position" (vecVal s.position) (.leaf "velocity" (vecVal s.velocity) (.leaf "acceleration" (vecVal s.acceleration) .nil))

/-- The members of `PointMassState` which are read. -/
def pointMassOf : Entries → Res (PointMassState ℚ)
  | .leaf _ p (.leaf _ v (.leaf _ a .nil)) => do
    let p ← p.toVec 3
    let v ← v.toVec 3
    let a ← a.toVec 3
    pure ⟨p, v, a⟩
  | _ => wrongType

/-- `PointMassState` (point_mass_state.h:19-54). -/
def pointMassClass : ConfClass (PointMassState ℚ) where
  sectionId := "PointMassState"
  entries := pointMassEntries
  setDefaults := fun _ => Pepper.defaultPointMass
  assign := fun _ e => pointMassOf e

/-- Entries of `RigidBodyState`, those of `PointMassState` and `RotaryState` (rigid_body_state.h:104-106, rotary_state.h:229-232). -/
def rigidBodyEntries (s : RigidBodyState ℚ) : Entries :=
  .parent (pointMassEntries ⟨s.position, s.velocity, s.acceleration⟩)
    (.parent (.leaf "rpy" (vecVal s.rpy) (.leaf "angular_velocity" (vecVal s.angularVelocity)
      (.leaf "angular_acceleration" (vecVal s.angularAcceleration) .nil))) .nil)

/-- The members of `RigidBodyState` which are read. -/
def rigidBodyOf : Entries → Res (RigidBodyState ℚ)
  | .parent m (.parent (.leaf _ r (.leaf _ w (.leaf _ a .nil))) .nil) => do
    let m ← pointMassOf m
    let r ← r.toVec 3
    let w ← w.toVec 3
    let a ← a.toVec 3
    pure ⟨m.position, m.velocity, m.acceleration, r, w, a⟩
  | _ => wrongType

/-- `RigidBodyState` (rigid_body_state.h:99-127). -/
def rigidBodyClass : ConfClass (RigidBodyState ℚ) where
  sectionId := "RigidBodyState"
  entries := rigidBodyEntries
  setDefaults := fun _ => Pepper.defaultRigidBody
  assign := fun _ e => rigidBodyOf e

/-! ## Walking -/

/-- Entries of `StanceFSMParameters` (stance_finite_state_machine.h:96-104). -/
def fsmEntries (p : FSMParams) : Entries :=
  .leaf "ss_duration_ms" (natVal p.ssMs) (.leaf "tds_duration_ms" (natVal p.tdsMs)
    (.leaf "first_stance_duration_ms" (natVal p.firstMs) (.leaf "last_stance_duration_ms" (natVal p.lastMs)
      (.leaf "num_steps" (natVal p.numSteps) (.leaf "first_stance" (.enum (stanceCode p.firstStance))
        (.leaf "first_ss_type" (.enum (stanceCode p.firstSsType)) (.leaf "last_stance" (.enum (stanceCode p.lastStance)) .nil)))))))

/-- The members of `StanceFSMParameters` which are read. -/
def fsmOf : Entries → Res FSMParams
  | .leaf _ ss (.leaf _ tds (.leaf _ fi (.leaf _ la (.leaf _ n (.leaf _ s1 (.leaf _ s2 (.leaf _ s3 .nil))))))) => do
    let ss ← ss.toNat
    let tds ← tds.toNat
    let fi ← fi.toNat
    let la ← la.toNat
    let n ← n.toNat
    let s1 ← s1.toEnum
    let s1 ← stanceOf s1
    let s2 ← s2.toEnum
    let s2 ← stanceOf s2
    let s3 ← s3.toEnum
    let s3 ← stanceOf s3
    pure ⟨s1, s2, s3, ss, tds, fi, la, n⟩
  | _ => wrongType

/-- `StanceFSMParameters` (stance_finite_state_machine.h:92-171). -/
def fsmClass : ConfClass FSMParams where
  sectionId := "StanceFSMParameters"
  entries := fsmEntries
  setDefaults := fun _ => FSMParams.default
  assign := fun _ e => fsmOf e

/-- `wpg04::WalkParameters` (wpg04/common.h:24-46). -/
structure WalkConf where
  stances : FSMParams
  com_velocity : Fin 2 → ℚ
  first_stance_com_velocity : Fin 2 → ℚ
  last_stance_com_velocity : Fin 2 → ℚ
  step_height : ℚ
  theta_increment : ℚ

/-- Entries of `WalkParameters`, those of the parent are the last ones (wpg04/common.h:28-36). -/
def walkEntries (p : WalkConf) : Entries :=
  .leaf "com_velocity" (vecVal p.com_velocity) (.leaf "first_stance_com_velocity" (vecVal p.first_stance_com_velocity)
    (.leaf "last_stance_com_velocity" (vecVal p.last_stance_com_velocity) (.leaf "step_height" (realVal p.step_height)
      (.leaf "theta_increment" (realVal p.theta_increment) (.parent (fsmEntries p.stances) .nil)))))

/-- The members of `WalkParameters` which are read. -/
def walkOf : Entries → Res WalkConf
  | .leaf _ v1 (.leaf _ v2 (.leaf _ v3 (.leaf _ h (.leaf _ t (.parent s .nil))))) => do
    let v1 ← v1.toVec 2
    let v2 ← v2.toVec 2
    let v3 ← v3.toVec 2
    let h ← h.toReal
    let t ← t.toReal
    let s ← fsmOf s
    pure ⟨s, v1, v2, v3, h, t⟩
  | _ => wrongType

/-- `WalkParameters::setDefaults` (wpg04/common.h:63-72). -/
def WalkConf.default : WalkConf := ⟨FSMParams.default, ![1 / 5, 0], ![1 / 5, 0], ![0, 0], 7 / 100, 0⟩

/-- `WalkParameters` (wpg04/common.h:24-73). -/
def walkClass : ConfClass WalkConf where
  sectionId := "WalkParameters"
  entries := walkEntries
  setDefaults := fun _ => WalkConf.default
  assign := fun _ e => walkOf e

/-- `RobotFootParameters` (robot_foot_parameters.h:145-170): the parameters and the quantities which are derived from them. -/
structure FootConf where
  params : FootParameters ℚ
  left : FootData ℚ
  right : FootData ℚ
  ss_cop_bounds : Matrix (Fin 2) (Fin 2) ℚ
  ads_cop_bounds : Matrix (Fin 2) (Fin 2) ℚ

/-- `RobotFootParameters::finalize` (robot_foot_parameters.h:176-223). -/
def FootConf.ofParams (p : FootParameters ℚ) : FootConf := ⟨p, p.leftFoot, p.rightFoot, p.getSSCoPBounds, p.getADSCoPBounds⟩

/-- Entries of `RobotFootParameters` (robot_foot_parameters.h:46-52). -/
def footEntries (p : FootConf) : Entries :=
  .leaf "max_step_len" (realVal p.params.maxStepLen) (.leaf "min_feet_dist" (realVal p.params.minFeetDist)
    (.leaf "max_feet_dist" (realVal p.params.maxFeetDist) (.leaf "feet_dist_default" (realVal p.params.feetDistDefault)
      (.leaf "foot_length" (realVal p.params.footLength) (.leaf "foot_width" (realVal p.params.footWidth) .nil)))))

/-- The members of `RobotFootParameters` which are read. -/
def footOf (o : FootConf) : Entries → Res FootConf
  | .leaf _ a (.leaf _ b (.leaf _ c (.leaf _ d (.leaf _ l (.leaf _ w .nil))))) => do
    let a ← a.toReal
    let b ← b.toReal
    let c ← c.toReal
    let d ← d.toReal
    let l ← l.toReal
    let w ← w.toReal
    pure { o with params := ⟨a, b, c, d, l, w⟩ }
  | _ => wrongType

/-- Default parameters (robot_foot_parameters.h:238-247). -/
def defaultFeet : FootParameters ℚ := ⟨1 / 5, 19 / 100, 3 / 10, 19 / 100, 1372 / 10000, 58 / 1000⟩

/-- `RobotFootParameters` (robot_foot_parameters.h:42-248). -/
def footClass : ConfClass FootConf where
  sectionId := "RobotFootParameters"
  entries := footEntries
  setDefaults := fun _ => FootConf.ofParams defaultFeet
  assign := footOf
  finalize := fun o => .ok (FootConf.ofParams o.params)

/-- `wpg04::MPCParameters` (wpg04/common.h:92-155). -/
structure WpgMpcConf where
  preview_horizon_length : ℕ
  sampling_time_ms : ℕ
  subsampling_time_ms : ℕ
  tds_sampling_time_ms : ℕ
  subsamples_num : ℕ
  tds_subsamples_num : ℕ
  sampling_time : ℚ
  subsampling_time : ℚ
  tds_sampling_time : ℚ

/-- `MPCParameters::finalize` (wpg04/common.h:114-139). -/
def WpgMpcConf.finalize (p : WpgMpcConf) : Res WpgMpcConf := do
  require (p.subsampling_time_ms ≠ 0)
  assertThat (p.sampling_time_ms % p.subsampling_time_ms = 0)
  assertThat (p.tds_sampling_time_ms % p.subsampling_time_ms = 0)
  pure
    { p with
      subsamples_num := p.sampling_time_ms / p.subsampling_time_ms
      tds_subsamples_num := p.tds_sampling_time_ms / p.subsampling_time_ms
      sampling_time := Pepper.convertMillisecondToSecond p.sampling_time_ms
      subsampling_time := Pepper.convertMillisecondToSecond p.subsampling_time_ms
      tds_sampling_time := Pepper.convertMillisecondToSecond p.tds_sampling_time_ms }

/-- Entries of `MPCParameters` (wpg04/common.h:84-88). -/
def wpgMpcEntries (p : WpgMpcConf) : Entries :=
  .leaf "preview_horizon_length" (natVal p.preview_horizon_length) (.leaf "sampling_time_ms" (natVal p.sampling_time_ms)
    (.leaf "subsampling_time_ms" (natVal p.subsampling_time_ms)
      (.leaf "tds_sampling_time_ms" (natVal p.tds_sampling_time_ms) .nil)))

/-- The members of `MPCParameters` which are read. -/
def wpgMpcOf (o : WpgMpcConf) : Entries → Res WpgMpcConf
  | .leaf _ n (.leaf _ s (.leaf _ u (.leaf _ t .nil))) => do
    let n ← n.toNat
    let s ← s.toNat
    let u ← u.toNat
    let t ← t.toNat
    pure { o with preview_horizon_length := n, sampling_time_ms := s, subsampling_time_ms := u, tds_sampling_time_ms := t }
  | _ => wrongType

/-- `MPCParameters::setDefaults` (wpg04/common.h:161-170). -/
def WpgMpcConf.default : WpgMpcConf := ⟨16, 100, 100, 100, 1, 1, 1 / 10, 1 / 10, 1 / 10⟩

/-- `MPCParameters` (wpg04/common.h:80-203). -/
def wpgMpcClass : ConfClass WpgMpcConf where
  sectionId := "MPCParameters"
  entries := wpgMpcEntries
  setDefaults := fun _ => WpgMpcConf.default
  assign := wpgMpcOf
  finalize := WpgMpcConf.finalize

/-- `wpg04::ModelState` (wpg04/model_state.h:82-93). -/
structure WpgStateConf where
  com_state : PointMassState ℚ
  left : RigidBodyState ℚ
  right : RigidBodyState ℚ
  stance_type : StanceType
  next_stance_type : StanceType

/-- Entries of `ModelState` (wpg04/model_state.h:20-25). -/
def wpgStateEntries (s : WpgStateConf) : Entries :=
  .leaf "stance_type" (.enum (stanceCode s.stance_type)) (.leaf "next_stance_type" (.enum (stanceCode s.next_stance_type))
    (.member "com_state" (pointMassEntries s.com_state) (.member "left_foot_state" (rigidBodyEntries s.left)
      (.member "right_foot_state" (rigidBodyEntries s.right) .nil))))

/-- The members of `ModelState` which are read. -/
def wpgStateOf : Entries → Res WpgStateConf
  | .leaf _ s (.leaf _ n (.member _ c (.member _ l (.member _ r .nil)))) => do
    let s ← s.toEnum
    let s ← stanceOf s
    let n ← n.toEnum
    let n ← stanceOf n
    let c ← pointMassOf c
    let l ← rigidBodyOf l
    let r ← rigidBodyOf r
    pure ⟨c, l, r, s, n⟩
  | _ => wrongType

/-- The state of a foot in `setDefaults` (wpg04/model_state.h:38-56); `y` is half of the default distance. -/
def defaultFoot (nan y : ℚ) : RigidBodyState ℚ := ⟨![0, y, 0], 0, 0, ![0, 0, 0], fun _ => nan, fun _ => nan⟩

/-- `ModelState::setDefaults` (wpg04/model_state.h:60-79, 123-127). -/
def WpgStateConf.default (nan : ℚ) : WpgStateConf :=
  ⟨⟨![0, 0, 814 / 1000], 0, 0⟩, defaultFoot nan (19 / 200), defaultFoot nan (-(19 / 200)), .ds, .undefined⟩

/-- `ModelState` (wpg04/model_state.h:16-127). -/
def wpgStateClass (nan : ℚ) : ConfClass WpgStateConf where
  sectionId := "ModelState"
  entries := wpgStateEntries
  setDefaults := fun _ => WpgStateConf.default nan
  setMembers := fun s =>
    { s with
      com_state := Pepper.defaultPointMass
      left := Pepper.defaultRigidBody
      right := Pepper.defaultRigidBody }
  assign := fun _ e => wpgStateOf e

/-! ## Planning of motions of Pepper -/

/-- `pepper_mpc::RobotParameters` (pepper_mpc/common.h:38-105); the last five members are derived quantities. -/
structure PepperRobotConf where
  base_radius : ℚ
  max_nominal_base_velocity : ℚ
  max_nominal_base_acceleration : ℚ
  max_base_velocity : ℚ
  max_base_acceleration : ℚ
  body_bounds : Fin 2 → Fin 2 → ℚ
  cop_bounds : Fin 2 → Fin 2 → ℝ
  nominal_base_velocity_bounds : Fin 2 → Fin 2 → ℝ
  nominal_base_acceleration_bounds : Fin 2 → Fin 2 → ℝ
  base_velocity_bounds : Fin 2 → Fin 2 → ℝ
  base_acceleration_bounds : Fin 2 → Fin 2 → ℝ

/-- `RobotParameters::finalize` (pepper_mpc/common.h:55-87). -/
noncomputable def PepperRobotConf.derive (p : PepperRobotConf) : PepperRobotConf :=
  { p with
    cop_bounds := Pepper.boundsOf (Pepper.getEncircledSquareSide p.base_radius / 2)
    nominal_base_velocity_bounds := Pepper.boundsOf (Pepper.getEncircledSquareSide p.max_nominal_base_velocity / 2)
    base_velocity_bounds := Pepper.boundsOf (Pepper.getEncircledSquareSide p.max_base_velocity / 2)
    nominal_base_acceleration_bounds := Pepper.boundsOf (Pepper.getEncircledSquareSide p.max_nominal_base_acceleration / 2)
    base_acceleration_bounds := Pepper.boundsOf (Pepper.getEncircledSquareSide p.max_base_acceleration / 2) }

/-- The storage of a 2x2 matrix, column by column. -/
def mat2Val (m : Fin 2 → Fin 2 → ℚ) : Val := .mat 2 2 [m 0 0, m 1 0, m 0 1, m 1 1]

/-- A member which is a 2x2 matrix; `entry = map` with other sizes is not allowed (config_yaml/reader.h:219). -/
def Val.toMat2 : Val → Res (Fin 2 → Fin 2 → ℚ)
  | .mat 2 2 [a, b, c, d] => .ok ![![a, c], ![b, d]]
  | _ => wrongType

/-- Entries of `RobotParameters` (pepper_mpc/common.h:28-34). -/
def pepperRobotEntries (p : PepperRobotConf) : Entries :=
  .leaf "base_radius" (realVal p.base_radius) (.leaf "max_nominal_base_velocity" (realVal p.max_nominal_base_velocity)
    (.leaf "max_nominal_base_acceleration" (realVal p.max_nominal_base_acceleration)
      (.leaf "max_base_velocity" (realVal p.max_base_velocity)
        (.leaf "max_base_acceleration" (realVal p.max_base_acceleration) (.leaf "body_bounds" (mat2Val p.body_bounds) .nil)))))

/-- The members of `RobotParameters` which are read. -/
def pepperRobotOf (o : PepperRobotConf) : Entries → Res PepperRobotConf
  | .leaf _ r (.leaf _ nv (.leaf _ na (.leaf _ v (.leaf _ a (.leaf _ b .nil))))) => do
    let r ← r.toReal
    let nv ← nv.toReal
    let na ← na.toReal
    let v ← v.toReal
    let a ← a.toReal
    let b ← b.toMat2
    pure
      { o with
        base_radius := r
        max_nominal_base_velocity := nv
        max_nominal_base_acceleration := na
        max_base_velocity := v
        max_base_acceleration := a
        body_bounds := b }
  | _ => wrongType

/-- `RobotParameters::setDefaults` (pepper_mpc/common.h:107-118). -/
noncomputable def PepperRobotConf.setDefaults (o : PepperRobotConf) : PepperRobotConf :=
  PepperRobotConf.derive
    { o with
      base_radius := 7 / 10
      max_nominal_base_velocity := 1 / 2
      max_nominal_base_acceleration := 1
      max_base_velocity := 14 / 10
      max_base_acceleration := 17 / 10
      body_bounds := ![![-(6 / 100), 6 / 100], ![-(3 / 100), 3 / 100]] }

/-- `RobotParameters` (pepper_mpc/common.h:24-130). -/
noncomputable def pepperRobotClass : ConfClass PepperRobotConf where
  sectionId := "RobotParameters"
  entries := pepperRobotEntries
  setDefaults := PepperRobotConf.setDefaults
  assign := pepperRobotOf
  finalize := fun p => .ok p.derive

/-- `MotionMode::Mode` (pepper_mpc/common.h:161-170). -/
def modeCode : Pepper.MotionMode → ℤ
  | .undefined => 0
  | .maintainPosition => 1
  | .maintainVelocity => 2

/-- `static_cast<MotionMode::Mode>`; other values are not values of the enumeration. -/
def modeOf (i : ℤ) : Res Pepper.MotionMode :=
  if i = 0 then .ok .undefined else if i = 1 then .ok .maintainPosition else if i = 2 then .ok .maintainVelocity else .error .ub

/-- Entries of `pepper_mpc::MotionParameters` (pepper_mpc/common.h:180-185). -/
def pepperMotionEntries (p : Pepper.MotionParameters ℚ) : Entries :=
  .leaf "base_velocity" (vecVal p.base_velocity) (.leaf "base_position" (vecVal p.base_position)
    (.leaf "base_angular_velocity" (realVal p.base_angular_velocity) (.leaf "motion_mode" (.enum (modeCode p.motion_mode))
      (.leaf "duration_ms" (.scalar (.int p.duration_ms)) .nil))))

/-- The members of `MotionParameters` which are read. -/
def pepperMotionOf : Entries → Res (Pepper.MotionParameters ℚ)
  | .leaf _ v (.leaf _ p (.leaf _ w (.leaf _ m (.leaf _ d .nil)))) => do
    let v ← v.toVec 2
    let p ← p.toVec 2
    let w ← w.toReal
    let m ← m.toEnum
    let m ← modeOf m
    let d ← d.toInt
    pure ⟨v, p, w, d, m⟩
  | _ => wrongType

/-- `MotionParameters` (pepper_mpc/common.h:176-240), `setIdle` (pepper_mpc/common.h:214-239). -/
def pepperMotionClass : ConfClass (Pepper.MotionParameters ℚ) where
  sectionId := "MotionParameters"
  entries := pepperMotionEntries
  setDefaults := fun _ => ⟨0, 0, 0, Pepper.unlimitedDuration, .maintainVelocity⟩
  assign := fun _ e => pepperMotionOf e

/-- `pepper_mpc::MPCParameters` (pepper_mpc/common.h:290-322). -/
structure PepperMpcConf where
  preview_horizon_length : ℕ
  sampling_time_ms : ℕ
  subsampling_time_ms : ℕ
  sampling_time : ℚ
  subsampling_time : ℚ

/-- `MPCParameters::finalize` (pepper_mpc/common.h:302-308). -/
def PepperMpcConf.derive (p : PepperMpcConf) : PepperMpcConf :=
  { p with
    sampling_time := Pepper.convertMillisecondToSecond p.sampling_time_ms
    subsampling_time := Pepper.convertMillisecondToSecond p.subsampling_time_ms }

/-- Entries of `MPCParameters` (pepper_mpc/common.h:283-286). -/
def pepperMpcEntries (p : PepperMpcConf) : Entries :=
  .leaf "preview_horizon_length" (natVal p.preview_horizon_length) (.leaf "sampling_time_ms" (natVal p.sampling_time_ms)
    (.leaf "subsampling_time_ms" (natVal p.subsampling_time_ms) .nil))

/-- The members of `MPCParameters` which are read. -/
def pepperMpcOf (o : PepperMpcConf) : Entries → Res PepperMpcConf
  | .leaf _ n (.leaf _ s (.leaf _ u .nil)) => do
    let n ← n.toNat
    let s ← s.toNat
    let u ← u.toNat
    pure { o with preview_horizon_length := n, sampling_time_ms := s, subsampling_time_ms := u }
  | _ => wrongType

/-- `MPCParameters` (pepper_mpc/common.h:279-374), `setDefaults` (pepper_mpc/common.h:326-333). -/
def pepperMpcClass : ConfClass PepperMpcConf where
  sectionId := "MPCParameters"
  entries := pepperMpcEntries
  setDefaults := fun _ => ⟨15, 100, 100, 1 / 10, 1 / 10⟩
  assign := pepperMpcOf
  finalize := fun p => .ok p.derive

/-- Entries of `pepper_mpc::ModelState` (pepper_mpc/model_state.h:23-27). -/
def pepperStateEntries (s : Pepper.ModelState ℚ) : Entries :=
  .member "base_state" (rigidBodyEntries s.base_state) (.member "body_state" (pointMassEntries s.body_state)
    (.leaf "base_mass" (realVal s.base_mass) (.leaf "body_mass" (realVal s.body_mass) .nil)))

/-- The members of `ModelState` which are read. -/
def pepperStateOf : Entries → Res (Pepper.ModelState ℚ)
  | .member _ b (.member _ c (.leaf _ m (.leaf _ k .nil))) => do
    let b ← rigidBodyOf b
    let c ← pointMassOf c
    let m ← m.toReal
    let k ← k.toReal
    pure ⟨b, c, m, k⟩
  | _ => wrongType

/-- `ModelState` (pepper_mpc/model_state.h:19-88). -/
def pepperStateClass : ConfClass (Pepper.ModelState ℚ) where
  sectionId := "ModelState"
  entries := pepperStateEntries
  setDefaults := fun _ => Pepper.ModelState.default
  setMembers := fun s => { s with base_state := Pepper.defaultRigidBody, body_state := Pepper.defaultPointMass }
  assign := fun _ e => pepperStateOf e

/-! ## Inverse kinematics of Pepper -/

/-- `pepper_ik::WBCParameters` (pepper_ik/common.h:55-62). -/
structure WbcConf where
  control_interval_ms : ℕ
  joint_angle_error_tolerance : ℚ
  motion_parameters_tolerance : ℚ
  maximal_number_of_iterations : ℕ
  control_interval : ℚ

/-- Entries of `WBCParameters` (pepper_ik/common.h:29-33). -/
def wbcEntries (p : WbcConf) : Entries :=
  .leaf "control_interval_ms" (natVal p.control_interval_ms)
    (.leaf "joint_angle_error_tolerance" (realVal p.joint_angle_error_tolerance)
      (.leaf "motion_parameters_tolerance" (realVal p.motion_parameters_tolerance)
        (.leaf "maximal_number_of_iterations" (natVal p.maximal_number_of_iterations) .nil)))

/-- The members of `WBCParameters` which are read. -/
def wbcOf (o : WbcConf) : Entries → Res WbcConf
  | .leaf _ c (.leaf _ j (.leaf _ m (.leaf _ n .nil))) => do
    let c ← c.toNat
    let j ← j.toReal
    let m ← m.toReal
    let n ← n.toNat
    pure
      { o with
        control_interval_ms := c
        joint_angle_error_tolerance := j
        motion_parameters_tolerance := m
        maximal_number_of_iterations := n }
  | _ => wrongType

/-- `WBCParameters::setDefaults` (pepper_ik/common.h:41-47). -/
def WbcConf.setDefaults (o : WbcConf) : WbcConf :=
  { o with
    control_interval_ms := 10
    joint_angle_error_tolerance := 1 / 100
    motion_parameters_tolerance := 1 / 1000
    maximal_number_of_iterations := 3 }

/-- `WBCParameters::finalize` (pepper_ik/common.h:49-52). -/
def WbcConf.derive (o : WbcConf) : WbcConf :=
  { o with control_interval := Pepper.convertMillisecondToSecond o.control_interval_ms }

/-- `WBCParameters` (pepper_ik/common.h:25-71). -/
def wbcClass : ConfClass WbcConf where
  sectionId := "WBCParameters"
  entries := wbcEntries
  setDefaults := WbcConf.setDefaults
  assign := wbcOf
  finalize := fun p => .ok p.derive

/-- `pepper_ik::MotionParameters` (pepper_ik/common.h:89-93). -/
structure IkMotionConf where
  base_com_position : Fin 3 → ℚ
  body_com_position : Fin 3 → ℚ
  base_orientation_rpy : Fin 3 → ℚ

/-- Entries of `MotionParameters` (pepper_ik/common.h:82-85). -/
def ikMotionEntries (p : IkMotionConf) : Entries :=
  .leaf "base_orientation_rpy" (vecVal p.base_orientation_rpy) (.leaf "base_com_position" (vecVal p.base_com_position)
    (.leaf "body_com_position" (vecVal p.body_com_position) .nil))

/-- The members of `MotionParameters` which are read. -/
def ikMotionOf : Entries → Res IkMotionConf
  | .leaf _ r (.leaf _ b (.leaf _ c .nil)) => do
    let r ← r.toVec 3
    let b ← b.toVec 3
    let c ← c.toVec 3
    pure ⟨b, c, r⟩
  | _ => wrongType

/-- `MotionParameters` (pepper_ik/common.h:78-118). -/
def ikMotionClass : ConfClass IkMotionConf where
  sectionId := "MotionParameters"
  entries := ikMotionEntries
  setDefaults := fun _ => ⟨![2531976618098 / 10 ^ 15, 0, 125564931735602 / 10 ^ 15],
    ![-(402863432226587 / 10 ^ 17), 0, 75 / 100], ![0, 0, 0]⟩
  assign := fun _ e => ikMotionOf e

/-- `pepper_ik::GeneralizedCoordinates` (pepper_ik/generalized_coordinates.h:54-55) with `n` coordinates of the root and `m`
joints. -/
structure CoordsConf (n m : ℕ) where
  root_pose : Fin n → ℚ
  joint_angles : Fin m → ℚ

/-- Entries of `GeneralizedCoordinates` (pepper_ik/generalized_coordinates.h:26-28). -/
def coordsEntries {n m : ℕ} (p : CoordsConf n m) : Entries :=
  .leaf "root_pose" (vecVal p.root_pose) (.leaf "joint_angles" (vecVal p.joint_angles) .nil)

/-- The members of `GeneralizedCoordinates` which are read. -/
def coordsOf {n m : ℕ} : Entries → Res (CoordsConf n m)
  | .leaf _ r (.leaf _ a .nil) => do
    let r ← r.toVec n
    let a ← a.toVec m
    pure ⟨r, a⟩
  | _ => wrongType

/-- `GeneralizedCoordinates` (pepper_ik/generalized_coordinates.h:22-66); `d` are the default coordinates
(model_description.h:497-504, 683-688, 862-869). The check in `finalize` compares a size which is fixed at compile time. -/
def coordsClass {n m : ℕ} (d : CoordsConf n m) : ConfClass (CoordsConf n m) where
  sectionId := "GeneralizedCoordinates"
  entries := coordsEntries
  setDefaults := fun _ => d
  assign := fun _ e => coordsOf e

/-! ## Parameters of solvers -/

/-- Entries of `SolverParametersBase` (solver.h:21-23). -/
def solverEntries (p : SolverParameters) : Entries :=
  .leaf "crash_on_any_failure" (boolVal p.crashOnAnyFailure) (.leaf "solve_two_levels_as_qp" (boolVal p.solveTwoLevelsAsQp) .nil)

/-- The members of `SolverParametersBase` which are read. -/
def solverOf : Entries → Res SolverParameters
  | .leaf _ a (.leaf _ b .nil) => do
    let a ← a.toBool
    let b ← b.toBool
    pure ⟨a, b⟩
  | _ => wrongType

/-- `kktsolver::SolverParameters` (kktsolver.h:41-79). -/
structure KktConf where
  base : SolverParameters
  own : KktParameters ℚ

/-- `kktsolver::SolverParameters`: the only entries are those of the parent (kktsolver.h:45-46), `setDefaults` does not call the one of
the parent (kktsolver.h:67-71). -/
def kktClass : ConfClass KktConf where
  sectionId := "SolverParameters"
  entries := fun p => .parent (solverEntries p.base) .nil
  setDefaults := fun p => { p with own := KktParameters.default }
  assign := fun o e => match e with
    | .parent s .nil => do
      let b ← solverOf s
      pure { o with base := b }
    | _ => wrongType

/-- `quadprogpp::SolverParameters` (bridges/QuadProgpp/interface/quadprogpp/solver.h:18-48). -/
structure QuadProgConf where
  base : SolverParameters
  regularization_factor : ℚ

/-- `quadprogpp::SolverParameters`: entries (quadprogpp/solver.h:22-24), `setDefaults` (quadprogpp/solver.h:34-37) does not call the one
of the parent. -/
def quadProgClass : ConfClass QuadProgConf where
  sectionId := "SolverParameters"
  entries := fun p => .parent (solverEntries p.base) (.leaf "regularization_factor" (realVal p.regularization_factor) .nil)
  setDefaults := fun p => { p with regularization_factor := 0 }
  assign := fun _ e => match e with
    | .parent s (.leaf _ r .nil) => do
      let b ← solverOf s
      let r ← r.toReal
      pure ⟨b, r⟩
    | _ => wrongType

/-- `qpmad::SolverParameters` with its options (bridges/qpmad/interface/qpmad/solver.h:18-74). -/
structure QpmadConf where
  base : SolverParameters
  regularization_factor : ℚ
  hessian_type : ℤ
  tolerance : ℚ
  max_iter : ℤ

/-- `qpmad::SolverParameters`: entries (qpmad/solver.h:22-25, 35-38); `setDefaults` (qpmad/solver.h:60-63) calls neither the one of the
parent nor the one of the options, the latter does nothing (qpmad/solver.h:42-44). -/
def qpmadClass : ConfClass QpmadConf where
  sectionId := "SolverParameters"
  entries := fun p => .parent (solverEntries p.base) (.leaf "regularization_factor" (realVal p.regularization_factor)
    (.member "QPmadParameters" (.leaf "hessian_type" (.enum p.hessian_type) (.leaf "tolerance" (realVal p.tolerance)
      (.leaf "max_iter" (.scalar (.int p.max_iter)) .nil))) .nil))
  setDefaults := fun p => { p with regularization_factor := 0 }
  assign := fun _ e => match e with
    | .parent s (.leaf _ r (.member _ (.leaf _ h (.leaf _ t (.leaf _ m .nil))) .nil)) => do
      let b ← solverOf s
      let r ← r.toReal
      let h ← h.toEnum
      let t ← t.toReal
      let m ← m.toInt
      pure ⟨b, r, h, t, m⟩
    | _ => wrongType

/-- `qpoases::SolverParameters` (bridges/qpOASES/interface/qpoases/solver.h:21-122); `options` are the entries of `QPoasesParameters`,
see `qpoasesOptions`. -/
structure QpoasesConf where
  base : SolverParameters
  max_number_of_iterations : ℤ
  max_cpu_time : ℚ
  options : Entries

/-- `qpoases::SolverParameters`: entries (qpoases/solver.h:25-31); `setDefaults` (qpoases/solver.h:105-109) calls neither the one of the
parent nor the one of the options; the latter is `setToMPC()` of qpOASES (qpoases/solver.h:86-89), `mpc` are the options which it
sets. -/
def qpoasesClass (mpc : Entries) : ConfClass QpoasesConf where
  sectionId := "SolverParameters"
  entries := fun p => .parent (solverEntries p.base)
    (.leaf "max_number_of_iterations" (.scalar (.int p.max_number_of_iterations)) (.leaf "max_cpu_time" (realVal p.max_cpu_time)
      (.member "QPoasesParameters" p.options .nil)))
  setDefaults := fun p => { p with max_number_of_iterations := 1000, max_cpu_time := 0 }
  setMembers := fun p => { p with options := mpc }
  assign := fun _ e => match e with
    | .parent s (.leaf _ n (.leaf _ t (.member _ x .nil))) => do
      let b ← solverOf s
      let n ← n.toInt
      let t ← t.toReal
      pure ⟨b, n, t, x⟩
    | _ => wrongType

/-- Names of the options of qpOASES which are entries (qpoases/solver.h:40-74). -/
def qpoasesOptionNames : List String :=
  ["enableRamping", "enableFarBounds", "enableFlippingBounds", "enableRegularisation", "enableFullLITests", "enableNZCTests",
    "enableDriftCorrection", "enableCholeskyRefactorisation", "enableEqualities", "terminationTolerance", "boundTolerance",
    "boundRelaxation", "epsNum", "epsDen", "maxPrimalJump", "maxDualJump", "initialRamping", "finalRamping", "initialFarBounds",
    "growFarBounds", "initialStatusBounds", "epsFlipping", "numRegularisationSteps", "epsRegularisation", "numRefinementSteps",
    "epsIterRef", "epsLITests", "epsNZCTests", "rcondSMin", "enableInertiaCorrection", "enableDropInfeasibles",
    "dropBoundPriority", "dropEqConPriority", "dropIneqConPriority"]

/-- Those of the options which are enumerations (qpoases/solver.h:41-46, 49, 61, 70, 71). -/
def qpoasesEnums : List String :=
  ["enableRamping", "enableFarBounds", "enableFlippingBounds", "enableRegularisation", "enableFullLITests", "enableNZCTests",
    "enableEqualities", "initialStatusBounds", "enableInertiaCorrection", "enableDropInfeasibles"]

/-- Those of the options which are integers (qpoases/solver.h:47, 48, 63, 65, 72-74). -/
def qpoasesInts : List String :=
  ["enableDriftCorrection", "enableCholeskyRefactorisation", "numRegularisationSteps", "numRefinementSteps", "dropBoundPriority",
    "dropEqConPriority", "dropIneqConPriority"]

/-- Entries of `QPoasesParameters` (qpoases/solver.h:40-74) for given values of the options. -/
def qpoasesOptions (ints : String → ℤ) (reals : String → ℚ) : Entries :=
  qpoasesOptionNames.foldr (fun n r =>
    .leaf n (if n ∈ qpoasesEnums then .enum (ints n) else if n ∈ qpoasesInts then .scalar (.int (ints n)) else realVal (reals n)) r)
    .nil

/-- `Solution` (solution.h:176-206): the only entry is the vector of variables, there are no defaults. -/
def solutionClass : ConfClass (Solution ℚ) where
  sectionId := "Solution"
  entries := fun s => .leaf "x" (.vec false s.x) .nil
  setDefaults := id
  assign := fun o e => match e with
    | .leaf _ (.vec _ l) .nil => .ok { o with x := l }
    | _ => wrongType

end Humoto.Config
