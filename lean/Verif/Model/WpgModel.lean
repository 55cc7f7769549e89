import Verif.Model.FootParameters
import Verif.Model.PointMass
import Verif.Model.Trajectory

/-!
# Walking pattern generator: parameters and the model of the robot

modules/wpg04/include/wpg04/common.h, model_state.h, model.h. Real numbers: rotations use `cos` and `sin`, the point mass model
`sqrt`, `cosh` and `sinh`. Coefficients which are unset (NaN) are given by the parameter `nan`.
-/

namespace Humoto.Wpg

/-- `convertMillisecondToSecond`, core/include/humoto/time.h:22-25. -/
noncomputable def seconds (ms : ℕ) : ℝ := (ms : ℝ) / 1000

/-- `MPCParameters`, common.h:80-155. -/
structure MPCParameters where
  preview_horizon_length : ℕ
  sampling_time_ms : ℕ
  subsampling_time_ms : ℕ
  tds_sampling_time_ms : ℕ
  subsamples_num : ℕ
  tds_subsamples_num : ℕ
  sampling_time : ℝ
  subsampling_time : ℝ
  tds_sampling_time : ℝ

namespace MPCParameters

/-- `a % b` and `a / b` for `std::size_t`: division by zero is undefined. -/
def modulo (a b : ℕ) : Res ℕ := do
  require (b ≠ 0)
  pure (a % b)

/-- Constructor, common.h:180-191, and `finalize`, common.h:114-139. -/
noncomputable def make (len sampling subsampling tds : ℕ) : Res MPCParameters := do
  let r ← modulo sampling subsampling
  assertThat (r = 0)
  let r ← modulo tds subsampling
  assertThat (r = 0)
  pure
    { preview_horizon_length := len
      sampling_time_ms := sampling
      subsampling_time_ms := subsampling
      tds_sampling_time_ms := tds
      subsamples_num := sampling / subsampling
      tds_subsamples_num := tds / subsampling
      sampling_time := seconds sampling
      subsampling_time := seconds subsampling
      tds_sampling_time := seconds tds }

/-- `getSubsamplingTime`, common.h:199-202. -/
def getSubsamplingTime (p : MPCParameters) : ℝ := p.subsampling_time

end MPCParameters

/-- `WalkParameters`, common.h:24-46, without the parameters of the stances. -/
structure WalkParameters where
  com_velocity : Fin 2 → ℝ
  first_stance_com_velocity : Fin 2 → ℝ
  last_stance_com_velocity : Fin 2 → ℝ
  step_height : ℝ
  theta_increment : ℝ

/-- `WalkParameters::setDefaults`, common.h:63-72. -/
noncomputable def WalkParameters.default : WalkParameters := ⟨![1 / 5, 0], ![1 / 5, 0], ![0, 0], 7 / 100, 0⟩

/-- `Eigen::Rotation2Dd(theta)` as a matrix. -/
noncomputable def rotation2 (theta : ℝ) : Matrix (Fin 2) (Fin 2) ℝ :=
  !![Real.cos theta, -Real.sin theta; Real.sin theta, Real.cos theta]

/-- `LeftRightContainer<RigidBodyState>`, core/include/humoto/leftright.h:57-109. -/
structure Feet where
  left : RigidBodyState ℝ
  right : RigidBodyState ℝ

/-- `operator[]`, leftright.h:75-90. -/
def Feet.get (f : Feet) : LeftOrRight → Res (RigidBodyState ℝ)
  | .left => .ok f.left
  | .right => .ok f.right
  | .undefined => .error .thrown

/-- `operator[](left_or_right) = state`, leftright.h:75-79. -/
def Feet.put (f : Feet) (s : RigidBodyState ℝ) : LeftOrRight → Res Feet
  | .left => .ok { f with left := s }
  | .right => .ok { f with right := s }
  | .undefined => .error .thrown

/-- `copyLeft`, leftright.h:105. -/
def Feet.copyLeft (f g : Feet) : Feet := { f with left := g.left }

/-- `copyRight`, leftright.h:108. -/
def Feet.copyRight (f g : Feet) : Feet := { f with right := g.right }

/-- `ModelState`, model_state.h:16, 82-93. -/
structure ModelState where
  com_state : PointMassState ℝ
  feet : Feet
  stance_type : StanceType
  next_stance_type : StanceType

/-- `initializeFoot`, model_state.h:38-56. -/
noncomputable def initializeFoot (nan : ℝ) (p : FootParameters ℝ) (s : LeftOrRight) (theta : ℝ) (pos : Fin 2 → ℝ) :
    Res (RigidBodyState ℝ) := do
  let xy ← p.getFootPositionFromADS s (rotation2 theta) pos
  pure ⟨![xy 0, xy 1, 0], 0, 0, ![0, 0, theta], fun _ => nan, fun _ => nan⟩

/-- `setDefaults(foot_param, com_height)`, model_state.h:60-79; the constructors and `set(robot_parameters, com_height)`,
model_state.h:101-141. -/
noncomputable def ModelState.make (nan : ℝ) (p : FootParameters ℝ) (com_height : ℝ) : Res ModelState := do
  let l ← initializeFoot nan p .left 0 ![0, 0]
  let r ← initializeFoot nan p .right 0 ![0, 0]
  pure ⟨⟨![0, 0, com_height], 0, 0⟩, ⟨l, r⟩, .ds, .undefined⟩

/-- `set(current_stance, com_state, left_foot_state, right_foot_state)`, model_state.h:153-168. -/
def ModelState.set (stance : StanceType) (com : PointMassState ℝ) (left right : RigidBodyState ℝ) : Res ModelState := do
  assertThat (stance = .lss ∨ stance = .rss ∨ stance = .ds)
  pure ⟨com, ⟨left, right⟩, stance, .undefined⟩

/-- `Model`, model.h:25-27, 73-77. -/
structure Model where
  params : FootParameters ℝ
  state : ModelState
  current_support_position : Fin 2 → ℝ

/-- `position_.head(2)`. -/
def head2 (v : Fin 3 → ℝ) : Fin 2 → ℝ := ![v 0, v 1]

/-- The mean of the positions of the feet, model.h:45-46, 58-59. -/
noncomputable def meanPosition (f : Feet) : Fin 2 → ℝ := (2 : ℝ)⁻¹ • (head2 f.right.position + head2 f.left.position)

/-- `determineSupportPosition`, model.h:33-70. -/
noncomputable def determineSupportPosition (s : ModelState) : Res (Fin 2 → ℝ) :=
  match s.stance_type with
  | .lss => .ok (head2 s.feet.left.position)
  | .rss => .ok (head2 s.feet.right.position)
  | .ds => .ok (meanPosition s.feet)
  | .tds =>
    match s.next_stance_type with
    | .lss => .ok (head2 s.feet.left.position)
    | .rss => .ok (head2 s.feet.right.position)
    | .ds => .ok (meanPosition s.feet)
    | _ => .error .thrown
  | .undefined => .error .thrown

namespace Model

/-- Constructor, model.h:84-87, for given parameters of the feet and height of the CoM. Simplification: the default constructor
uses the default parameters, which are replaced by `setFootParameters`, model.h:95-98. -/
noncomputable def make (nan : ℝ) (p : FootParameters ℝ) (com_height : ℝ) : Res Model := do
  let s ← ModelState.make nan p com_height
  let c ← determineSupportPosition s
  pure ⟨p, s, c⟩

/-- `getFootState`, model.h:119-122. -/
def getFootState (m : Model) (s : LeftOrRight) : Res (RigidBodyState ℝ) := m.state.feet.get s

/-- `getCState`, model.h:129-133. -/
def getCState (m : Model) : Fin 6 → ℝ := PointMass6z.fromCoMState m.state.com_state

/-- `getCoMHeight`, model.h:142-145. -/
def getCoMHeight (m : Model) : ℝ := m.state.com_state.position 2

/-- The switch of `updateState`, model.h:166-209: the states of the feet. -/
def updateFeet (prev : StanceType) (old : Feet) (s : ModelState) : Res Feet :=
  match s.stance_type with
  | .lss => .ok (old.copyLeft s.feet)
  | .rss => .ok (old.copyRight s.feet)
  | .tds =>
    match prev with
    | .lss => .ok (old.copyRight s.feet)
    | .rss => .ok (old.copyLeft s.feet)
    | .ds => .ok old
    | _ => .error .thrown
  | .ds => .ok ((old.copyLeft s.feet).copyRight s.feet)
  | .undefined => .error .thrown

/-- `updateState`, model.h:154-212. -/
noncomputable def updateState (m : Model) (s : ModelState) : Res Model := do
  let feet ← updateFeet m.state.stance_type m.state.feet s
  let state : ModelState := ⟨s.com_state, feet, s.stance_type, s.next_stance_type⟩
  let c ← determineSupportPosition state
  pure ⟨m.params, state, c⟩

end Model

end Humoto.Wpg
