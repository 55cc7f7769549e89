import Verif.Spec.IkCommands
import Verif.Props.PepperIk
import Mathlib.Analysis.SpecialFunctions.Trigonometric.Bounds

/-!
# C118: a model which is moved by commands of Pepper follows the robot, except for turns
-/

namespace Humoto

namespace Ik

open Spec Spec.Ik

/-- The vertical component of the error of rotation is the sine of the turn. -/
theorem error_of_turn {a b : ℝ} {R R' : Mat3 ℝ} (h : TurnsAbout 2 a R) (h' : TurnsAbout 2 b R') :
    getRotationErrorAngleAxis R R' 2 = Real.sin (b - a) := by
  rw [turns_unique h (axisRotation_turns 2 a), turns_unique h' (axisRotation_turns 2 b), Real.sin_sub]
  simp [getRotationErrorAngleAxis, cross, axisRotation, Matrix.col_apply]
  ring

theorem sin_cube (x : ℝ) : |Real.sin x - x| ≤ |x| ^ 3 / 6 := by
  rcases le_total 0 x with h | h
  · have h1 := Real.sin_le h
    have h2 := Real.sin_ge_sub_cube h
    rw [abs_of_nonneg h, abs_le]
    have : 0 ≤ x ^ 3 := by positivity
    constructor <;> linarith
  · have h0 : 0 ≤ -x := by linarith
    have h1 := Real.sin_le h0
    have h2 := Real.sin_ge_sub_cube h0
    rw [Real.sin_neg] at h1 h2
    rw [abs_of_nonpos h, abs_le]
    have : 0 ≤ (-x) ^ 3 := by positivity
    constructor <;> linarith

variable {m f m0 f0 : IkModel ℝ .planar} {p p' : Fin 3 → ℝ} {q q' : Fin jointsDof → ℝ} {t : ℝ} {memory command : RobotCommand ℝ}

/-- **C118.** A command which is made when the robot has moved from one state to another: it contains the angles of the joints in
the new state, the interval, and the displacement of the base divided by the interval; the velocity of rotation is the sine of
the turn divided by the interval. -/
theorem C118_command (hk : BaseIsRoot m.kinematics) (hm : m.generalized_coordinates = pose p q) (hu : UpToDate m) (ht : 0 < t)
    (h : (m.saveCurrentState.updateState (pose p' q')).getRobotCommand memory (.fin t) = (command, .ok ())) :
    (command.joint_angles = fun i => .fin (q' i)) ∧ command.time_interval = .fin t ∧
      ∃ v : Fin 3 → ℝ, (command.base_velocities = fun i => .fin (v i)) ∧ t * v 0 = p' 0 - p 0 ∧ t * v 1 = p' 1 - p 1 ∧
        t * v 2 = Real.sin (p' 2 - p 2) := by
  obtain ⟨z, e1⟩ := hk.position p q
  obtain ⟨z', e2⟩ := hk.position p' q'
  obtain ⟨R, e3, hR⟩ := hk.orientation p q
  obtain ⟨R', e4, hR'⟩ := hk.orientation p' q'
  have hu' : m.rbdl_model = pose p q := hu.trans hm
  obtain ⟨v, w, hv, -, h1, h2⟩ := C88_command (m := m.saveCurrentState.updateState (pose p' q')) (p := ![p 0, p 1, z]) (p' := ![p' 0, p' 1, z'])
    (R := R) (R' := R') (a := q) (b := q') rfl
    (by show m.kinematics.basePosition m.rbdl_model = _; rw [hu', e1])
    (by show m.kinematics.baseOrientation m.rbdl_model = _; rw [hu', e3])
    e2 e4
    (by show m.generalized_coordinates.joint_angles = _; rw [hm]; rfl) rfl ht memory
  by_cases hc : AnglesAllowed (m.saveCurrentState.updateState (pose p' q')).constraints (fun i => .fin (q' i)) ∧
      SlowEnough (m.saveCurrentState.updateState (pose p' q')).constraints q q' t ∧
      WheelsAllowed (m.saveCurrentState.updateState (pose p' q')).constraints (fun i => .fin (w i))
  · have e := (h1 hc).symm.trans h
    obtain rfl := congrArg Prod.fst e
    refine ⟨rfl, rfl, v, rfl, ?_, ?_, ?_⟩
    · have := hv.x
      simp at this
      linarith
    · have := hv.y
      simp at this
      linarith
    · rw [← hv.yaw, error_of_turn hR hR']
  · have e := h2 hc
    rw [h] at e
    cases e

/-- **C118.** The commanded rotation is never greater than the turn, and if the turn is less than half of the circle, it has the
direction of the turn; it differs from the turn by at most a sixth of the cube of the turn, and always differs from it, unless
the robot does not turn. -/
theorem C118_rotation_partial (hk : BaseIsRoot m.kinematics) (hm : m.generalized_coordinates = pose p q) (hu : UpToDate m) (ht : 0 < t)
    (h : (m.saveCurrentState.updateState (pose p' q')).getRobotCommand memory (.fin t) = (command, .ok ())) :
    ∃ v, command.base_velocities 2 = .fin v ∧ |t * v| ≤ |p' 2 - p 2| ∧ |t * v - (p' 2 - p 2)| ≤ |p' 2 - p 2| ^ 3 / 6 ∧
      (t * v = p' 2 - p 2 ↔ p' 2 = p 2) ∧
      (|p' 2 - p 2| < Real.pi → (0 < v ↔ p 2 < p' 2) ∧ (v < 0 ↔ p' 2 < p 2)) := by
  obtain ⟨-, -, v, e, -, -, e2⟩ := C118_command hk hm hu ht h
  refine ⟨v 2, by rw [e], ?_, ?_, ?_, fun hpi => ?_⟩
  · rw [e2]
    exact Real.abs_sin_le_abs
  · rw [e2]
    exact sin_cube _
  · rw [e2]
    constructor
    · intro h0
      by_contra hne
      have := Real.abs_sin_lt_abs (x := p' 2 - p 2) (sub_ne_zero.2 hne)
      rw [h0] at this
      exact lt_irrefl _ this
    · intro h0
      rw [h0, sub_self, Real.sin_zero]
  · have hpi' := abs_lt.1 hpi
    have key : (0 < v 2 ↔ 0 < Real.sin (p' 2 - p 2)) ∧ (v 2 < 0 ↔ Real.sin (p' 2 - p 2) < 0) := by
      rw [← e2]
      exact ⟨(mul_pos_iff_of_pos_left ht).symm, fun h => mul_neg_of_pos_of_neg ht h, fun h => by
        by_contra hn
        exact absurd (mul_nonneg ht.le (not_lt.1 hn)) (not_le.2 h)⟩
    rw [key.1, key.2]
    rcases lt_trichotomy (p 2) (p' 2) with hlt | heq | hgt
    · have := Real.sin_pos_of_pos_of_lt_pi (sub_pos.2 hlt) hpi'.2
      exact ⟨⟨fun _ => hlt, fun _ => this⟩, ⟨fun hn => absurd hn this.not_gt, fun hn => absurd hn hlt.not_gt⟩⟩
    · rw [heq, sub_self, Real.sin_zero]
      simp
    · have := Real.sin_neg_of_neg_of_neg_pi_lt (sub_neg.2 hgt) hpi'.1
      exact ⟨⟨fun hn => absurd hn this.not_gt, fun hn => absurd hn hgt.not_gt⟩, ⟨fun _ => hgt, fun _ => this⟩⟩

/-- One correction by the whole command. -/
theorem corrected (hk : BaseIsRoot m.kinematics) (hm : m.generalized_coordinates = pose p q) (hu : UpToDate m) (ht : 0 < t)
    (h : (m.saveCurrentState.updateState (pose p' q')).getRobotCommand memory (.fin t) = (command, .ok ())) {yaw : ℝ}
    (hf : f.generalized_coordinates = pose ![p 0, p 1, yaw] q) :
    f.correct command (.fin t) = (f.updateState (pose ![p' 0, p' 1, yaw + Real.sin (p' 2 - p 2)] q'), .ok ()) := by
  obtain ⟨e1, e2, v, e3, e4, e5, e6⟩ := C118_command hk hm hu ht h
  obtain ⟨P, Q, h1, h2, h3⟩ := C89_correct f command (p := ![p 0, p 1, yaw]) (q := q) (by rw [hf]; rfl) (by rw [hf]; rfl) e3 e1 e2 ht.ne' ht
  have hP : P = ![p' 0, p' 1, yaw + Real.sin (p' 2 - p 2)] := by
    funext i
    rw [h1]
    fin_cases i
    · show p 0 + t * v 0 = p' 0
      rw [e4]; ring
    · show p 1 + t * v 1 = p' 1
      rw [e5]; ring
    · show yaw + t * v 2 = _
      rw [e6]; rfl
  have hQ : Q = q' := by
    funext i
    have : (Q i - q i) * t = (q' i - q i) * t := by rw [h2]; ring
    have := mul_right_cancel₀ ht.ne' this
    linarith
  rw [h3, hP, hQ]
  rfl

theorem driven_robot {l : List Leg} {s : Leg} (hk : BaseIsRoot m0.kinematics) (hm : m0.generalized_coordinates = pose s.p s.q) (hu : UpToDate m0)
    (h : Driven m0 f0 l m f) :
    m.kinematics = m0.kinematics ∧ m.generalized_coordinates = pose (latest s l).p (latest s l).q ∧ UpToDate m := by
  induction h with
  | start => exact ⟨rfl, hm, hu⟩
  | step a _ _ _ ih => exact ⟨ih.1, rfl, rfl⟩

/-- **C118.** A model which is at first in the same state as the robot, and is then corrected with all commands, is never rejected
and follows the robot: after each number of commands its position and the angles of its joints are those of the robot, and its
yaw angle differs from that of the robot at most by the sum of the cubes of the turns divided by six. Missing: the yaw angle
is not that of the robot, see `C118_follows_refuted`. -/
theorem C118_follows_partial {l : List Leg} {s : Leg} (hk : BaseIsRoot m0.kinematics) (hm : m0.generalized_coordinates = pose s.p s.q) (hu : UpToDate m0)
    (hf : f0.generalized_coordinates = pose s.p s.q) (h : Driven m0 f0 l m f) :
    m.generalized_coordinates = pose (latest s l).p (latest s l).q ∧
    (∃ yaw, f.generalized_coordinates = pose ![(latest s l).p 0, (latest s l).p 1, yaw] (latest s l).q ∧
      |yaw - (latest s l).p 2| ≤ cubesOfTurns s l) ∧
    ∀ p' q' t memory command, 0 < t →
      (m.saveCurrentState.updateState (pose p' q')).getRobotCommand memory (.fin t) = (command, .ok ()) →
      (f.correct command (.fin t)).2 = .ok () := by
  obtain ⟨k1, k2, k3⟩ := driven_robot hk hm hu h
  have key : ∃ yaw, f.generalized_coordinates = pose ![(latest s l).p 0, (latest s l).p 1, yaw] (latest s l).q ∧
      |yaw - (latest s l).p 2| ≤ cubesOfTurns s l := by
    clear k1 k2 k3
    induction h with
    | start =>
      refine ⟨s.p 2, ?_, by simp [latest, cubesOfTurns]⟩
      rw [hf]
      congr 1
      funext i
      fin_cases i <;> rfl
    | @step l m f memory command a hd ht hc ih =>
      obtain ⟨yaw, i1, i2⟩ := ih
      obtain ⟨k1, k2, k3⟩ := driven_robot hk hm hu hd
      rw [corrected (k1 ▸ hk) k2 k3 ht hc i1]
      refine ⟨_, rfl, ?_⟩
      show |yaw + Real.sin (a.p 2 - (latest s l).p 2) - a.p 2| ≤ |a.p 2 - (latest s l).p 2| ^ 3 / 6 + cubesOfTurns s l
      have := abs_add_le (Real.sin (a.p 2 - (latest s l).p 2) - (a.p 2 - (latest s l).p 2)) (yaw - (latest s l).p 2)
      rw [show Real.sin (a.p 2 - (latest s l).p 2) - (a.p 2 - (latest s l).p 2) + (yaw - (latest s l).p 2) =
        yaw + Real.sin (a.p 2 - (latest s l).p 2) - a.p 2 by ring] at this
      linarith [sin_cube (a.p 2 - (latest s l).p 2)]
  refine ⟨k2, key, fun p' q' t memory command ht hc => ?_⟩
  obtain ⟨yaw, i1, -⟩ := key
  rw [corrected (k1 ▸ hk) k2 k3 ht hc i1]

/-- **C118.** A robot which does not turn is followed exactly. -/
theorem C118_straight {l : List Leg} {s : Leg} (hk : BaseIsRoot m0.kinematics) (hm : m0.generalized_coordinates = pose s.p s.q) (hu : UpToDate m0)
    (hf : f0.generalized_coordinates = pose s.p s.q) (hl : ∀ a ∈ l, a.p 2 = s.p 2) (h : Driven m0 f0 l m f) :
    f.generalized_coordinates = m.generalized_coordinates := by
  obtain ⟨k1, ⟨yaw, k2, k3⟩, -⟩ := C118_follows_partial hk hm hu hf h
  have hlast : ∀ l : List Leg, (∀ a ∈ l, a.p 2 = s.p 2) → (latest s l).p 2 = s.p 2 := by
    intro l hl
    cases l with
    | nil => rfl
    | cons a l => exact hl a (by simp)
  have hz : ∀ l : List Leg, (∀ a ∈ l, a.p 2 = s.p 2) → cubesOfTurns s l = 0 := by
    intro l
    induction l with
    | nil => intro _; rfl
    | cons a l ih =>
      intro hl
      have hl' : ∀ a ∈ l, a.p 2 = s.p 2 := fun b hb => hl b (by simp [hb])
      show |a.p 2 - (latest s l).p 2| ^ 3 / 6 + cubesOfTurns s l = 0
      rw [ih hl', hlast l hl', hl a (by simp)]
      simp
  rw [hz l hl] at k3
  have hy : yaw = (latest s l).p 2 := by
    have := abs_nonpos_iff.1 k3
    linarith
  rw [k1, k2, hy]
  congr 1
  funext i
  fin_cases i <;> rfl

/-! ### A robot which turns -/

/-- The base of this robot is its root. -/
noncomputable def rootKinematics : Kinematics ℝ .planar where
  basePosition g := ![g.root_pose (0 : Fin 3), g.root_pose (1 : Fin 3), .fin 0]
  baseOrientation g := match g.root_pose (2 : Fin 3) with
    | .fin a => (axisRotation 2 a).map .fin
    | _ => fun _ _ => .nan

theorem root_is_base : BaseIsRoot rootKinematics where
  position p q := ⟨0, by funext i; fin_cases i <;> rfl⟩
  orientation p q := ⟨axisRotation 2 (p 2), rfl, axisRotation_turns 2 _⟩

/-- All limits of this robot are large. -/
noncomputable def turner (p : Fin 3 → ℝ) : IkModel ℝ .planar where
  kinematics := rootKinematics
  root_motion_to_wheels := 1
  saved_state := none
  generalized_coordinates := pose p fun _ => 0
  constraints := { Constraints.make .planar (fun _ => (0 : ℝ)) with
    joint_position_bounds_min := fun _ => -1
    joint_position_bounds_max := fun _ => 1
    joint_velocity_bounds := fun _ => 1 }
  rbdl_model := pose p fun _ => 0

/-- A turn on the spot in one second: a command is made. -/
theorem turner_command (a : ℝ) (memory : RobotCommand ℝ) : ∃ command,
    ((turner 0).saveCurrentState.updateState (pose ![0, 0, a] fun _ => 0)).getRobotCommand memory (.fin 1) = (command, .ok ()) := by
  obtain ⟨v, w, hv, hw, h1, -⟩ := C88_command (m := (turner 0).saveCurrentState.updateState (pose ![0, 0, a] fun _ => 0))
    (p := ![0, 0, 0]) (p' := ![0, 0, 0]) (R := axisRotation 2 0) (R' := axisRotation 2 a) (a := fun _ => 0) (b := fun _ => 0) rfl
    (by funext i; fin_cases i <;> rfl) rfl (by funext i; fin_cases i <;> rfl) rfl rfl rfl (zero_lt_one (α := ℝ)) memory
  refine ⟨_, h1 ⟨fun i => ?_, fun i => ?_, fun i => ?_⟩⟩
  · show _ - 1 / 10 ^ 7 ≤ (0 : ℝ) ∧ (0 : ℝ) ≤ _ + 1 / 10 ^ 7
    show (-1 : ℝ) - 1 / 10 ^ 7 ≤ (0 : ℝ) ∧ (0 : ℝ) ≤ 1 + 1 / 10 ^ 7
    norm_num
  · show |(0 : ℝ) - 0| ≤ 1 * 1
    norm_num
  · have h0 := hv.x
    have h1 := hv.y
    have h2 := hv.yaw
    rw [error_of_turn (axisRotation_turns 2 0) (axisRotation_turns 2 a)] at h2
    simp at h0 h1 h2
    have hw' : w = ![0, 0, Real.sin a] := by
      rw [hw]
      show (1 : Mat3 ℝ).mulVec _ = _
      rw [Matrix.one_mulVec]
      funext i
      fin_cases i <;> simp [Matrix.mulVec, dotProduct, Fin.sum_univ_three, axisRotation, ← h0, ← h1, ← h2]
    rw [hw']
    have := Real.neg_one_le_sin a
    have := Real.sin_le_one a
    fin_cases i <;> (show -(628319 / 100000 : ℝ) ≤ _ ∧ _ ≤ (628319 / 100000 : ℝ)) <;> simp <;> norm_num <;> constructor <;> linarith

/-- A turn is made with a command, and is followed. -/
example : ∃ l m f, l.length = 1 ∧ Driven (turner 0) (turner 0) l m f ∧ BaseIsRoot (turner 0).kinematics ∧ UpToDate (turner 0) := by
  obtain ⟨command, h⟩ := turner_command 1 ⟨fun _ => .nan, fun _ => .nan, fun _ => .nan, .nan⟩
  exact ⟨[⟨![0, 0, 1], fun _ => 0, 1⟩], _, _, rfl, .step _ .start one_pos h, root_is_base, rfl⟩

/-- **C118.** The yaw angle is not followed: when the robot has turned, the model has another yaw angle, and for a half of the circle the commanded velocity of rotation is zero. -/
theorem C118_follows_refuted :
    (∀ a : ℝ, a ≠ 0 → ∃ m f, Driven (turner 0) (turner 0) [⟨![0, 0, a], fun _ => 0, 1⟩] m f ∧ f.generalized_coordinates ≠ m.generalized_coordinates) ∧
    ∃ memory command, ((turner 0).saveCurrentState.updateState (pose ![0, 0, Real.pi] fun _ => 0)).getRobotCommand memory (.fin 1) = (command, .ok ()) ∧
      command.base_velocities 2 = .fin 0 := by
  have hm : (turner 0).generalized_coordinates = pose ![(0 : Fin 3 → ℝ) 0, (0 : Fin 3 → ℝ) 1, 0] fun _ => 0 := by
    show pose 0 _ = _
    congr 1
    funext i
    fin_cases i <;> rfl
  constructor
  · intro a ha
    obtain ⟨command, h⟩ := turner_command a ⟨fun _ => .nan, fun _ => .nan, fun _ => .nan, .nan⟩
    refine ⟨_, _, .step _ .start one_pos h, ?_⟩
    rw [corrected (m := turner 0) (p := 0) (q := fun _ => 0) root_is_base rfl rfl one_pos h hm]
    intro e
    have e' := congrFun (congrArg Coords.root_pose e) (2 : Fin 3)
    have e'' : (0 : ℝ) + Real.sin (a - 0) = a := Dbl.fin.inj e'
    rw [zero_add, sub_zero] at e''
    have := Real.abs_sin_lt_abs ha
    rw [e''] at this
    exact lt_irrefl _ this
  · obtain ⟨command, h⟩ := turner_command Real.pi ⟨fun _ => .nan, fun _ => .nan, fun _ => .nan, .nan⟩
    refine ⟨_, command, h, ?_⟩
    obtain ⟨-, -, v, e, -, -, e2⟩ := C118_command (m := turner 0) (p := 0) (q := fun _ => 0) root_is_base rfl rfl one_pos h
    have : v 2 = 0 := by
      rw [one_mul] at e2
      rw [e2]
      show Real.sin (Real.pi - 0) = 0
      simp
    show _ = Dbl.fin (0 : ℝ)
    rw [e, ← this]

/-- **C118.** The limits of the wheels do not limit the turns: in a time however short the robot may turn by half of the circle (or
by any multiple of it), and a command is made, with wheels which do not rotate. -/
theorem C118_wheels_refuted {t : ℝ} (ht : 0 < t) (k : ℤ) (memory : RobotCommand ℝ) : ∃ command,
    ((turner 0).saveCurrentState.updateState (pose ![0, 0, k * Real.pi] fun _ => 0)).getRobotCommand memory (.fin t) = (command, .ok ()) ∧
      command.wheel_velocities = fun _ => .fin 0 := by
  obtain ⟨v, w, hv, hw, h1, -⟩ := C88_command (m := (turner 0).saveCurrentState.updateState (pose ![0, 0, k * Real.pi] fun _ => 0))
    (p := ![0, 0, 0]) (p' := ![0, 0, 0]) (R := axisRotation 2 0) (R' := axisRotation 2 (k * Real.pi)) (a := fun _ => 0) (b := fun _ => 0) rfl
    (by funext i; fin_cases i <;> rfl) rfl (by funext i; fin_cases i <;> rfl) rfl rfl rfl ht memory
  have h2 := hv.x
  have h3 := hv.y
  have h4 := hv.yaw
  rw [error_of_turn (axisRotation_turns 2 0) (axisRotation_turns 2 _), sub_zero, Real.sin_int_mul_pi] at h4
  simp [ht.ne'] at h2 h3 h4
  have hv0 : v = 0 := by
    funext i
    fin_cases i
    · exact h2
    · exact h3
    · exact h4
  have hw0 : w = fun _ => 0 := by
    rw [hw, hv0]
    simp
    rfl
  subst hw0
  refine ⟨_, h1 ⟨fun i => ?_, fun i => ?_, fun i => ?_⟩, rfl⟩
  · show (-1 : ℝ) - 1 / 10 ^ 7 ≤ (0 : ℝ) ∧ (0 : ℝ) ≤ 1 + 1 / 10 ^ 7
    norm_num
  · show |(0 : ℝ) - 0| ≤ 1 * t
    rw [sub_zero, abs_zero, one_mul]
    exact ht.le
  · fin_cases i <;> (show -(628319 / 100000 : ℝ) ≤ _ ∧ _ ≤ (628319 / 100000 : ℝ)) <;> norm_num

end Ik

end Humoto
