import Verif.Lemmas.PepperIk
import Verif.Props.Rotary

/-!
# C63, C88–C91: limits, commands and coordinates of Pepper
-/

namespace Humoto

namespace Ik

open Spec Spec.Ik

section
variable {K : Type} [Field K] [LinearOrder K] [IsStrictOrderedRing K] {n : ℕ} (c : Constraints K n)

/-! ## C63 -/

omit [IsStrictOrderedRing K] in
/-- **C63.** The check of the joint angles throws if and only if some angle is not a number within its limits (up to the
tolerance). -/
theorem C63_positions (q : Fin n → Dbl K) :
    (c.checkJointPositions q = .ok () ↔ AnglesAllowed c q) ∧ (c.checkJointPositions q = .error .thrown ↔ ¬ AnglesAllowed c q) :=
  positions_iff c q

omit [IsStrictOrderedRing K] in
/-- **C63.** The check of the velocities of the wheels throws if and only if some velocity is not a number within its limits. -/
theorem C63_wheels (w : Fin 3 → Dbl K) :
    (c.checkWheelVelocities w = .ok () ↔ WheelsAllowed c w) ∧ (c.checkWheelVelocities w = .error .thrown ↔ ¬ WheelsAllowed c w) :=
  wheels_iff c w

/-- **C63.** For a positive time interval and angles which are numbers, the check of the joint velocities throws if and only if
some joint has to move faster than it can. Missing: other intervals and special values, see `C63_velocities_refuted`. -/
theorem C63_velocities_partial (a b : Fin n → K) {t : K} (ht : 0 < t) :
    (c.checkJointVelocities (fun i => .fin (a i)) (fun i => .fin (b i)) (.fin t) = .ok () ↔ SlowEnough c a b t) ∧
    (c.checkJointVelocities (fun i => .fin (a i)) (fun i => .fin (b i)) (.fin t) = .error .thrown ↔ ¬ SlowEnough c a b t) := by
  have e : (∀ i, ¬ Dbl.fin (c.joint_velocity_bounds i) < (Dbl.fin (b i) - Dbl.fin (a i)).abs / Dbl.fin t) ↔ SlowEnough c a b t := by
    refine forall_congr' fun i => ?_
    rw [fin_sub, fin_abs, fin_div ht.ne', fin_lt, not_lt, div_le_iff₀ ht]
  have := velocities_iff c (fun i => .fin (a i)) (fun i => .fin (b i)) (.fin t)
  rwa [e] at this

/-- **C63.** In other cases fast motions are accepted: all motions if the time interval is negative, motions from or to an
angle which is not a number, and no motion at all during no time. -/
theorem C63_velocities_refuted (hb : ∀ i, 0 ≤ c.joint_velocity_bounds i) :
    (∀ (a b : Fin n → K) (t : K), t < 0 →
      c.checkJointVelocities (fun i => .fin (a i)) (fun i => .fin (b i)) (.fin t) = .ok ()) ∧
    (∀ (b : Fin n → Dbl K) (dt : Dbl K), c.checkJointVelocities (fun _ => .nan) b dt = .ok ()) ∧
    (∀ (a : Fin n → K), c.checkJointVelocities (fun i => .fin (a i)) (fun i => .fin (a i)) (.fin 0) = .ok ()) := by
  refine ⟨fun a b t ht => (velocities_iff c _ _ _).1.2 fun i => ?_, fun b dt => (velocities_iff c _ _ _).1.2 fun i => ?_,
    fun a => (velocities_iff c _ _ _).1.2 fun i => ?_⟩
  · rw [fin_sub, fin_abs, fin_div ht.ne, fin_lt, not_lt]
    exact (div_nonpos_of_nonneg_of_nonpos (abs_nonneg _) ht.le).trans (hb i)
  · have : (b i - Dbl.nan).abs / dt = Dbl.nan := by cases b i <;> rfl
    rw [this]
    exact fun h => h
  · have : (Dbl.fin (a i) - Dbl.fin (a i)).abs / Dbl.fin 0 = (Dbl.nan : Dbl K) := by
      rw [fin_sub, sub_self, fin_abs, abs_zero]
      show Dbl.div _ _ = _
      simp [Dbl.div]
    rw [this]
    exact fun h => h

/-- **C63.** The limits are those of the robot description (up to rounding), for all types of the model and whatever was in
the memory. -/
theorem C63_urdf (root : Root) (junk : Fin jointsDof → K) :
    (∀ i, ∃ j, i = jointId root j) ∧
    (∀ j, |(Constraints.make root junk).joint_position_bounds_min (jointId root j) - (urdfLimits j).1| ≤ 1 / 10 ^ 15 ∧
      |(Constraints.make root junk).joint_position_bounds_max (jointId root j) - (urdfLimits j).2.1| ≤ 1 / 10 ^ 15 ∧
      (Constraints.make root junk).joint_velocity_bounds (jointId root j) = (urdfLimits j).2.2) ∧
    (Constraints.make root junk).error_tol = 1 / 10 ^ 7 ∧ ∀ i, (Constraints.make root junk).wheel_velocities_max i = 628319 / 100000 := by
  refine ⟨fun i => ?_, fun j => ?_, rfl, fun i => rfl⟩
  · cases root <;> fin_cases i <;> first
      | exact ⟨.KneePitch, rfl⟩ | exact ⟨.HipPitch, rfl⟩ | exact ⟨.HipRoll, rfl⟩ | exact ⟨.HeadYaw, rfl⟩ | exact ⟨.HeadPitch, rfl⟩
      | exact ⟨.LShoulderPitch, rfl⟩ | exact ⟨.LShoulderRoll, rfl⟩ | exact ⟨.LElbowYaw, rfl⟩ | exact ⟨.LElbowRoll, rfl⟩
      | exact ⟨.LWristYaw, rfl⟩
      | exact ⟨.RShoulderPitch, rfl⟩ | exact ⟨.RShoulderRoll, rfl⟩ | exact ⟨.RElbowYaw, rfl⟩ | exact ⟨.RElbowRoll, rfl⟩
      | exact ⟨.RWristYaw, rfl⟩
  · have hmin : (Constraints.make root junk).joint_position_bounds_min (jointId root j) =
        (minBounds.lookup j : Option K).getD 0 := by
      cases root <;> cases j <;> rfl
    have hmax : (Constraints.make root junk).joint_position_bounds_max (jointId root j) =
        (maxBounds.lookup j : Option K).getD 0 := by
      cases root <;> cases j <;> rfl
    have hvel : (Constraints.make root junk).joint_velocity_bounds (jointId root j) =
        (velocityBounds.lookup j : Option K).getD 0 := by
      cases root <;> cases j <;> rfl
    rw [hmin, hmax, hvel]
    have key : ∀ (x y : K), |x - y| ≤ 1 / 10 ^ 15 ↔ x - y ≤ 1 / 10 ^ 15 ∧ -(1 / 10 ^ 15) ≤ x - y := fun x y => by rw [abs_le, and_comm]
    rw [key, key]
    cases j <;> simp only [minBounds, maxBounds, velocityBounds, List.lookup, urdfLimits, Option.getD, beq_eq_decide, reduceCtorEq,
      decide_false, decide_true] <;> norm_num

/-! ## C88 -/

section
variable {root : Root} {m : IkModel K root} {s : SavedState K root} {p p' : Fin 3 → K} {R R' : Mat3 K} {a b : Fin jointsDof → K}

/-- **C88.** A command is made if and only if the joints are within their limits, can move that fast, and the wheels can rotate
that fast. It contains the joint angles, the mean velocity of the base, the corresponding velocities of the wheels and the
time interval. Otherwise an exception is thrown. -/
theorem C88_command (hs : m.saved_state = some s) (hp : s.base_position = fun i => .fin (p i)) (hR : s.base_orientation = R.map .fin)
    (hp' : m.getBasePosition = fun i => .fin (p' i)) (hR' : m.getBaseOrientation = R'.map .fin)
    (ha : s.generalized_coordinates.joint_angles = fun i => .fin (a i)) (hb : m.generalized_coordinates.joint_angles = fun i => .fin (b i))
    {t : K} (ht : 0 < t) (command : RobotCommand K) :
    ∃ v w : Fin 3 → K, MeanVelocity p p' R R' t v ∧ w = m.root_motion_to_wheels.mulVec (R'.transpose.mulVec v) ∧
      (AnglesAllowed m.constraints (fun i => .fin (b i)) ∧ SlowEnough m.constraints a b t ∧ WheelsAllowed m.constraints (fun i => .fin (w i)) →
        m.getRobotCommand command (.fin t) =
          ({ joint_angles := fun i => .fin (b i), wheel_velocities := fun i => .fin (w i), base_velocities := fun i => .fin (v i),
             time_interval := .fin t }, .ok ())) ∧
      (¬ (AnglesAllowed m.constraints (fun i => .fin (b i)) ∧ SlowEnough m.constraints a b t ∧
          WheelsAllowed m.constraints (fun i => .fin (w i))) →
        (m.getRobotCommand command (.fin t)).2 = .error .thrown) := by
  refine ⟨![(p' 0 - p 0) / t, (p' 1 - p 1) / t, getRotationErrorAngleAxis R R' 2 / t], _, ⟨?_, ?_, ?_⟩, rfl, fun h => ?_, fun h => ?_⟩
  · show p' 0 = p 0 + t * ((p' 0 - p 0) / t)
    rw [mul_div_cancel₀ _ ht.ne']; ring
  · show p' 1 = p 1 + t * ((p' 1 - p 1) / t)
    rw [mul_div_cancel₀ _ ht.ne']; ring
  · show _ = t * (getRotationErrorAngleAxis R R' 2 / t)
    rw [mul_div_cancel₀ _ ht.ne']
  all_goals
    rw [command_finite hs hp hR hp' hR' ht.ne' command rfl rfl, ha, hb]
    simp only [Matrix.mulVec_mulVec] at h
  · rw [(C63_positions _ _).1.2 h.1]
    simp only
    rw [(C63_velocities_partial _ a b ht).1.2 h.2.1]
    simp only
    rw [(C63_wheels _ _).1.2 h.2.2, Matrix.mulVec_mulVec]
  · by_cases h1 : AnglesAllowed m.constraints fun i => .fin (b i)
    · rw [(C63_positions _ _).1.2 h1]
      simp only
      by_cases h2 : SlowEnough m.constraints a b t
      · rw [(C63_velocities_partial _ a b ht).1.2 h2]
        simp only
        rw [(C63_wheels _ _).2.2 fun h3 => h ⟨h1, h2, h3⟩]
      · rw [(C63_velocities_partial _ a b ht).2.2 h2]
    · rw [(C63_positions _ _).2.2 h1]

omit [IsStrictOrderedRing K] in
/-- **C88.** Whatever the state (also with special values) and the interval, a command which has been made has joint angles
within their limits and velocities of the wheels which they can reach. -/
theorem C88_limits (command : RobotCommand K) (dt : Dbl K) (h : (m.getRobotCommand command dt).2 = .ok ()) :
    m.saved_state ≠ none ∧
    (m.getRobotCommand command dt).1.joint_angles = m.generalized_coordinates.joint_angles ∧
    AnglesAllowed m.constraints (m.getRobotCommand command dt).1.joint_angles ∧
    WheelsAllowed m.constraints (m.getRobotCommand command dt).1.wheel_velocities ∧
    (m.getRobotCommand command dt).1.time_interval = dt := by
  unfold IkModel.getRobotCommand at h ⊢
  cases hs : m.saved_state with
  | none => rw [hs] at h; cases h
  | some s =>
    rw [hs] at h
    simp only at h ⊢
    cases hq : m.constraints.checkJointPositions m.generalized_coordinates.joint_angles with
    | error e => rw [hq] at h; cases h
    | ok _ =>
      rw [hq] at h
      simp only at h ⊢
      cases hv : m.constraints.checkJointVelocities s.generalized_coordinates.joint_angles m.generalized_coordinates.joint_angles dt with
      | error e => rw [hv] at h; cases h
      | ok _ =>
        rw [hv] at h
        simp only at h ⊢
        generalize mulVecD (mulD (m.root_motion_to_wheels.map .fin) m.getBaseOrientation.transpose) _ = w at h ⊢
        cases hw : m.constraints.checkWheelVelocities w with
        | error e => rw [hw] at h; cases h
        | ok _ => exact ⟨by simp, rfl, (C63_positions _ _).1.1 hq, (C63_wheels _ _).1.1 hw, rfl⟩

omit [IsStrictOrderedRing K] in
/-- **C88.** No command is made before a state has been saved, nor for an empty time interval; if the joints violate their
limits the command is not touched. -/
theorem C88_rejects (command : RobotCommand K) :
    (m.saved_state = none → ∀ dt, m.getRobotCommand command dt = (command, .error .thrown)) ∧
    (m.getRobotCommand command (.fin 0)).2 = .error .thrown ∧
    (∀ dt, ¬ AnglesAllowed m.constraints m.generalized_coordinates.joint_angles →
      m.getRobotCommand command dt = (command, .error .thrown)) := by
  refine ⟨fun h dt => ?_, ?_, fun dt h => ?_⟩
  · unfold IkModel.getRobotCommand
    rw [h]
  · unfold IkModel.getRobotCommand
    cases m.saved_state with
    | none => rfl
    | some s =>
      simp only
      rcases ok_or_thrown (C63_positions m.constraints m.generalized_coordinates.joint_angles) with e | e
      · rw [e]
        simp only
        rcases ok_or_thrown (velocities_iff m.constraints s.generalized_coordinates.joint_angles
          m.generalized_coordinates.joint_angles (.fin 0)) with e | e
        · rw [e]
          simp only
          rw [(C63_wheels _ _).2.2]
          intro hw
          refine between_notFinite ?_ (hw 0)
          unfold mulVecD
          refine add_notFinite (add_notFinite (mul_notFinite _ ?_))
          exact div_zero_notFinite _
        · rw [e]
      · rw [e]
  · unfold IkModel.getRobotCommand
    cases m.saved_state with
    | none => rfl
    | some s =>
      simp only
      rw [(C63_positions _ _).2.2 h]

end

end

/-- Coordinates of a model which does not move. -/
def restCoords : Coords ℚ .planar := ⟨fun _ => .fin 0, assignJoints .planar (defaultAngles.map fun p => (p.1, Dbl.fin p.2)) fun _ => .nan⟩

/-- A model with a base which has moved by one meter along the axis X since its state was saved. -/
def movedModel : IkModel ℚ .planar where
  kinematics := { basePosition := fun _ => ![.fin 1, .fin 0, .fin 0], baseOrientation := fun _ => (1 : Mat3 ℚ).map .fin }
  root_motion_to_wheels := 1
  saved_state := some { base_position := fun _ => .fin 0, base_orientation := (1 : Mat3 ℚ).map .fin, generalized_coordinates := restCoords }
  generalized_coordinates := restCoords
  constraints := Constraints.make .planar fun _ => 0
  rbdl_model := restCoords

/-- The joint angles of a model which does not move. -/
def restAngles : Fin jointsDof → ℚ := assignJoints .planar defaultAngles fun _ => 0

theorem rest_angles : restCoords.joint_angles = fun i => .fin (restAngles i) := by
  funext i
  fin_cases i <;> rfl

theorem rest_allowed : AnglesAllowed (Constraints.make .planar fun _ => (0 : ℚ)) fun i => .fin (restAngles i) := by
  intro i
  obtain ⟨j, rfl⟩ := (C63_urdf .planar fun _ => (0 : ℚ)).1 i
  have hmin : (Constraints.make .planar fun _ => (0 : ℚ)).joint_position_bounds_min (jointId .planar j) = (minBounds.lookup j).getD 0 := by
    cases j <;> rfl
  have hmax : (Constraints.make .planar fun _ => (0 : ℚ)).joint_position_bounds_max (jointId .planar j) = (maxBounds.lookup j).getD 0 := by
    cases j <;> rfl
  have hq : restAngles (jointId .planar j) = (defaultAngles.lookup j).getD 0 := by cases j <;> rfl
  show _ ≤ _ ∧ _ ≤ _
  rw [hmin, hmax, hq]
  show _ - 1 / 10 ^ 7 ≤ _ ∧ _ ≤ _ + 1 / 10 ^ 7
  cases j <;> simp only [minBounds, maxBounds, defaultAngles, List.lookup, Option.getD, beq_eq_decide, reduceCtorEq,
    decide_false, decide_true] <;> norm_num

theorem rest_velocity (i : Fin jointsDof) : 0 ≤ movedModel.constraints.joint_velocity_bounds i := by
  obtain ⟨j, rfl⟩ := (C63_urdf .planar fun _ => (0 : ℚ)).1 i
  have h : movedModel.constraints.joint_velocity_bounds (jointId .planar j) = (velocityBounds.lookup j).getD 0 := by cases j <;> rfl
  rw [h]
  cases j <;> simp only [velocityBounds, List.lookup, Option.getD, beq_eq_decide, reduceCtorEq, decide_false, decide_true] <;> norm_num

/-- One meter per second is slow enough for the wheels of this model, and a command is made. -/
example (command : RobotCommand ℚ) : (movedModel.getRobotCommand command (.fin 1)).2 = .ok () := by
  obtain ⟨v, w, hv, hw, h, -⟩ := C88_command (m := movedModel) (p := 0) (p' := ![1, 0, 0]) (R := 1) (R' := 1) rfl rfl rfl
    (by funext i; fin_cases i <;> rfl) rfl rest_angles rest_angles (zero_lt_one) command
  rw [h]
  have hw' : w = v := by rw [hw]; show (1 : Mat3 ℚ).mulVec _ = _; simp
  have h0 := hv.x
  have h1 := hv.y
  have h2 := hv.yaw
  refine ⟨rest_allowed, fun i => ?_, fun i => ?_⟩
  · rw [sub_self, abs_zero, mul_one]
    exact rest_velocity i
  · rw [hw']
    simp [getRotationErrorAngleAxis, cross, Matrix.one_apply] at h0 h1 h2
    fin_cases i <;> (show -(628319 / 100000 : ℚ) ≤ _ ∧ _ ≤ (628319 / 100000 : ℚ)) <;> simp [← h0, ← h1, ← h2] <;> norm_num

/-- **C88.** If the wheels cannot rotate that fast the exception leaves a changed command behind: everything except its
time interval is that of the rejected motion. -/
theorem C88_failure_refuted : ∃ (m : IkModel ℚ .planar) (command : RobotCommand ℚ) (t : ℚ),
    (m.getRobotCommand command (.fin t)).2 = .error .thrown ∧ (m.getRobotCommand command (.fin t)).1 ≠ command := by
  refine ⟨movedModel, ⟨fun _ => .nan, fun _ => .nan, fun _ => .nan, .nan⟩, 1 / 100, ?_⟩
  have hq : movedModel.constraints.checkJointPositions movedModel.generalized_coordinates.joint_angles = .ok () := by
    show Constraints.checkJointPositions _ restCoords.joint_angles = _
    rw [rest_angles]
    exact (C63_positions _ _).1.2 rest_allowed
  have hv : movedModel.constraints.checkJointVelocities restCoords.joint_angles movedModel.generalized_coordinates.joint_angles
      (.fin (1 / 100)) = .ok () := by
    show Constraints.checkJointVelocities _ restCoords.joint_angles restCoords.joint_angles _ = _
    rw [rest_angles]
    refine (C63_velocities_partial _ _ _ (by norm_num)).1.2 fun i => ?_
    rw [sub_self, abs_zero]
    exact mul_nonneg (rest_velocity i) (by norm_num)
  have hw : (movedModel.constraints.checkWheelVelocities fun i => .fin ((movedModel.root_motion_to_wheels * (1 : Mat3 ℚ).transpose).mulVec
      ![((![1, 0, 0] : Fin 3 → ℚ) 0 - (0 : Fin 3 → ℚ) 0) / (1 / 100), ((![1, 0, 0] : Fin 3 → ℚ) 1 - (0 : Fin 3 → ℚ) 1) / (1 / 100),
        getRotationErrorAngleAxis (1 : Mat3 ℚ) 1 2 / (1 / 100)] i)) = .error .thrown := by
    refine (C63_wheels _ _).2.2 fun h => ?_
    have := (h 0).2
    simp [movedModel, Constraints.make] at this
    norm_num at this
  rw [command_finite (m := movedModel) (p := 0) (p' := ![1, 0, 0]) (R := 1) (R' := 1) rfl rfl rfl
    (by funext i; fin_cases i <;> rfl) rfl (by norm_num : (1 / 100 : ℚ) ≠ 0) _ rfl rfl, hq]
  simp only
  rw [hv]
  simp only
  rw [hw]
  refine ⟨rfl, fun h => ?_⟩
  have := congrFun (congrArg RobotCommand.joint_angles h) 0
  change restCoords.joint_angles 0 = Dbl.nan at this
  rw [rest_angles] at this
  cases this

/-- **C88.** The wheels roll without slipping: for a base which is turned about the vertical axis and moves with the
velocities of a command, the contact points of the wheels rotating with the velocities of the command do not slip in the
directions in which the wheels roll. -/
theorem C88_rolls {M : Mat3 ℝ} (hM : getRootMotionToWheelsTransform = .ok M) (yaw : ℝ) {v w : Fin 3 → ℝ}
    (hw : w = M.mulVec ((axisRotation 2 yaw).transpose.mulVec v)) (i : Fin 3) :
    RollsWithoutSlipping 0.07 (axle i) (along i) (pointVelocity (inBaseFrame yaw v) (v 2) (urdfWheels i).2) (w i) := by
  have row : ∀ y p, wheelRow y p = .ok ![Real.sin y, -Real.cos y, -Real.sin y * p 1 + Real.cos y * -p 0] := by
    intro y p
    show Except.ok _ = _
    congr 1
    funext j
    fin_cases j <;> simp [axisRotation, Matrix.mul_apply, Fin.sum_univ_three, cross]
  unfold getRootMotionToWheelsTransform at hM
  simp only [row, ok_bind] at hM
  cases hM
  have key : ∀ (y : ℝ) (p u : Fin 3 → ℝ) (o w' : ℝ),
      0.07 * w' = Real.sin y * u 0 - Real.cos y * u 1 + (-Real.sin y * p 1 + Real.cos y * -p 0) * o →
      RollsWithoutSlipping 0.07 ![Real.cos y, Real.sin y, 0] ![-Real.sin y, Real.cos y, 0] (pointVelocity u o p) w' := by
    intro y p u o w' e
    have h1 := Real.sin_sq_add_cos_sq y
    unfold RollsWithoutSlipping pointVelocity
    simp only [Fin.sum_univ_three, cross, Matrix.cons_val_zero, Matrix.cons_val_one, Matrix.cons_val_two, Matrix.cons_val,
      Matrix.head_cons, Matrix.tail_cons]
    linear_combination e + 0.07 * w' * h1
  have hu : ∀ j, ((axisRotation 2 yaw).transpose.mulVec v) j = if j = 2 then v 2 else inBaseFrame yaw v j := by
    intro j
    fin_cases j <;> simp [axisRotation, inBaseFrame, Matrix.mulVec, dotProduct, Fin.sum_univ_three]
  rw [hw]
  have e0 := hu 0
  have e1 := hu 1
  have e2 := hu 2
  rw [if_neg (by decide)] at e0 e1
  rw [if_pos rfl] at e2
  fin_cases i
  · refine key _ _ _ _ _ ?_
    simp only [Matrix.mulVec, dotProduct, Fin.sum_univ_three] at e0 e1 e2 ⊢
    rw [e0, e1, e2]
    simp [wheelRadius, wheelYaw, wheelPosition, urdfWheels]
    norm_num
    ring
  · refine key _ _ _ _ _ ?_
    simp only [Matrix.mulVec, dotProduct, Fin.sum_univ_three] at e0 e1 e2 ⊢
    rw [e0, e1, e2]
    simp [wheelRadius, wheelYaw, wheelPosition, urdfWheels]
    norm_num
    ring
  · refine key _ _ _ _ _ ?_
    simp only [Matrix.mulVec, dotProduct, Fin.sum_univ_three] at e0 e1 e2 ⊢
    rw [e0, e1, e2]
    simp [wheelRadius, wheelYaw, wheelPosition, urdfWheels]
    norm_num
    ring

/-- The matrix of the wheels can be computed. -/
example : ∃ M, getRootMotionToWheelsTransform = .ok M := ⟨_, rfl⟩

/-! ## C89 -/

section
variable {K : Type} [Field K] [LinearOrder K] [IsStrictOrderedRing K]

omit [IsStrictOrderedRing K] in
/-- What the correction of a planar model computes. -/
theorem correctPlanar_eq {g : Coords K .planar} {command : RobotCommand K} {p v : Fin 3 → K} {q u : Fin jointsDof → K} {T : K}
    (hp : g.root_pose = fun i => .fin (p i)) (hq : g.joint_angles = fun i => .fin (q i))
    (hv : command.base_velocities = fun i => .fin (v i)) (hu : command.joint_angles = fun i => .fin (u i))
    (hT : command.time_interval = .fin T) (hT0 : T ≠ 0) (t : K) :
    correctPlanar g command (.fin t) = .ok
      { root_pose := fun i => .fin (p i + t * v i), joint_angles := fun i => .fin (q i + (u i - q i) * t / T) } := by
  have hs : ∀ (p : Fin 3 → Dbl K) (x y : Dbl K), setRootPosition .planar p ![x, y, .fin 0] = .ok ![x, y, p 2] := by
    intro p x y
    show (assertThat ((Dbl.fin (0 : K)).isZero = true) >>= fun _ => _) = _
    rw [assertThat_true (by simp [Dbl.isZero]), ok_bind]
    rfl
  have ho : ∀ (p : Fin 3 → Dbl K) (z : Dbl K), setPlanarOrientation p ![.fin 0, .fin 0, z] = .ok ![p 0, p 1, z] := by
    intro p z
    show (assertThat ((Dbl.fin (0 : K)).isZero = true ∧ (Dbl.fin (0 : K)).isZero = true) >>= fun _ => _) = _
    rw [assertThat_true (by simp [Dbl.isZero]), ok_bind]
    rfl
  show (setRootPosition .planar g.root_pose ![_, _, .fin 0] >>= fun p => setPlanarOrientation p ![.fin 0, .fin 0, _] >>= fun p => _) = _
  erw [hs, ok_bind, ho, ok_bind]
  rw [hp, hq, hv, hu, hT]
  unfold getRootPosition getPlanarOrientation
  simp only [fin_mul, fin_add, fin_sub, fin_div hT0]
  rw [pure_eq_ok]
  congr 2
  funext i
  change Fin 3 at i
  fin_cases i <;> rfl

omit [IsStrictOrderedRing K] in
theorem correct_planar (m : IkModel K .planar) (command : RobotCommand K) (t : Dbl K) :
    m.correct command t = if .fin 0 < t then
        match correctPlanar m.generalized_coordinates command t with
        | .error e => (m, .error e)
        | .ok g => (m.updateState g, .ok ())
      else (m, .ok ()) := rfl

omit [IsStrictOrderedRing K] in
theorem correct_other {root : Root} (hr : root ≠ .planar) (m : IkModel K root) (command : RobotCommand K) (t : Dbl K) :
    m.correct command t = if .fin 0 < t then (m, .error .thrown) else (m, .ok ()) := by
  cases root
  · rfl
  · rfl
  · exact absurd rfl hr

omit [IsStrictOrderedRing K] in
/-- **C89.** Correction of a planar model: the root moves with the velocity of the command, and every joint moves towards its
commanded angle with the velocity with which it would have reached it in the time interval of the command. The kinematic
data are updated; nothing else changes. -/
theorem C89_correct (m : IkModel K .planar) (command : RobotCommand K) {p v : Fin 3 → K} {q u : Fin jointsDof → K} {T t : K}
    (hp : m.generalized_coordinates.root_pose = fun i => .fin (p i)) (hq : m.generalized_coordinates.joint_angles = fun i => .fin (q i))
    (hv : command.base_velocities = fun i => .fin (v i)) (hu : command.joint_angles = fun i => .fin (u i))
    (hT : command.time_interval = .fin T) (hT0 : T ≠ 0) (ht : 0 < t) :
    ∃ (p' : Fin 3 → K) (q' : Fin jointsDof → K), (∀ i, p' i = p i + t * v i) ∧ (∀ i, (q' i - q i) * T = t * (u i - q i)) ∧
      m.correct command (.fin t) = (m.updateState ⟨fun i => .fin (p' i), fun i => .fin (q' i)⟩, .ok ()) := by
  refine ⟨fun i => p i + t * v i, fun i => q i + (u i - q i) * t / T, fun i => rfl, fun i => ?_, ?_⟩
  · show (q i + (u i - q i) * t / T - q i) * T = _
    field_simp
    ring
  · rw [correct_planar, if_pos (fin_lt.2 ht), correctPlanar_eq hp hq hv hu hT hT0 t]

omit [IsStrictOrderedRing K] in
/-- **C89.** The other function first sets the given coordinates. -/
theorem C89_correctFrom (m : IkModel K .planar) (g : Coords K .planar) (command : RobotCommand K) {p v : Fin 3 → K}
    {q u : Fin jointsDof → K} {T t : K}
    (hp : g.root_pose = fun i => .fin (p i)) (hq : g.joint_angles = fun i => .fin (q i))
    (hv : command.base_velocities = fun i => .fin (v i)) (hu : command.joint_angles = fun i => .fin (u i))
    (hT : command.time_interval = .fin T) (hT0 : T ≠ 0) (ht : 0 < t) :
    ∃ (p' : Fin 3 → K) (q' : Fin jointsDof → K), (∀ i, p' i = p i + t * v i) ∧ (∀ i, (q' i - q i) * T = t * (u i - q i)) ∧
      m.correctFrom g command (.fin t) = (m.updateState ⟨fun i => .fin (p' i), fun i => .fin (q' i)⟩, .ok ()) := by
  obtain ⟨p', q', h1, h2, h3⟩ := C89_correct { m with generalized_coordinates := g } command hp hq hv hu hT hT0 ht
  refine ⟨p', q', h1, h2, ?_⟩
  unfold IkModel.correctFrom
  rw [if_pos (fin_lt.2 ht), h3]
  rfl

variable {root : Root} (m : IkModel K root) (g : Coords K root) (command : RobotCommand K) {dt : Dbl K}

omit [IsStrictOrderedRing K] in
/-- **C89.** Nothing is corrected for an interval which is not positive (or not a number); the second function still sets the
coordinates. The models with another root reject positive intervals. -/
theorem C89_other :
    (¬ .fin 0 < dt → m.correct command dt = (m, .ok ()) ∧ m.correctFrom g command dt = (m.updateState g, .ok ())) ∧
    (.fin 0 < dt → root ≠ .planar → m.correct command dt = (m, .error .thrown) ∧ (m.correctFrom g command dt).2 = .error .thrown) := by
  refine ⟨fun h => ⟨?_, ?_⟩, fun h hr => ⟨?_, ?_⟩⟩
  · cases root
    · rw [correct_other (by decide), if_neg h]
    · rw [correct_other (by decide), if_neg h]
    · rw [correct_planar, if_neg h]
  · unfold IkModel.correctFrom
    rw [if_neg h]
  · rw [correct_other hr, if_pos h]
  · unfold IkModel.correctFrom
    rw [if_pos h, correct_other hr, if_pos h]

omit [IsStrictOrderedRing K] in
/-- **C89.** The kinematic data correspond to the coordinates after every function which sets the coordinates and returns,
and remain so after saving of the state and after a failing correction by the first function. -/
theorem C89_upToDate (h : UpToDate m) :
    UpToDate (m.updateState g) ∧ UpToDate m.saveCurrentState ∧ UpToDate (m.correct command dt).1 ∧
    ((m.correctFrom g command dt).2 = .ok () → UpToDate (m.correctFrom g command dt).1) := by
  have key : ∀ m' : IkModel K root, (UpToDate m' ∨ .fin 0 < dt ∧ (m'.correct command dt).2 = .ok ()) → UpToDate (m'.correct command dt).1 := by
    intro m' hm
    by_cases hr : root = .planar
    · subst hr
      rw [correct_planar] at hm ⊢
      by_cases hd : Dbl.fin 0 < dt
      · rw [if_pos hd] at hm ⊢
        generalize correctPlanar m'.generalized_coordinates command dt = r at hm ⊢
        cases r with
        | ok g => rfl
        | error e =>
          rcases hm with hm | hm
          · exact hm
          · cases hm.2
      · rw [if_neg hd] at hm ⊢
        exact hm.resolve_right fun h => hd h.1
    · rw [correct_other hr] at hm ⊢
      by_cases hd : Dbl.fin 0 < dt
      · rw [if_pos hd] at hm ⊢
        rcases hm with hm | hm
        · exact hm
        · cases hm.2
      · rw [if_neg hd] at hm ⊢
        exact hm.resolve_right fun h => hd h.1
  refine ⟨rfl, h, key m (Or.inl h), fun hr => ?_⟩
  unfold IkModel.correctFrom at hr ⊢
  by_cases hd : Dbl.fin 0 < dt
  · rw [if_pos hd] at hr ⊢
    exact key _ (Or.inr ⟨hd, hr⟩)
  · rw [if_neg hd] at hr ⊢
    rfl

omit [IsStrictOrderedRing K] in
/-- **C89.** The second function, if it rejects the interval, leaves coordinates behind which the kinematic data do not
correspond to. -/
theorem C89_upToDate_refuted (hr : root ≠ .planar) (hd : .fin 0 < dt) (h : UpToDate m) (hg : g ≠ m.generalized_coordinates) :
    ¬ UpToDate (m.correctFrom g command dt).1 := by
  intro hu
  unfold IkModel.correctFrom at hu
  rw [if_pos hd, ((C89_other { m with generalized_coordinates := g } g command).2 hd hr).1] at hu
  have hu : m.rbdl_model = g := hu
  exact hg (hu.symm.trans h)

/-- A correction of the moved model by half a second. -/
example : ∃ g', movedModel.correct ⟨restCoords.joint_angles, fun _ => .fin 0, ![.fin 1, .fin 0, .fin (-2)], .fin 1⟩ (.fin (1 / 2)) =
    (movedModel.updateState g', .ok ()) ∧ g'.root_pose = fun i => .fin ((![1 / 2, 0, -1] : Fin 3 → ℚ) i) := by
  obtain ⟨p', q', h1, -, h⟩ := C89_correct movedModel ⟨restCoords.joint_angles, fun _ => .fin 0, ![.fin 1, .fin 0, .fin (-2)], .fin 1⟩
    (p := 0) (v := ![1, 0, -2]) (t := 1 / 2) rfl rest_angles (by funext i; fin_cases i <;> rfl) rest_angles rfl one_ne_zero (by norm_num)
  refine ⟨_, h, ?_⟩
  funext i
  change Fin 3 at i
  show Dbl.fin (p' i) = _
  rw [h1]
  congr 1
  fin_cases i <;> norm_num

/-! ## C90 -/

omit [IsStrictOrderedRing K] in
/-- **C90.** The position of the root which has been set is the one which is read, and its orientation does not change; a
planar model throws if the height is not zero. -/
theorem C90_position (p : Fin root.dof → Dbl K) (x : Fin 3 → Dbl K) :
    (root ≠ .planar ∨ x 2 = .fin 0 → ∃ p', setRootPosition root p x = .ok p' ∧ getRootPosition root p' = x ∧
      ∀ i : Fin root.dof, (if root = .planar then 2 else 3) ≤ (i : ℕ) → p' i = p i) ∧
    (root = .planar ∧ x 2 ≠ .fin 0 → setRootPosition root p x = .error .thrown) := by
  cases root with
  | planar =>
    refine ⟨fun h => ?_, fun h => ?_⟩
    · have h := h.resolve_left (by simp)
      refine ⟨![x 0, x 1, p (2 : Fin 3)], ?_, ?_, fun i hi => ?_⟩
      · unfold setRootPosition
        simp only
        rw [assertThat_true (by rw [h]; simp [Dbl.isZero])]
        rfl
      · funext i
        fin_cases i
        · rfl
        · rfl
        · exact h.symm
      · change Fin 3 at i
        fin_cases i
        · exact absurd hi (by decide)
        · exact absurd hi (by decide)
        · rfl
    · unfold setRootPosition
      simp only
      rw [assertThat_false]
      · rfl
      · intro hz
        refine h.2 ?_
        cases hx : x 2 with
        | fin y =>
          rw [hx] at hz
          rw [show y = 0 by simpa [Dbl.isZero] using hz]
        | _ => rw [hx] at hz; cases hz
  | torso =>
    refine ⟨fun _ => ⟨_, rfl, ?_, fun i hi => ?_⟩, fun h => by cases h.1⟩
    · funext i
      fin_cases i <;> rfl
    · change Fin 6 at i
      fin_cases i <;> first | rfl | exact absurd hi (by decide)
  | tibia =>
    refine ⟨fun _ => ⟨_, rfl, ?_, fun i hi => ?_⟩, fun h => by cases h.1⟩
    · funext i
      fin_cases i <;> rfl
    · change Fin 6 at i
      fin_cases i <;> first | rfl | exact absurd hi (by decide)

omit [IsStrictOrderedRing K] in
/-- **C90.** The orientation of a planar root which has been set is the one which is read, and its position does not change;
rotations which are not about the vertical axis are rejected. -/
theorem C90_planar (p rpy : Fin 3 → Dbl K) :
    (rpy 0 = .fin 0 ∧ rpy 1 = .fin 0 → ∃ p', setPlanarOrientation p rpy = .ok p' ∧ getPlanarOrientation p' = rpy ∧
      getRootPosition .planar p' = getRootPosition .planar p) ∧
    (¬ (rpy 0 = .fin 0 ∧ rpy 1 = .fin 0) → setPlanarOrientation p rpy = .error .thrown) := by
  have hz : ∀ x : Dbl K, x.isZero = true ↔ x = .fin 0 := by
    intro x
    cases x <;> simp [Dbl.isZero]
  unfold setPlanarOrientation
  refine ⟨fun h => ⟨_, by rw [assertThat_true (by rw [hz, hz]; exact h)]; rfl, ?_, ?_⟩, fun h => ?_⟩
  · funext i
    fin_cases i
    · exact h.1.symm
    · exact h.2.symm
    · rfl
  · funext i
    fin_cases i <;> rfl
  · rw [assertThat_false (by rw [hz, hz]; exact h)]
    rfl

end

/-- **C90.** With six degrees of freedom of the root the orientation which is read is the rotation which has been set, although
not necessarily with the same angles (see C34); the position does not change. -/
theorem C90_orientation (ea : Mat3 ℝ → Fin 3 → Fin 3 → Fin 3 → (Fin 3 → ℝ)) (hea : ExtractsAngles ea) (p : Fin 6 → ℝ) (rpy : Fin 3 → ℝ) :
    ∃ p' e, setRootOrientation ea p rpy = .ok p' ∧ getRootOrientation ea p' = .ok e ∧
      convertEulerAnglesToMatrix e .rpy = convertEulerAnglesToMatrix rpy .rpy ∧ (∃ R, convertEulerAnglesToMatrix e .rpy = .ok R) ∧ p' 0 = p 0 ∧ p' 1 = p 1 ∧ p' 2 = p 2 := by
  obtain ⟨e1, R1, h1, h1', h1''⟩ := C34_convert ea hea rpy .rpy .ypr (by decide) (by decide)
  obtain ⟨e2, R2, h2, h2', h2''⟩ := C34_convert ea hea e1 .ypr .rpy (by decide) (by decide)
  have e1' : ![e1 0, e1 1, e1 2] = e1 := by
    funext i
    fin_cases i <;> rfl
  refine ⟨![p 0, p 1, p 2, e1 0, e1 1, e1 2], e2, ?_, ?_, ?_, ⟨R2, h2''⟩, rfl, rfl, rfl⟩
  · unfold setRootOrientation
    rw [h1]
    rfl
  · show convertEulerAngles ea ![e1 0, e1 1, e1 2] .ypr .rpy = _
    rw [e1', h2]
  · rw [h2'', h1', ← h2', h1'']

/-! ## C91 -/

theorem jointId_injective (root : Root) {j j' : Joint} (h : jointId root j = jointId root j') : j = j' := by
  cases root <;> cases j <;> cases j' <;> first | rfl | exact absurd h (by decide)

section
variable {K : Type} {out inp : Root} {unset : ℕ → ℕ → K} {A : Mat K}

theorem reorder_fold (h : inp.dof + jointsDof ≤ A.cols) (l : List Joint) (B : Mat K) :
    ∃ B', l.foldlM (fun (B : Mat K) j => do
      require (inp.dof + jointId inp j < A.cols)
      pure ⟨B.rows, B.cols, fun i k => if k = out.dof + jointId out j then A.e i (inp.dof + jointId inp j) else B.e i k⟩) B = .ok B' ∧
      B'.rows = B.rows ∧ B'.cols = B.cols ∧ (∀ j ∈ l, ∀ i, B'.e i (out.dof + jointId out j) = A.e i (inp.dof + jointId inp j)) ∧
      ∀ k, (∀ j ∈ l, k ≠ out.dof + jointId out j) → ∀ i, B'.e i k = B.e i k := by
  induction l generalizing B with
  | nil => exact ⟨B, rfl, rfl, rfl, fun j hj => (by cases hj), fun k _ i => rfl⟩
  | cons a l ih =>
    obtain ⟨B', e, e1, e2, e3, e4⟩ := ih
      ⟨B.rows, B.cols, fun i k => if k = out.dof + jointId out a then A.e i (inp.dof + jointId inp a) else B.e i k⟩
    refine ⟨B', ?_, e1, e2, fun j hj i => ?_, fun k hk i => ?_⟩
    · rw [List.foldlM_cons, require_true (by have := (jointId inp a).2; omega), ok_bind, pure_eq_ok, ok_bind]
      exact e
    · by_cases hj' : j ∈ l
      · exact e3 j hj' i
      · obtain rfl : j = a := (List.mem_cons.1 hj).resolve_right hj'
        rw [e4 _ (fun j' hj'' he => hj' (by
          rw [jointId_injective out (Fin.ext (Nat.add_left_cancel he))]; exact hj'')) i]
        simp
    · rw [e4 k (fun j hj => hk j (by simp [hj])) i]
      show (if _ then _ else _) = _
      rw [if_neg (hk a (by simp))]

theorem mem_reordered (j : Joint) : j ∈ reorderedJoints := by cases j <;> decide

/-- **C91.** The column of every joint becomes the column of the same joint in the other model; the columns of the root are
unset. -/
theorem C91_reorder (h : A.cols = inp.dof + jointsDof) :
    ∃ B, reorderJointsColumns out inp unset A = .ok B ∧ B.rows = A.rows ∧ B.cols = out.dof + jointsDof ∧
      (∀ j i, B.e i (out.dof + jointId out j) = A.e i (inp.dof + jointId inp j)) ∧ ∀ k, k < out.dof → ∀ i, B.e i k = unset i k := by
  obtain ⟨B, e, e1, e2, e3, e4⟩ := reorder_fold (out := out) (A := A) h.ge reorderedJoints ⟨A.rows, out.dof + jointsDof, unset⟩
  exact ⟨B, e, e1, e2, fun j => e3 j (mem_reordered j), fun k hk => e4 k fun j _ => by omega⟩

/-- **C91.** Reordering back restores the columns of the joints. -/
theorem C91_roundtrip (unset' : ℕ → ℕ → K) (h : A.cols = inp.dof + jointsDof) :
    ∃ B C, reorderJointsColumns out inp unset A = .ok B ∧ reorderJointsColumns inp out unset' B = .ok C ∧
      C.rows = A.rows ∧ C.cols = A.cols ∧ ∀ k, inp.dof ≤ k → k < A.cols → ∀ i, C.e i k = A.e i k := by
  obtain ⟨B, e, e1, e2, e3, -⟩ := C91_reorder (out := out) (unset := unset) h
  obtain ⟨C, f, f1, f2, f3, -⟩ := C91_reorder (out := inp) (inp := out) (unset := unset') e2
  refine ⟨B, C, e, f, f1.trans e1, f2.trans h.symm, fun k h1 h2 i => ?_⟩
  obtain ⟨j, hj⟩ := (C63_urdf (K := ℚ) inp fun _ => 0).1 ⟨k - inp.dof, by omega⟩
  have hk : k = inp.dof + jointId inp j := by rw [← hj]; simp; omega
  rw [hk, f3 j i, e3 j i]

/-- The knee is the fifth joint of the default model and the first one of the planar model. -/
example {A B : Mat K} (h : A.cols = 21) (e : reorderJointsColumns .planar .torso unset A = .ok B) (i : ℕ) : B.e i 3 = A.e i 10 := by
  obtain ⟨B', e', -, -, h3, -⟩ := C91_reorder (out := .planar) (inp := .torso) (unset := unset) (A := A) h
  cases e.symm.trans e'
  exact h3 .KneePitch i

end

end Ik

end Humoto
