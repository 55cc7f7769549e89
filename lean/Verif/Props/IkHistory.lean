import Verif.Spec.IkHistory
import Verif.Props.PepperIk

/-!
# C88, C91: histories of the model of Pepper and the order of joints
-/

namespace Humoto

namespace Ik

open Spec.Ik

/-- **C91.** The index of every joint is its number in the URDF file of the model. -/
theorem C91_indices (root : Root) (j : Joint) :
    ((urdfJoints root).flatMap JointTree.order)[(jointId root j : ℕ)]? = some j ∧
    ((urdfJoints root).flatMap JointTree.order).length = jointsDof ∧ ((urdfJoints root).flatMap JointTree.order).Nodup := by
  cases root <;> simp only [urdfJoints, urdfHead, urdfArms, urdfArm, JointTree.order, List.flatMap_cons, List.flatMap_nil, List.append_nil,
    List.cons_append, List.nil_append] <;> refine ⟨?_, ?_, ?_⟩ <;> first | decide | (cases j <;> decide)

/-- The knee is moved by the hip in the default model. -/
example : (urdfJoints .torso).flatMap JointTree.order =
    [.HeadYaw, .HeadPitch, .HipRoll, .HipPitch, .KneePitch, .LShoulderPitch, .LShoulderRoll, .LElbowYaw, .LElbowRoll, .LWristYaw,
     .RShoulderPitch, .RShoulderRoll, .RElbowYaw, .RElbowRoll, .RWristYaw] := by
  simp [urdfJoints, urdfHead, urdfArms, urdfArm, JointTree.order]

section
variable {K : Type} [Field K] [LinearOrder K] {root : Root}

theorem after_fixed (m : IkModel K root) (c : Call K root) :
    (c.after m).kinematics = m.kinematics ∧ (c.after m).constraints = m.constraints ∧
    (c.after m).root_motion_to_wheels = m.root_motion_to_wheels ∧ (c ≠ .save → (c.after m).saved_state = m.saved_state) := by
  have key : ∀ (m : IkModel K root) command dt, (m.correct command dt).1.kinematics = m.kinematics ∧
      (m.correct command dt).1.constraints = m.constraints ∧ (m.correct command dt).1.root_motion_to_wheels = m.root_motion_to_wheels ∧
      (m.correct command dt).1.saved_state = m.saved_state := by
    intro m command dt
    cases root
    · rw [correct_other (by decide)]; split <;> simp
    · rw [correct_other (by decide)]; split <;> simp
    · rw [correct_planar]
      split
      · split <;> exact ⟨rfl, rfl, rfl, rfl⟩
      · simp
  cases c with
  | update g => exact ⟨rfl, rfl, rfl, fun _ => rfl⟩
  | save => exact ⟨rfl, rfl, rfl, fun h => absurd rfl h⟩
  | correct command dt =>
    obtain ⟨a, b, c, d⟩ := key m command dt
    exact ⟨a, b, c, fun _ => d⟩
  | correctFrom g command dt =>
    unfold Call.after IkModel.correctFrom
    simp only
    split
    · obtain ⟨a, b, c, d⟩ := key { m with generalized_coordinates := g } command dt
      exact ⟨a, b, c, fun _ => d⟩
    · exact ⟨rfl, rfl, rfl, fun _ => rfl⟩

theorem afterCalls_fixed (calls : List (Call K root)) : ∀ m : IkModel K root,
    (afterCalls m calls).kinematics = m.kinematics ∧ (afterCalls m calls).constraints = m.constraints ∧
    (afterCalls m calls).root_motion_to_wheels = m.root_motion_to_wheels ∧
    (Call.save ∉ calls → (afterCalls m calls).saved_state = m.saved_state) := by
  induction calls with
  | nil => exact fun m => ⟨rfl, rfl, rfl, fun _ => rfl⟩
  | cons c l ih =>
    intro m
    obtain ⟨a, b, d, e⟩ := ih (c.after m)
    obtain ⟨a', b', d', e'⟩ := after_fixed m c
    refine ⟨a.trans a', b.trans b', d.trans d', fun h => ?_⟩
    rw [List.mem_cons, not_or] at h
    exact (e h.2).trans (e' fun h' => h.1 h'.symm)

/-- **C88.** Through every history the saved state is the one at the time of the last saving, none if there was no saving;
the limits of the robot do not change. -/
theorem C88_saved (m : IkModel K root) (before after : List (Call K root)) (h : .save ∉ after) :
    (let m' := afterCalls m before
     (afterCalls m (before ++ .save :: after)).saved_state =
       some ⟨m'.getBasePosition, m'.getBaseOrientation, m'.generalized_coordinates⟩) ∧
    (m.saved_state = none → (afterCalls m after).saved_state = none) ∧
    ∀ calls, (afterCalls m calls).constraints = m.constraints := by
  refine ⟨?_, fun hm => ((afterCalls_fixed after m).2.2.2 h).trans hm, fun calls => (afterCalls_fixed calls m).2.1⟩
  have e : afterCalls m (before ++ .save :: after) = afterCalls (afterCalls m before).saveCurrentState after := by
    unfold afterCalls
    rw [List.foldl_append]
    rfl
  rw [e]
  exact (afterCalls_fixed after _).2.2.2 h

/-- The second saving counts, also when a correction fails afterwards. -/
example (m : IkModel K .torso) (f g h : Coords K .torso) (command : RobotCommand K) :
    (afterCalls m [.update f, .save, .update g, .save, .update h, .correct command (.fin 1)]).saved_state =
      some ⟨m.kinematics.basePosition g, m.kinematics.baseOrientation g, g⟩ :=
  (C88_saved m [.update f, .save, .update g] [.update h, .correct command (.fin 1)] (by simp)).1

end

section
variable {K : Type} [Field K] [LinearOrder K] [IsStrictOrderedRing K] {root : Root} {p p' : Fin 3 → K} {R R' : Mat3 K} {a b : Fin jointsDof → K}

/-- **C88.** A command which is issued after any history has the mean velocities of the motion between the pose at the time of
the last saving and the current one. -/
theorem C88_motion (m : IkModel K root) (before after : List (Call K root)) (h : .save ∉ after)
    (hp : (afterCalls m before).getBasePosition = fun i => .fin (p i)) (hR : (afterCalls m before).getBaseOrientation = R.map .fin)
    (ha : (afterCalls m before).generalized_coordinates.joint_angles = fun i => .fin (a i))
    (m' : IkModel K root) (hm : m' = afterCalls m (before ++ .save :: after))
    (hp' : m'.getBasePosition = fun i => .fin (p' i)) (hR' : m'.getBaseOrientation = R'.map .fin)
    (hb : m'.generalized_coordinates.joint_angles = fun i => .fin (b i)) {t : K} (ht : 0 < t) (command : RobotCommand K)
    (hok : (m'.getRobotCommand command (.fin t)).2 = .ok ()) :
    ∃ v, MeanVelocity p p' R R' t v ∧ (m'.getRobotCommand command (.fin t)).1.base_velocities = fun i => .fin (v i) := by
  have hs := (C88_saved m before after h).1
  rw [← hm] at hs
  obtain ⟨v, w, h1, h2, h3, h4⟩ := C88_command hs hp hR hp' hR' ha hb ht command
  refine ⟨v, h1, ?_⟩
  by_cases hc : AnglesAllowed m'.constraints (fun i => .fin (b i)) ∧ SlowEnough m'.constraints a b t ∧ WheelsAllowed m'.constraints (fun i => .fin (w i))
  · rw [h3 hc]
  · have := h4 hc
    rw [this] at hok
    cases hok

end

end Ik

end Humoto
