import Mathlib.Tactic.Linarith
import Mathlib.Tactic.FieldSimp
import Mathlib.Tactic.Ring
import Mathlib.Tactic.FinCases
import Mathlib.Tactic.NormNum
import Verif.Spec.PepperIk
import Verif.Lemmas.Constraints

/-!
# Lemmas on the limits and the commands of Pepper
-/

namespace Humoto

namespace Ik

open Spec.Ik

theorem forEach_iff {n : ℕ} {f : Fin n → Res Unit} {P : Fin n → Prop} (h : ∀ i, P i → f i = .ok ())
    (ht : ∀ i, ¬ P i → f i = .error .thrown) :
    (forEach f = .ok () ↔ ∀ i, P i) ∧ (forEach f = .error .thrown ↔ ¬ ∀ i, P i) := by
  have key : ∀ l : List (Fin n), ((∀ i ∈ l, P i) → l.forM f = .ok ()) ∧ ((¬ ∀ i ∈ l, P i) → l.forM f = .error .thrown) := by
    intro l
    induction l with
    | nil => exact ⟨fun _ => rfl, fun h => absurd (fun i hi => by cases hi) h⟩
    | cons a l ih =>
      by_cases ha : P a
      · have e : (a :: l).forM f = l.forM f := by rw [List.forM, h a ha, ok_bind]
        rw [e]
        simp only [List.mem_cons, forall_eq_or_imp, ha, true_and]
        exact ih
      · have e : (a :: l).forM f = .error .thrown := by rw [List.forM, ht a ha]; rfl
        rw [e]
        exact ⟨fun h => absurd (h a (by simp)) ha, fun _ => rfl⟩
  obtain ⟨k1, k2⟩ := key (List.finRange n)
  have e : (∀ i ∈ List.finRange n, P i) ↔ ∀ i, P i := by simp
  rw [e] at k1 k2
  unfold forEach
  by_cases hP : ∀ i, P i
  · rw [k1 hP]; exact ⟨⟨fun _ => hP, fun _ => rfl⟩, ⟨fun h => (by cases h), fun h => absurd hP h⟩⟩
  · rw [k2 hP]; exact ⟨⟨fun h => (by cases h), fun h => absurd h hP⟩, ⟨fun _ => hP, fun _ => rfl⟩⟩

section
variable {K : Type} [Field K] [LinearOrder K]

theorem fin_lt {x y : K} : (Dbl.fin x < Dbl.fin y) ↔ x < y := Iff.rfl
theorem fin_add (x y : K) : Dbl.fin x + Dbl.fin y = Dbl.fin (x + y) := rfl
theorem fin_sub (x y : K) : Dbl.fin x - Dbl.fin y = Dbl.fin (x - y) := by rw [sub_eq_add_neg]; rfl
theorem fin_mul (x y : K) : Dbl.fin x * Dbl.fin y = Dbl.fin (x * y) := rfl
theorem fin_abs (x : K) : (Dbl.fin x).abs = Dbl.fin |x| := rfl
theorem fin_div {x y : K} (h : y ≠ 0) : Dbl.fin x / Dbl.fin y = Dbl.fin (x / y) := by
  show Dbl.div _ _ = _
  unfold Dbl.div
  simp only
  rw [if_neg h]

/-- Neither a number. -/
def NotFinite : Dbl K → Prop
  | .fin _ => False
  | _ => True

theorem div_zero_notFinite (x : Dbl K) : NotFinite (x / Dbl.fin 0) := by
  show NotFinite (Dbl.div _ _)
  cases x <;> unfold Dbl.div <;> simp only [if_true, lt_irrefl, if_false] <;> try trivial
  split
  · trivial
  · split <;> trivial

theorem mul_notFinite (x : Dbl K) {y : Dbl K} (h : NotFinite y) : NotFinite (x * y) := by
  have hi : ∀ (s : Bool) (z : K), NotFinite (Dbl.infMul s z) := by
    intro s z
    unfold Dbl.infMul
    split
    · trivial
    · split <;> trivial
  show NotFinite (Dbl.mul x y)
  cases x <;> cases y <;> unfold Dbl.mul <;> first | exact hi _ _ | trivial

theorem add_notFinite {x y : Dbl K} (hx : NotFinite x) : NotFinite (x + y) := by
  show NotFinite (Dbl.add x y)
  cases x <;> cases y <;> first | trivial | cases hx

theorem between_notFinite {lo hi : K} {x : Dbl K} (h : NotFinite x) : ¬ Between lo hi x := by
  cases x <;> first | (exact fun h => h) | cases h

theorem between_iff {lo hi : K} (x : Dbl K) :
    Between lo hi x ↔ x.isNan = false ∧ ¬ x < .fin lo ∧ ¬ .fin hi < x := by
  cases x with
  | fin x => show lo ≤ x ∧ x ≤ hi ↔ _; rw [fin_lt, fin_lt, not_lt, not_lt]; exact ⟨fun h => ⟨rfl, h⟩, fun h => h.2⟩
  | pinf => exact ⟨fun h => h.elim, fun h => h.2.2 trivial⟩
  | ninf => exact ⟨fun h => h.elim, fun h => h.2.1 trivial⟩
  | nan => exact ⟨fun h => h.elim, fun h => by cases h.1⟩

theorem positions_iff {n : ℕ} (c : Constraints K n) (q : Fin n → Dbl K) :
    (c.checkJointPositions q = .ok () ↔ AnglesAllowed c q) ∧ (c.checkJointPositions q = .error .thrown ↔ ¬ AnglesAllowed c q) := by
  refine forEach_iff (fun i h => ?_) (fun i h => ?_) <;> rw [between_iff] at h
  · simp only [h.1, h.2.1, h.2.2, if_false, Bool.false_eq_true]; rfl
  · simp only
    by_cases h1 : (q i).isNan = true
    · rw [if_pos h1]; rfl
    · rw [if_neg h1]
      by_cases h2 : q i < .fin (c.joint_position_bounds_min i - c.error_tol)
      · rw [if_pos h2]; rfl
      · rw [if_neg h2, if_pos (by by_contra h3; exact h ⟨by simpa using h1, h2, h3⟩)]; rfl

theorem wheels_iff {n : ℕ} (c : Constraints K n) (w : Fin 3 → Dbl K) :
    (c.checkWheelVelocities w = .ok () ↔ WheelsAllowed c w) ∧ (c.checkWheelVelocities w = .error .thrown ↔ ¬ WheelsAllowed c w) := by
  refine forEach_iff (fun i h => ?_) (fun i h => ?_) <;> rw [between_iff] at h
  · simp only [h.1, h.2.1, h.2.2, if_false, Bool.false_eq_true, or_self]; rfl
  · simp only
    by_cases h1 : (w i).isNan = true
    · rw [if_pos h1]; rfl
    · rw [if_neg h1, if_pos (by by_contra h3; rw [not_or] at h3; exact h ⟨by simpa using h1, h3⟩)]; rfl

theorem velocities_iff {n : ℕ} (c : Constraints K n) (q q' : Fin n → Dbl K) (dt : Dbl K) :
    (c.checkJointVelocities q q' dt = .ok () ↔ ∀ i, ¬ .fin (c.joint_velocity_bounds i) < (q' i - q i).abs / dt) ∧
    (c.checkJointVelocities q q' dt = .error .thrown ↔ ¬ ∀ i, ¬ .fin (c.joint_velocity_bounds i) < (q' i - q i).abs / dt) := by
  refine forEach_iff (fun i h => ?_) (fun i h => ?_)
  · simp only; rw [if_neg h]; rfl
  · simp only; rw [if_pos (not_not.1 h)]; rfl

/-- The outcome of a check is one of two. -/
theorem ok_or_thrown {r : Res Unit} {P : Prop} (h : (r = .ok () ↔ P) ∧ (r = .error .thrown ↔ ¬ P)) : r = .ok () ∨ r = .error .thrown := by
  by_cases hP : P
  · exact Or.inl (h.1.2 hP)
  · exact Or.inr (h.2.2 hP)

theorem mulD_fin (A B : Mat3 K) : mulD (A.map .fin) (B.map .fin) = (A * B).map .fin := by
  funext i j
  show _ = Dbl.fin ((A * B) i j)
  rw [Matrix.mul_apply, Fin.sum_univ_three]
  rfl

theorem mulVecD_fin (A : Mat3 K) (v : Fin 3 → K) : mulVecD (A.map .fin) (fun i => .fin (v i)) = fun i => .fin (A.mulVec v i) := by
  funext i
  show _ = Dbl.fin (A.mulVec v i)
  rw [Matrix.mulVec, dotProduct, Fin.sum_univ_three]
  rfl

theorem crossD_fin (v w : Fin 3 → K) : crossD (fun i => .fin (v i)) (fun i => .fin (w i)) = fun i => .fin (cross v w i) := by
  funext i
  fin_cases i <;> simp [crossD, cross, fin_mul, fin_sub]

theorem rotationErrorD_fin (A B : Mat3 K) :
    rotationErrorD (A.map .fin) (B.map .fin) = fun i => .fin (getRotationErrorAngleAxis A B i) := by
  funext i
  unfold rotationErrorD
  simp only [Matrix.map_apply]
  rw [crossD_fin (fun j => A j 0), crossD_fin (fun j => A j 1), crossD_fin (fun j => A j 2)]
  rfl

/-- A command computed without special values. -/
theorem command_finite {root : Root} {m : IkModel K root} {s : SavedState K root} (hs : m.saved_state = some s) {p p' : Fin 3 → K}
    {R R' : Mat3 K} (hp : s.base_position = fun i => .fin (p i)) (hR : s.base_orientation = R.map .fin)
    (hp' : m.getBasePosition = fun i => .fin (p' i)) (hR' : m.getBaseOrientation = R'.map .fin) {t : K} (ht : t ≠ 0)
    (command : RobotCommand K) {v w : Fin 3 → K}
    (hv : v = ![(p' 0 - p 0) / t, (p' 1 - p 1) / t, getRotationErrorAngleAxis R R' 2 / t])
    (hw : w = (m.root_motion_to_wheels * R'.transpose).mulVec v) :
    m.getRobotCommand command (.fin t) =
      match m.constraints.checkJointPositions m.generalized_coordinates.joint_angles with
      | .error e => (command, .error e)
      | .ok _ =>
        match m.constraints.checkJointVelocities s.generalized_coordinates.joint_angles m.generalized_coordinates.joint_angles (.fin t) with
        | .error e => (command, .error e)
        | .ok _ =>
          match m.constraints.checkWheelVelocities fun i => .fin (w i) with
          | .error e => (⟨m.generalized_coordinates.joint_angles, fun i => .fin (w i), fun i => .fin (v i), command.time_interval⟩, .error e)
          | .ok _ => (⟨m.generalized_coordinates.joint_angles, fun i => .fin (w i), fun i => .fin (v i), .fin t⟩, .ok ()) := by
  have ev : (![(m.getBasePosition 0 - s.base_position 0) / Dbl.fin t, (m.getBasePosition 1 - s.base_position 1) / Dbl.fin t,
      rotationErrorD s.base_orientation m.getBaseOrientation 2 / Dbl.fin t] : Fin 3 → Dbl K) = fun i => .fin (v i) := by
    rw [hp, hp', hR, hR', rotationErrorD_fin, hv]
    simp only [fin_sub, fin_div ht]
    funext i
    fin_cases i <;> rfl
  have ew : mulVecD (mulD (m.root_motion_to_wheels.map .fin) m.getBaseOrientation.transpose) (fun i => .fin (v i)) =
      fun i => .fin (w i) := by
    rw [hR', hw]
    show mulVecD (mulD _ (R'.transpose.map .fin)) _ = _
    rw [mulD_fin, mulVecD_fin]
  unfold IkModel.getRobotCommand
  rw [hs]
  simp only
  rw [ev, ew]
  cases m.constraints.checkJointPositions m.generalized_coordinates.joint_angles with
  | error e => rfl
  | ok _ =>
    simp only
    cases m.constraints.checkJointVelocities s.generalized_coordinates.joint_angles m.generalized_coordinates.joint_angles (.fin t) with
    | error e => rfl
    | ok _ =>
      simp only
      cases m.constraints.checkWheelVelocities fun i => .fin (w i) <;> rfl

end

end Ik

end Humoto
