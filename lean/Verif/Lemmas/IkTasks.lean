import Verif.Spec.IkTasks
import Verif.Props.Rbdl
import Verif.Props.Rotary

/-!
# Lemmas for the tasks of Pepper IK
-/

namespace Humoto

namespace Ik

open Spec Spec.Ik Spec.Rbdl
open Rbdl (RbdlModel SpatialType)
open Rbdl.Model (TagPartialCoM)
open scoped Matrix

variable {root : Root}

/-! ## The state of the robot -/

theorem compute_idem (d : Rbdl.JointData ℝ) (X : Rbdl.Xform ℝ) (j : Rbdl.Joint ℝ) : (d.compute X j).compute X j = d.compute X j := by
  cases j <;> rfl

theorem update_idem (m : Rbdl.Model ℝ) (T : RbdlModel ℝ) : (m.update T).update T = m.update T := by
  unfold Rbdl.Model.update
  congr 1
  simp only [List.mapIdx_mapIdx]
  congr 1
  funext i d
  exact compute_idem d _ _

theorem update_length (m : Rbdl.Model ℝ) (T : RbdlModel ℝ) : (m.update T).joint_data.length = m.joint_data.length := by
  simp [Rbdl.Model.update]

theorem updated_tree {m : Rbdl.Model ℝ} {T : RbdlModel ℝ} (h : Updated m T) : m.rbdl_model = T := by
  obtain ⟨m0, -, rfl⟩ := h
  rfl

theorem updated_length {m : Rbdl.Model ℝ} {T : RbdlModel ℝ} (h : Updated m T) : m.joint_data.length = T.size := by
  obtain ⟨m0, h, rfl⟩ := h
  rw [update_length, h]

theorem updated_again {m : Rbdl.Model ℝ} {T T' : RbdlModel ℝ} (h : Updated m T) (hs : SameRobot T T') : Updated (m.update T') T' :=
  ⟨m, (updated_length h).trans hs.1.symm, rfl⟩

theorem displaced_zero (g : State root) (x : ℕ → ℝ) : displaced g x 0 = g := by
  unfold displaced
  simp

theorem ready_tree {r : Robot root} (h : Ready r) : r.rbdl_model.rbdl_model = r.kinematics r.state.asVector := updated_tree h.updated

theorem along_zero {r : Robot root} (h : Ready r) (x : ℕ → ℝ) : movedBy r x 0 = r := by
  unfold movedBy Robot.updateState
  rw [displaced_zero]
  obtain ⟨m0, h0, h1⟩ := h.updated
  rw [h1, update_idem, ← h1]

theorem along_tree (r : Robot root) (x : ℕ → ℝ) (s : ℝ) :
    (movedBy r x s).rbdl_model.rbdl_model = r.kinematics (displaced r.state x s).asVector := rfl

theorem displaced_deriv (g : State root) (x : ℕ → ℝ) (i : ℕ) (hi : i < root.dof + jointsDof) :
    HasDerivAt (fun s => (displaced g x s).asVector i) (x i) 0 := by
  have lin : ∀ c : ℝ, HasDerivAt (fun s : ℝ => c + s * x i) (x i) 0 := by
    intro c
    have h := ((hasDerivAt_id (0 : ℝ)).mul_const (x i)).const_add c
    simpa using h
  by_cases h : i < root.dof
  · have e : (fun s => (displaced g x s).asVector i) = fun s => g.root_pose ⟨i, h⟩ + s * x i := by
      funext s
      unfold State.asVector
      rw [dif_pos h]
      rfl
    rw [e]
    exact lin _
  · have h2 : i - root.dof < jointsDof := by omega
    have e : (fun s => (displaced g x s).asVector i) = fun s => g.joint_angles ⟨i - root.dof, h2⟩ + s * x i := by
      funext s
      unfold State.asVector
      rw [dif_neg h, dif_pos h2]
      show _ + s * x (root.dof + (i - root.dof)) = _
      rw [Nat.add_sub_cancel' (by omega)]
    rw [e]
    exact lin _

/-- The motion along `x`. -/
theorem along_moves {r : Robot root} (h : Ready r) (x : ℕ → ℝ) :
    Moves (fun s => r.kinematics (displaced r.state x s).asVector) 0 x :=
  h.rigid.moves _ x 0 fun i hi => displaced_deriv r.state x i hi

theorem along_updated {r : Robot root} (h : Ready r) (x : ℕ → ℝ) :
    Updated (movedBy r x 0).rbdl_model (r.kinematics (displaced r.state x 0).asVector) := by
  rw [along_zero h, displaced_zero]
  exact h.updated

/-! ## Links -/

theorem isLink_displaced {r : Robot root} (h : Ready r) {id : ℕ} (hid : IsLink r.rbdl_model.rbdl_model id) (x : ℕ → ℝ) (s : ℝ) :
    IsLink (r.kinematics (displaced r.state x s).asVector) id := by
  have hs := h.rigid.same r.state.asVector (displaced r.state x s).asVector
  rw [ready_tree h] at hid
  unfold IsLink
  rw [hs.1, hs.2.2.1, hs.2.2.2.1]
  exact hid

/-- Position and velocity of a link. -/
theorem link_point {r : Robot root} (h : Ready r) {id : ℕ} (hid : IsLink r.rbdl_model.rbdl_model id) :
    ∃ P J, r.getTagPosition id = .ok P ∧ r.rbdl_model.getTagJacobian .translation id 0 = .ok J ∧ J.rows = 3 ∧
      J.cols = root.dof + jointsDof ∧ ∀ x, PointMoves (fun r => r.getTagPosition id) r x P fun a => rate J x a := by
  have pos : ∀ x s, (movedBy r x s).rbdl_model.getPointTagPosition id 0 = (movedBy r x s).getTagPosition id := by
    intro x s
    obtain ⟨q, R, h1, h2, h3⟩ := Rbdl.C93_point (m := (movedBy r x s).rbdl_model) (h.rigid.tree _) (isLink_displaced h hid x s)
    rw [(h3 0).1]
    unfold Robot.getTagPosition
    rw [h1]
    simp
  have key : ∀ x, ∃ (P : ℝ → Fin 3 → ℝ) (J : Mat ℝ), (∀ s, (movedBy r x s).getTagPosition id = .ok (P s)) ∧
      r.rbdl_model.getTagJacobian .translation id 0 = .ok J ∧ J.rows = 3 ∧ J.cols = root.dof + jointsDof ∧
      ∀ a : Fin 3, HasDerivAt (fun s => P s a) (rate J x a) 0 := by
    intro x
    obtain ⟨P, J, h1, h2, h3, h4, h5⟩ := Rbdl.C92_translation (T := fun s => r.kinematics (displaced r.state x s).asVector)
      (M := fun s => (movedBy r x s).rbdl_model) (t := 0) (dq := x) (h.rigid.tree _) (along_moves h x) (fun s => rfl) (along_updated h x)
      (isLink_displaced h hid x 0) 0
    refine ⟨P, J, fun s => (pos x s).symm.trans (h1 s), ?_, h3, h4.trans (h.rigid.size _), h5⟩
    rw [along_zero h] at h2
    exact h2
  obtain ⟨P, J, h1, h2, h3, h4, h5⟩ := key 0
  refine ⟨P 0, J, ?_, h2, h3, h4, fun x => ?_⟩
  · rw [← h1 0, along_zero h]
  · obtain ⟨P', J', k1, k2, k3, k4, k5⟩ := key x
    obtain rfl : J' = J := Except.ok.inj (k2.symm.trans h2)
    refine ⟨P', k1, ?_, k5⟩
    have e1 := k1 0
    have e2 := h1 0
    rw [along_zero h] at e1 e2
    exact Except.ok.inj (e1.symm.trans e2)

theorem axisRotation_product (e : Fin 3 → ℝ) : ∃ R, convertEulerAnglesToMatrix e .rpy = .ok R ∧ IsRotation R ∧ DescribesRpy e R := by
  refine ⟨_, rfl, ?_, _, _, _, axisRotation_turns _ _, axisRotation_turns _ _, axisRotation_turns _ _, rfl⟩
  exact C34_euler_rotation e .rpy _ rfl

/-- Orientation and angular velocity of a link. -/
theorem link_frame {r : Robot root} (h : Ready r) {id : ℕ} (hid : IsLink r.rbdl_model.rbdl_model id) :
    ∃ R J, r.getTagOrientation id = .ok R ∧ IsRotation R ∧ r.rbdl_model.getTagJacobian .rotation id 0 = .ok J ∧ J.rows = 3 ∧
      J.cols = root.dof + jointsDof ∧ ∀ x, FrameTurns (fun r => r.getTagOrientation id) r x R fun a => rate J x a := by
  have key : ∀ x, ∃ (R : ℝ → Mat3 ℝ) (R' : Mat3 ℝ) (J : Mat ℝ), (∀ s, (movedBy r x s).getTagOrientation id = .ok (R s)) ∧
      r.rbdl_model.getTagJacobian .rotation id 0 = .ok J ∧ J.rows = 3 ∧ J.cols = root.dof + jointsDof ∧
      MatDeriv R R' 0 ∧ IsAngularVelocity (fun a => rate J x a) (R 0) R' ∧ IsRotation (R 0) := by
    intro x
    obtain ⟨R, R', J, h1, h2, h3, h4, h5, h6⟩ := Rbdl.C92_rotation (T := fun s => r.kinematics (displaced r.state x s).asVector)
      (M := fun s => (movedBy r x s).rbdl_model) (t := 0) (dq := x) (h.rigid.tree _) (along_moves h x) (fun s => rfl) (along_updated h x)
      (isLink_displaced h hid x 0) 0
    refine ⟨R, R', J, h1, ?_, h3, h4.trans (h.rigid.size _), h5, h6, ?_⟩
    · rw [along_zero h] at h2
      exact h2
    · obtain ⟨P, rpy, R2, -, -, e1, e2⟩ := Rbdl.C93_pose (T := fun s => r.kinematics (displaced r.state x s).asVector)
        (M := fun s => (movedBy r x s).rbdl_model) (t := 0) (dq := x) C34_eigen (h.rigid.tree _) (along_moves h x) (h.rigid.fixed _) rfl
        (isLink_displaced h hid x 0) 0
      obtain ⟨R3, f1, f2, -⟩ := axisRotation_product rpy
      have g1 := Except.ok.inj (e1.symm.trans (h1 0))
      have g2 := Except.ok.inj (e2.symm.trans f1)
      rw [← g1, g2]
      exact f2
  obtain ⟨R, R', J, h1, h2, h3, h4, h5, h6, h7⟩ := key 0
  refine ⟨R 0, J, ?_, h7, h2, h3, h4, fun x => ⟨h7, ?_⟩⟩
  · rw [← h1 0, along_zero h]
  · obtain ⟨Q, Q', J', k1, k2, k3, k4, k5, k6, -⟩ := key x
    obtain rfl : J' = J := Except.ok.inj (k2.symm.trans h2)
    have e1 := k1 0
    have e2 := h1 0
    rw [along_zero h] at e1 e2
    have e := Except.ok.inj (e1.symm.trans e2)
    exact ⟨Q, Q', k1, e, k5, e ▸ k6⟩

/-- The complete Jacobian of a link. -/
theorem link_complete {r : Robot root} (h : Ready r) {id : ℕ} (hid : IsLink r.rbdl_model.rbdl_model id) :
    ∃ P R J, r.getTagPosition id = .ok P ∧ r.getTagOrientation id = .ok R ∧ IsRotation R ∧ r.getTagCompleteJacobian id = .ok J ∧
      J.rows = 6 ∧ J.cols = root.dof + jointsDof ∧
      (∀ x, FrameTurns (fun r => r.getTagOrientation id) r x R fun a => rate J x a) ∧
      ∀ x, PointMoves (fun r => r.getTagPosition id) r x P fun a => rate J x (3 + a) := by
  obtain ⟨P, Jt, h1, h2, h3, h4, h5⟩ := link_point h hid
  obtain ⟨R, Jr, k1, k0, k2, k3, k4, k5⟩ := link_frame h hid
  have hid' := hid
  rw [ready_tree h] at hid'
  obtain ⟨J, Jr', Jt', e1, e2, e3, e4, -, -, e7, -, -, e8⟩ := Rbdl.C92_complete (h.rigid.tree _) h.updated hid' 0
  obtain rfl : Jr' = Jr := Except.ok.inj (e2.symm.trans k2)
  obtain rfl : Jt' = Jt := Except.ok.inj (e3.symm.trans h2)
  rw [h.rigid.size] at e7 e8
  have a1 : ∀ x (a : Fin 3), rate J x a = rate Jr' x a := by
    intro x a
    unfold rate
    rw [e7, k4]
    exact Finset.sum_congr rfl fun c hc => by rw [(e8 a a.2 c (Finset.mem_range.1 hc)).1]
  have a2 : ∀ x (a : Fin 3), rate J x (3 + a) = rate Jt' x a := by
    intro x a
    unfold rate
    rw [e7, h4]
    exact Finset.sum_congr rfl fun c hc => by rw [Nat.add_comm 3, (e8 a a.2 c (Finset.mem_range.1 hc)).2]
  refine ⟨P, R, J, h1, k1, k0, e1, e4, e7, fun x => ?_, fun x => ?_⟩
  · simp only [a1]
    exact k5 x
  · simp only [a2]
    exact h5 x

/-- Centres of mass of parts. -/
theorem part_point {r : Robot root} (h : Ready r) (tag : TagPartialCoM ℝ) (hm : tag.mass ≠ 0)
    (hids : ∀ i ∈ tag.link_ids, i < r.rbdl_model.rbdl_model.size) (hne : tag.link_ids ≠ []) :
    ∃ P J, r.rbdl_model.getPartialCoM tag = .ok P ∧ (∀ J0, r.rbdl_model.getPartialCoMJacobian J0 tag = .ok J) ∧ J.rows = 3 ∧
      J.cols = root.dof + jointsDof ∧ ∀ x, PointMoves (fun r => r.rbdl_model.getPartialCoM tag) r x P fun a => rate J x a := by
  have hids' : ∀ x, ∀ i ∈ tag.link_ids, i < (r.kinematics (displaced r.state x 0).asVector).size := by
    intro x i hi
    have := hids i hi
    rw [displaced_zero]
    rwa [ready_tree h] at this
  have key : ∀ x J0, ∃ (P : ℝ → Fin 3 → ℝ) (J : Mat ℝ), (∀ s, (movedBy r x s).rbdl_model.getPartialCoM tag = .ok (P s)) ∧
      r.rbdl_model.getPartialCoMJacobian J0 tag = .ok J ∧ J.rows = 3 ∧ J.cols = root.dof + jointsDof ∧
      ∀ a : Fin 3, HasDerivAt (fun s => P s a) (rate J x a) 0 := by
    intro x J0
    obtain ⟨P, J, h1, h2, h3, h4, h5⟩ := Rbdl.C92_partial_com (T := fun s => r.kinematics (displaced r.state x s).asVector)
      (M := fun s => (movedBy r x s).rbdl_model) (t := 0) (dq := x) (h.rigid.tree _) (along_moves h x) (fun s => rfl) (along_updated h x)
      tag hm (hids' x) hne J0
    refine ⟨P, J, h1, ?_, h3, h4.trans (h.rigid.size _), h5⟩
    rw [along_zero h] at h2
    exact h2
  have hJ : ∀ J0 J1, r.rbdl_model.getPartialCoMJacobian J0 tag = r.rbdl_model.getPartialCoMJacobian J1 tag := by
    intro J0 J1
    obtain ⟨c, J, -, e2, -⟩ := Rbdl.com_deriv (T := fun s => r.kinematics (displaced r.state 0 s).asVector)
      (M := fun s => (movedBy r 0 s).rbdl_model) (t := 0) (dq := 0) (h.rigid.tree _) (along_moves h 0) (fun s => rfl) (along_updated h 0)
      (hids' 0) hne
    have e2 : tag.link_ids.foldlM r.rbdl_model.addBodyJacobian none = .ok (some J) := by
      rw [← e2, along_zero h]
    unfold Rbdl.Model.getPartialCoMJacobian
    rw [e2]
    rfl
  obtain ⟨P, J, h1, h2, h3, h4, h5⟩ := key 0 ⟨0, 0, fun _ _ => 0⟩
  refine ⟨P 0, J, ?_, fun J0 => (hJ _ _).trans h2, h3, h4, fun x => ?_⟩
  · rw [← h1 0, along_zero h]
  · obtain ⟨P', J', k1, k2, k3, k4, k5⟩ := key x ⟨0, 0, fun _ _ => 0⟩
    obtain rfl : J' = J := Except.ok.inj (k2.symm.trans h2)
    refine ⟨P', k1, ?_, k5⟩
    have e1 := k1 0
    have e2 := h1 0
    rw [along_zero h] at e1 e2
    exact Except.ok.inj (e1.symm.trans e2)

theorem base_point {r : Robot root} (h : Ready r) :
    ∃ P J, r.getBaseCoM = .ok P ∧ (∀ J0, r.getBaseCoMJacobian J0 = .ok J) ∧ J.rows = 3 ∧ J.cols = root.dof + jointsDof ∧
      ∀ x, PointMoves Robot.getBaseCoM r x P fun a => rate J x a := by
  refine part_point h r.base_com_tag ?_ ?_ ?_
  · rw [h.base]
    exact h.parts.base_mass
  · rw [h.base]
    intro i hi
    obtain ⟨s, hs, rfl⟩ := List.mem_map.1 hi
    exact h.parts.base s hs
  · rw [h.base]
    simp [baseLinks]

theorem body_point {r : Robot root} (h : Ready r) :
    ∃ P J, r.getBodyCoM = .ok P ∧ (∀ J0, r.getBodyCoMJacobian J0 = .ok J) ∧ J.rows = 3 ∧ J.cols = root.dof + jointsDof ∧
      ∀ x, PointMoves Robot.getBodyCoM r x P fun a => rate J x a := by
  refine part_point h r.body_com_tag ?_ ?_ ?_
  · rw [h.body]
    exact h.parts.body_mass
  · rw [h.body]
    intro i hi
    obtain ⟨s, hs, rfl⟩ := List.mem_map.1 hi
    exact h.parts.body s hs
  · rw [h.body]
    simp [bodyLinks]

/-! ## Rows of tasks -/

/-- The gain multiplies both sides. -/
theorem gain_rows (gain : ℝ) (d : CtrData ℝ) {A : Mat ℝ} {b : Vec ℝ} {n : ℕ} (hr : A.rows = n) (hb : b.n = n)
    (hc : A.cols = root.dof + jointsDof) :
    LinearTask ⟨.ab, root.dof + jointsDof, applyGain gain d A b⟩ root n ∧
    ∃ g, UsedGain gain g ∧ ∀ x i, lhs ⟨.ab, root.dof + jointsDof, applyGain gain d A b⟩ x i -
      target ⟨.ab, root.dof + jointsDof, applyGain gain d A b⟩ i = g * (rate A x i - b.e i) := by
  have hpos : 0 < root.dof + jointsDof := by unfold jointsDof; omega
  by_cases hg : |1 - gain| < genericTolerance
  · have e : applyGain gain d A b = { d with A := A, b := b } := if_pos hg
    rw [e]
    refine ⟨⟨rfl, ⟨hb.trans hr.symm, by show 0 < A.cols; omega, hc⟩, hr, rfl⟩, 1, Or.inr ⟨rfl, ?_⟩, fun x i => ?_⟩
    · unfold genericTolerance at hg
      norm_num at hg ⊢
      exact hg
    · rw [one_mul]
      rfl
  · have e : applyGain gain d A b = { d with A := Kron.scale gain A, b := ⟨b.n, fun i => b.e i * gain⟩ } := if_neg hg
    rw [e]
    refine ⟨⟨rfl, ⟨hb.trans hr.symm, by show 0 < A.cols; omega, hc⟩, hr, rfl⟩, gain, Or.inl rfl, fun x i => ?_⟩
    show ∑ j ∈ Finset.range A.cols, gain * A.e i j * x j - b.e i * gain = gain * (∑ j ∈ Finset.range A.cols, A.e i j * x j - b.e i)
    rw [mul_sub, Finset.mul_sum, mul_comm (b.e i)]
    congr 1
    exact Finset.sum_congr rfl fun j _ => mul_assoc _ _ _

theorem error_meaning (C R : Mat3 ℝ) : RotationError (getRotationErrorAngleAxis C R) C R := by
  intro p
  funext i
  fin_cases i <;>
    simp [vectorProduct, getRotationErrorAngleAxis, cross, Matrix.mulVec, dotProduct, Matrix.mul_apply, Fin.sum_univ_three, Matrix.col_apply] <;>
    ring

/-- The difference of orientations is determined. -/
theorem error_unique {e e' : Fin 3 → ℝ} {C R : Mat3 ℝ} (h : RotationError e C R) (h' : RotationError e' C R) : e = e' := by
  have k : ∀ p, vectorProduct e p = vectorProduct e' p := by
    intro p
    have := (h p).symm.trans (h' p)
    funext i
    have := congrFun this i
    simp only [Pi.smul_apply, smul_eq_mul] at this
    linarith
  have k0 := k ![1, 0, 0]
  have k1 := k ![0, 1, 0]
  funext i
  fin_cases i
  · have := congrFun k1 2
    simpa [vectorProduct] using this
  · have := congrFun k0 2
    simpa [vectorProduct] using this
  · have := congrFun k0 1
    simpa [vectorProduct] using this

theorem row3_fin (v : Fin 3 → ℝ) (a : Fin 3) : Rbdl.row3 v a = v a := by
  unfold Rbdl.row3
  rw [dif_pos a.2]

theorem axes_get {i : ℕ} {a : Fin 3} (h : ([0, 1, 2] : List (Fin 3))[i]? = some a) : i = a := by
  match i, h with
  | 0, h => cases h; rfl
  | 1, h => cases h; rfl
  | 2, h => cases h; rfl

theorem cross_eq (v w : Fin 3 → ℝ) : cross v w = vectorProduct v w := rfl

/-! ## The solution -/

theorem ik_nvars (root : Root) : (Wbc.solutionStructure root).nvars = root.dof + jointsDof := by
  cases root <;> rfl

theorem ik_root (root : Root) : (Wbc.solutionStructure root).location rootVelId = ⟨0, root.dof⟩ := by
  cases root <;> rfl

theorem ik_joints (root : Root) : (Wbc.solutionStructure root).location jointsVelId = ⟨root.dof, jointsDof⟩ := by
  cases root <;> rfl

end Ik

end Humoto
