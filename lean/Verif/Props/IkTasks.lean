import Verif.Lemmas.IkTasks
import Verif.Model.Solution

/-!
# C62, C94: the whole body controller of Pepper and its tasks
-/

namespace Humoto

namespace Ik

open Spec Spec.Ik Spec.Rbdl
open Rbdl (RbdlModel SpatialType)
open scoped Matrix

variable {root : Root}

/-! ## The model -/

/-- **C94.** Loading of a robot with all necessary parts succeeds and makes the model ready; files which cannot be read and robots with
another number of coordinates are rejected. -/
theorem C94_load (r : Robot root) (junk : ℕ → Rbdl.Spatial ℝ) :
    r.loadParameters junk none = .error .thrown ∧
    (∀ T kin, T.q_size ≠ root.dof + 15 → r.loadParameters junk (some (T, kin)) = .error .thrown) ∧
    ∀ T kin, RigidRobot kin (root.dof + 15) → HasParts T → T.q_size = root.dof + 15 →
      (∀ q, SameRobot T (kin q) ∧ (kin q).GetBodyId = T.GetBodyId) →
      ∃ r', r.loadParameters junk (some (T, kin)) = .ok r' ∧ Ready r' ∧ r'.state = r.state ∧ r'.constraints = r.constraints ∧ r'.kinematics = kin := by
  refine ⟨rfl, fun T kin hn => ?_, fun T kin hk hp hn hs => ?_⟩
  · unfold Robot.loadParameters
    show (assertThat (root.dof + 15 = T.q_size) >>= _) = _
    unfold assertThat
    rw [if_neg (fun h => hn h.symm)]
    rfl
  · have sum_ok : ∀ (m : Rbdl.Model ℝ) (hm : m.rbdl_model = T) (names : List String) (h : ∀ s ∈ names, T.GetBodyId s < T.size),
        m.getCoMTag names = .ok ⟨names.map T.GetBodyId, massOf T names⟩ := by
      intro m hm names h
      have fold : ∀ (l : List String) (_ : ∀ s ∈ l, T.GetBodyId s < T.size) (x : ℝ),
          l.foldlM (fun (mass : ℝ) name => do
            let b ← m.getBody (m.getLinkId name)
            pure (mass + b.mMass)) x = (.ok (x + massOf T l) : Res ℝ) := by
        intro l
        induction l with
        | nil => intro _ x; simp [massOf, pure_eq_ok]
        | cons a l ih =>
          intro hl x
          have h1 : m.getBody (m.getLinkId a) = .ok (T.mBodies (T.GetBodyId a)) := by
            unfold Rbdl.Model.getBody Rbdl.Model.getLinkId
            rw [hm, require_true (hl a (by simp)), ok_bind]
            rfl
          rw [List.foldlM_cons, h1, ok_bind]
          show (l.foldlM _ (x + _) : Res ℝ) = _
          rw [ih (fun s hs => hl s (by simp [hs]))]
          simp [massOf, add_assoc]
      unfold Rbdl.Model.getCoMTag
      rw [fold names h 0, ok_bind, zero_add]
      unfold Rbdl.Model.getLinkId
      rw [hm]
      rfl
    obtain ⟨-, m, h1, h2, h3⟩ := Rbdl.C93_load r.rbdl_model junk T (kin r.state.asVector) (hs _).1.1
    refine ⟨{ r with
      kinematics := kin
      base_orientation_tag := m.getLinkId baseLink
      base_position_tag := m.getLinkId baseLink
      base_com_tag := ⟨baseLinks.map T.GetBodyId, massOf T baseLinks⟩
      body_com_tag := ⟨bodyLinks.map T.GetBodyId, massOf T bodyLinks⟩
      rbdl_model := m.update (kin r.state.asVector) }, ?_, ?_, rfl, rfl, rfl⟩
    · unfold Robot.loadParameters
      show (Rbdl.Model.load r.rbdl_model junk (some T) >>= _) = _
      rw [h1, ok_bind]
      show (assertThat (root.dof + 15 = m.rbdl_model.q_size) >>= _) = _
      rw [h2]
      unfold assertThat
      rw [if_pos hn.symm]
      show (m.getCoMTag baseLinks >>= _) = _
      rw [sum_ok m h2 _ hp.base, ok_bind, sum_ok m h2 _ hp.body, ok_bind]
      rfl
    · have ht : (m.update (kin r.state.asVector)).rbdl_model = kin r.state.asVector := rfl
      obtain ⟨hS, hN⟩ := hs r.state.asVector
      have hmass : ∀ names, massOf (kin r.state.asVector) names = massOf T names := by
        intro names
        unfold massOf
        rw [hN, hS.2.2.2.2]
      refine ⟨hk, h3, ?_, ?_, ?_, ?_, ?_⟩
      · show HasParts (kin r.state.asVector)
        refine ⟨?_, ?_, ?_, ?_, ?_⟩
        · unfold IsLink
          rw [hN, hS.1, hS.2.2.1, hS.2.2.2.1]
          exact hp.base_link
        · rw [hN, hS.1]; exact hp.base
        · rw [hN, hS.1]; exact hp.body
        · rw [hmass]; exact hp.base_mass
        · rw [hmass]; exact hp.body_mass
      · show m.rbdl_model.GetBodyId "base_footprint" = (kin r.state.asVector).GetBodyId _
        rw [hN, h2]
      · show m.rbdl_model.GetBodyId "base_footprint" = (kin r.state.asVector).GetBodyId _
        rw [hN, h2]
      · show _ = (⟨baseLinks.map (kin r.state.asVector).GetBodyId, massOf (kin r.state.asVector) baseLinks⟩ : Rbdl.Model.TagPartialCoM ℝ)
        rw [hmass, hN]
      · show _ = (⟨bodyLinks.map (kin r.state.asVector).GetBodyId, massOf (kin r.state.asVector) bodyLinks⟩ : Rbdl.Model.TagPartialCoM ℝ)
        rw [hmass, hN]

/-- **C94.** The model stays ready when it moves to a new state. -/
theorem C94_update {r : Robot root} (h : Ready r) (g : State root) : Ready (r.updateState g) ∧ (r.updateState g).state = g := by
  have ht := ready_tree h
  have hS := h.rigid.same r.state.asVector g.asVector
  have hN := h.rigid.names g.asVector r.state.asVector
  have hmass : ∀ names, massOf (r.kinematics g.asVector) names = massOf (r.kinematics r.state.asVector) names := by
    intro names
    unfold massOf
    rw [hN, hS.2.2.2.2]
  have hp := h.parts
  have ho := h.orientation
  have hq := h.position
  have hb := h.base
  have hd := h.body
  rw [ht] at hp ho hq hb hd
  refine ⟨⟨h.rigid, updated_again h.updated hS, ?_, ?_, ?_, ?_, ?_⟩, rfl⟩
  · show HasParts (r.kinematics g.asVector)
    refine ⟨?_, ?_, ?_, ?_, ?_⟩
    · unfold IsLink
      rw [hN, hS.1, hS.2.2.1, hS.2.2.2.1]
      exact hp.base_link
    · rw [hN, hS.1]; exact hp.base
    · rw [hN, hS.1]; exact hp.body
    · rw [hmass]; exact hp.base_mass
    · rw [hmass]; exact hp.body_mass
  · show r.base_orientation_tag = (r.kinematics g.asVector).GetBodyId _
    rw [hN, ho]
  · show r.base_position_tag = (r.kinematics g.asVector).GetBodyId _
    rw [hN, hq]
  · show r.base_com_tag = ⟨baseLinks.map (r.kinematics g.asVector).GetBodyId, massOf (r.kinematics g.asVector) baseLinks⟩
    rw [hmass, hN, hb]
  · show r.body_com_tag = ⟨bodyLinks.map (r.kinematics g.asVector).GetBodyId, massOf (r.kinematics g.asVector) bodyLinks⟩
    rw [hmass, hN, hd]

/-- The constraints of the class `t` with the data `d`. -/
def ikCtr (root : Root) (t : CtrType) (d : CtrData ℝ) : Ctr ℝ := ⟨t, root.dof + jointsDof, d⟩

/-- The environment of the tasks: the structure of the solution is set by `update`. -/
def ikEnv (r : Robot root) (w : Wbc) : IkEnv root := ⟨Wbc.solutionStructure root, r, w⟩

theorem vecThree_le {i : ℕ} (h : i < 3) : ∃ a : Fin 3, i = a := ⟨⟨i, h⟩, rfl⟩

/-! ## Tasks on joints -/

/-- **C94.** The task `TaskJointsBounds` holds exactly when the angles of the joints after the step are within the limits. -/
theorem C94_jointsBounds (r : Robot root) (w : Wbc) (d : CtrData ℝ) :
    ∃ d', jointsBoundsForm (ikEnv r w) d = .ok d' ∧ WellFormed (ikCtr root .ilu d') ∧ ∀ x, Satisfied (ikCtr root .ilu d') x ↔
      ∀ j, r.constraints.joint_position_bounds_min j ≤ (displaced r.state x 1).joint_angles j ∧
        (displaced r.state x 1).joint_angles j ≤ r.constraints.joint_position_bounds_max j := by
  refine ⟨_, rfl, ?_, fun x => ?_⟩
  · refine ⟨⟨?_, ?_⟩, fun i hi => ?_⟩
    · show jointsDof = ((Wbc.solutionStructure root).location jointsVelId).length
      rw [ik_joints]
    · show jointsDof = ((Wbc.solutionStructure root).location jointsVelId).length
      rw [ik_joints]
    · have hi : i < ((Wbc.solutionStructure root).location jointsVelId).length := hi
      show ((Wbc.solutionStructure root).location jointsVelId).offset + i < root.dof + jointsDof
      rw [ik_joints] at hi ⊢
      have : i < jointsDof := hi
      show root.dof + i < _
      omega
  · have hrow : ∀ j : Fin jointsDof, RowHolds (ikCtr root .ilu { d with
        idx := ⟨((ikEnv r w).structure_.location jointsVelId).length, fun i => ((ikEnv r w).structure_.location jointsVelId).offset + i⟩
        lb := ⟨jointsDof, fun i => if h : i < jointsDof then r.constraints.joint_position_bounds_min ⟨i, h⟩ - r.state.joint_angles ⟨i, h⟩ else 0⟩
        ub := ⟨jointsDof, fun i => if h : i < jointsDof then r.constraints.joint_position_bounds_max ⟨i, h⟩ - r.state.joint_angles ⟨i, h⟩ else 0⟩ }) x j ↔
        (r.constraints.joint_position_bounds_min j ≤ (displaced r.state x 1).joint_angles j ∧
        (displaced r.state x 1).joint_angles j ≤ r.constraints.joint_position_bounds_max j) := by
      intro j
      have e1 : ((ikEnv r w).structure_.location jointsVelId).offset = root.dof := by
        show ((Wbc.solutionStructure root).location jointsVelId).offset = _
        rw [ik_joints]
      unfold RowHolds
      simp only [lower, upper, lhs, ikCtr, Option.some.injEq, forall_eq', e1, dif_pos j.2, displaced, one_mul]
      constructor
      · rintro ⟨a, b⟩
        exact ⟨by linarith, by linarith⟩
      · rintro ⟨a, b⟩
        exact ⟨by linarith, by linarith⟩
    constructor
    · intro h j
      refine (hrow j).1 (h j ?_)
      show (j : ℕ) < ((Wbc.solutionStructure root).location jointsVelId).length
      rw [ik_joints]
      exact j.2
    · intro h i hi
      have hi : i < ((Wbc.solutionStructure root).location jointsVelId).length := hi
      rw [ik_joints] at hi
      exact (hrow ⟨i, hi⟩).2 (h ⟨i, hi⟩)

/-- **C94.** Rows of `TaskJointsReference`: the displacement of each joint must be `k` multiplied by the distance to the reference angle. -/
theorem C94_jointsReference (r : Robot root) (w : Wbc) (gain k : ℝ) (reference : Fin jointsDof → ℝ) (d : CtrData ℝ) :
    ∃ d', jointsReferenceForm gain k reference (ikEnv r w) d = .ok d' ∧ WellFormed (ikCtr root .gib d') ∧ rows (ikCtr root .gib d') = 15 ∧
      ∀ x (j : Fin jointsDof), lhs (ikCtr root .gib d') x j - target (ikCtr root .gib d') j =
        gain * ((displaced r.state x 1).joint_angles j - r.state.joint_angles j - k * (reference j - r.state.joint_angles j)) := by
  refine ⟨_, rfl, ?_, ?_, fun x j => ?_⟩
  · refine ⟨?_, rfl, fun i hi => ?_⟩
    · show jointsDof = ((Wbc.solutionStructure root).location jointsVelId).length
      rw [ik_joints]
    · have hi : i < ((Wbc.solutionStructure root).location jointsVelId).length := hi
      show ((Wbc.solutionStructure root).location jointsVelId).offset + i < root.dof + jointsDof
      rw [ik_joints] at hi ⊢
      have : i < jointsDof := hi
      show root.dof + i < _
      omega
  · show ((Wbc.solutionStructure root).location jointsVelId).length = 15
    rw [ik_joints]
  · have e1 : ((ikEnv r w).structure_.location jointsVelId).offset = root.dof := by
      show ((Wbc.solutionStructure root).location jointsVelId).offset = _
      rw [ik_joints]
    simp only [lhs, target, ikCtr, e1, dif_pos j.2, displaced, one_mul]
    show gain * _ - k * gain * (reference j - r.state.joint_angles j) = _
    ring

theorem getD_get {joints : List Joint} {i : ℕ} (hi : i < joints.length) : joints.getD i .KneePitch = joints[i] := by
  simp [List.getD_eq_getElem?_getD, hi]

/-- Tasks which fix joints. -/
theorem fix_meaning (r : Robot root) (w : Wbc) (joints : List Joint) (d : CtrData ℝ) :
    ∃ d', fixJointsForm joints (ikEnv r w) d = .ok d' ∧ WellFormed (ikCtr root .ib0 d') ∧ ∀ x, Satisfied (ikCtr root .ib0 d') x ↔
      ∀ j ∈ joints, (displaced r.state x 1).joint_angles (jointId root j) = r.state.joint_angles (jointId root j) := by
  have e1 : ((ikEnv r w).structure_.location jointsVelId).offset = root.dof := by
    show ((Wbc.solutionStructure root).location jointsVelId).offset = _
    rw [ik_joints]
  have row : ∀ x j, (displaced r.state x 1).joint_angles (jointId root j) = r.state.joint_angles (jointId root j) ↔
      x (root.dof + jointId root j) = 0 := by
    intro x j
    simp [displaced]
  refine ⟨_, rfl, ⟨trivial, fun i hi => ?_⟩, fun x => ?_⟩
  · show ((ikEnv r w).structure_.location jointsVelId).offset + (jointId root _ : ℕ) < root.dof + jointsDof
    rw [e1]
    have := (jointId root (joints.getD i .KneePitch)).2
    omega
  · simp only [row]
    constructor
    · intro h j hj
      obtain ⟨i, hi, rfl⟩ := List.mem_iff_getElem.1 hj
      have hr := h i hi
      simp only [RowHolds, lower, upper, lhs, ikCtr, Option.some.injEq, forall_eq', e1, getD_get hi] at hr
      exact le_antisymm hr.2 hr.1
    · intro h i hi
      have hi : i < joints.length := hi
      simp only [RowHolds, lower, upper, lhs, ikCtr, Option.some.injEq, forall_eq', e1, getD_get hi]
      rw [h _ (List.getElem_mem hi)]
      exact ⟨le_refl _, le_refl _⟩

/-- **C94.** The task `TaskFixArms` holds exactly when no joint of the arms moves. -/
theorem C94_fixArms (r : Robot root) (w : Wbc) (d : CtrData ℝ) :
    ∃ d', fixJointsForm armJoints (ikEnv r w) d = .ok d' ∧ WellFormed (ikCtr root .ib0 d') ∧ ∀ x, Satisfied (ikCtr root .ib0 d') x ↔
      ∀ j, IsArmJoint j = true → (displaced r.state x 1).joint_angles (jointId root j) = r.state.joint_angles (jointId root j) := by
  obtain ⟨d', h1, h2, h3⟩ := fix_meaning r w armJoints d
  refine ⟨d', h1, h2, fun x => (h3 x).trans ⟨fun h j hj => h j ?_, fun h j hj => h j ?_⟩⟩
  · revert hj; cases j <;> decide
  · revert hj; cases j <;> decide

/-- **C94.** The task `TaskFixHead` holds exactly when no joint of the head moves. -/
theorem C94_fixHead (r : Robot root) (w : Wbc) (d : CtrData ℝ) :
    ∃ d', fixJointsForm headJoints (ikEnv r w) d = .ok d' ∧ WellFormed (ikCtr root .ib0 d') ∧ ∀ x, Satisfied (ikCtr root .ib0 d') x ↔
      ∀ j, IsHeadJoint j = true → (displaced r.state x 1).joint_angles (jointId root j) = r.state.joint_angles (jointId root j) := by
  obtain ⟨d', h1, h2, h3⟩ := fix_meaning r w headJoints d
  refine ⟨d', h1, h2, fun x => (h3 x).trans ⟨fun h j hj => h j ?_, fun h j hj => h j ?_⟩⟩
  · revert hj; cases j <;> decide
  · revert hj; cases j <;> decide

/-! ## Centres of mass -/

/-- Axes of the tasks for the base. -/
def planarAxes (root : Root) : List (Fin 3) := if root = .planar then [0, 1] else [0, 1, 2]

/-- **C94.** `TaskBaseCoMTracking`: the centre of mass of the base moves to its reference position; only horizontally when the root is
planar. -/
theorem C94_baseCoM {r : Robot root} (h : Ready r) (w : Wbc) (gain k : ℝ) (junk : ℕ → ℕ → ℝ) (d : CtrData ℝ) :
    ∃ d' g, baseCoMForm gain k junk (ikEnv r w) d = .ok d' ∧ LinearTask (ikCtr root .ab d') root (planarAxes root).length ∧ UsedGain gain g ∧
      TracksPoint r (ikCtr root .ab d') Robot.getBaseCoM w.motion_parameters.base_com_position k g 0 (planarAxes root) := by
  obtain ⟨P, J, h1, h2, h3, h4, h5⟩ := base_point h
  unfold baseCoMForm planarAxes
  have e1 : (ikEnv r w).robot.getBaseCoMJacobian d.A = .ok J := h2 _
  have e2 : (ikEnv r w).robot.getBaseCoM = .ok P := h1
  rw [e1, ok_bind, e2, ok_bind]
  by_cases hr : root = .planar
  · simp only [if_pos hr]
    obtain ⟨k1, g, k2, k3⟩ := gain_rows (root := root) gain d (A := ⟨2, J.cols, fun i c => if i < J.rows then J.e i c else junk i c⟩)
      (b := scaleVec k ⟨2, Rbdl.row3 (w.motion_parameters.base_com_position - P)⟩) rfl rfl h4
    refine ⟨_, g, rfl, k1, k2, fun x => ⟨P, _, h5 x, fun i a hi => ?_⟩⟩
    have hia : i = a ∧ i < 3 := by
      match i, hi with
      | 0, hi => cases hi; exact ⟨rfl, by omega⟩
      | 1, hi => cases hi; exact ⟨rfl, by omega⟩
    rw [Nat.zero_add]
    refine (k3 x i).trans ?_
    obtain ⟨rfl, hi3⟩ := hia
    unfold scaleVec
    simp only [row3_fin, rate, h3, if_pos hi3]
    rfl
  · simp only [if_neg hr]
    obtain ⟨k1, g, k2, k3⟩ := gain_rows (root := root) gain d (A := J) (b := scaleVec k (vec3 (w.motion_parameters.base_com_position - P))) h3 rfl h4
    refine ⟨_, g, rfl, k1, k2, fun x => ⟨P, _, h5 x, fun i a hi => ?_⟩⟩
    rw [Nat.zero_add]
    refine (k3 x i).trans ?_
    obtain rfl := axes_get hi
    unfold scaleVec vec3
    simp only [row3_fin]
    rfl

/-- The bits of valid flags. -/
theorem flags_cases {f : BitVec 32} (h : allFlags ||| f = allFlags) :
    f = 0#32 ∨ f = 1#32 ∨ f = 2#32 ∨ f = 3#32 ∨ f = 4#32 ∨ f = 5#32 ∨ f = 6#32 ∨ f = 7#32 := by
  have h7 : allFlags = 7#32 := by decide
  rw [h7] at h
  have hle : f.toNat ≤ 7 := by
    have := congrArg BitVec.toNat h
    rw [BitVec.toNat_or] at this
    have h2 : f.toNat ≤ (7#32).toNat ||| f.toNat := Nat.right_le_or
    rw [this] at h2
    exact h2
  have e : f = BitVec.ofNat 32 f.toNat := by simp
  generalize f.toNat = n at hle e
  subst e
  have : n = 0 ∨ n = 1 ∨ n = 2 ∨ n = 3 ∨ n = 4 ∨ n = 5 ∨ n = 6 ∨ n = 7 := by omega
  rcases this with rfl | rfl | rfl | rfl | rfl | rfl | rfl | rfl <;> simp

/-- Copying of the selected rows. -/
theorem copyRows_ok (f : BitVec 32) {J : Mat ℝ} (e : Vec ℝ) (hJ : J.rows = 3) (l : List (Fin 3)) (y : ℕ × Mat ℝ × Vec ℝ)
    (hy : y.1 + (l.filter (hasFlag f)).length ≤ y.2.1.rows) (hb : y.2.2.n = y.2.1.rows) :
    ∃ y', l.foldlM (copyRow f J e) y = .ok y' ∧ y'.2.1.rows = y.2.1.rows ∧ y'.2.1.cols = y.2.1.cols ∧ y'.2.2.n = y.2.2.n ∧
      (∀ i < y.1, (∀ c, y'.2.1.e i c = y.2.1.e i c) ∧ y'.2.2.e i = y.2.2.e i) ∧
      ∀ (i : ℕ) a, (l.filter (hasFlag f))[i]? = some a → (∀ c, y'.2.1.e (y.1 + i) c = J.e a c) ∧ y'.2.2.e (y.1 + i) = e.e a := by
  induction l generalizing y with
  | nil => exact ⟨y, rfl, rfl, rfl, rfl, fun i _ => ⟨fun c => rfl, rfl⟩, fun i a hi => by simp at hi⟩
  | cons a l ih =>
    rw [List.foldlM_cons]
    by_cases ha : hasFlag f a = true
    · rw [List.filter_cons_of_pos ha] at hy ⊢
      rw [List.length_cons] at hy
      have hlt : y.1 < y.2.1.rows := by omega
      have hs : y.2.2.set y.1 (e.e a) = .ok ⟨y.2.2.n, fun i => if i = y.1 then e.e a else y.2.2.e i⟩ := by
        unfold Vec.set
        rw [if_pos (by omega)]
        congr 2
        funext i
        simp [Function.update_apply]
      have h1 : copyRow f J e y a = .ok (y.1 + 1, ⟨y.2.1.rows, y.2.1.cols, fun i c => if i = y.1 then J.e a c else y.2.1.e i c⟩,
          ⟨y.2.2.n, fun i => if i = y.1 then e.e a else y.2.2.e i⟩) := by
        unfold copyRow
        rw [if_pos ha, require_true ⟨hlt, by omega⟩, ok_bind, hs]
        rfl
      rw [h1, ok_bind]
      obtain ⟨y', k1, k2, k3, k4, k5, k6⟩ := ih (y.1 + 1, ⟨y.2.1.rows, y.2.1.cols, fun i c => if i = y.1 then J.e a c else y.2.1.e i c⟩,
          ⟨y.2.2.n, fun i => if i = y.1 then e.e a else y.2.2.e i⟩) (by show y.1 + 1 + _ ≤ y.2.1.rows; omega) hb
      refine ⟨y', k1, k2, k3, k4, fun i hi => ?_, fun i b hi => ?_⟩
      · obtain ⟨u1, u2⟩ := k5 i (by show i < y.1 + 1; omega)
        have hne : i ≠ y.1 := by omega
        simp only [if_neg hne] at u1 u2
        exact ⟨u1, u2⟩
      · cases i with
        | zero =>
          cases hi
          obtain ⟨u1, u2⟩ := k5 y.1 (by show y.1 < y.1 + 1; omega)
          simp only [if_true] at u1 u2
          exact ⟨u1, u2⟩
        | succ i =>
          have := k6 i b hi
          simp only [Nat.add_assoc, Nat.add_comm 1] at this
          exact this
    · rw [List.filter_cons_of_neg ha] at hy ⊢
      have h1 : copyRow f J e y a = .ok y := by
        unfold copyRow
        rw [if_neg ha]
        rfl
      rw [h1, ok_bind]
      exact ih y hy hb

/-- **C94.** `TaskBodyCoMTracking`: the centre of mass of the body moves to its reference position along the axes which are selected by the
flags (bit 0: x, bit 1: y, bit 2: z). -/
theorem C94_bodyCoM {r : Robot root} (h : Ready r) (w : Wbc) (gain k : ℝ) (f : BitVec 32) (h0 : f ≠ 0#32) (hf : ∀ i, 3 ≤ i → f.getLsbD i = false)
    (junkA : ℕ → ℕ → ℝ) (junkB : ℕ → ℝ) (d : CtrData ℝ) :
    ∃ d' g, bodyCoMForm gain k f junkA junkB (ikEnv r w) d = .ok d' ∧
      LinearTask (ikCtr root .ab d') root (flagAxes f).length ∧ UsedGain gain g ∧
      TracksPoint r (ikCtr root .ab d') Robot.getBodyCoM w.motion_parameters.body_com_position k g 0
        (flagAxes f) := by
  obtain ⟨P, J, h1, h2, h3, h4, h5⟩ := body_point h
  have hor : allFlags ||| f = allFlags := by
    have h7 : allFlags = 7#32 := by decide
    rw [h7]
    apply BitVec.eq_of_getLsbD_eq
    intro i hi
    rw [BitVec.getLsbD_or]
    by_cases h3i : 3 ≤ i
    · rw [hf i h3i, Bool.or_false]
    · have : (7#32).getLsbD i = true := by
        have : i = 0 ∨ i = 1 ∨ i = 2 := by omega
        rcases this with rfl | rfl | rfl <;> decide
      rw [this, Bool.true_or]
  unfold bodyCoMForm
  have e2 : (ikEnv r w).robot.getBodyCoM = .ok P := h1
  have e3 : ∀ J0, (ikEnv r w).robot.getBodyCoMJacobian J0 = .ok J := h2
  rw [e2, ok_bind]
  simp only [e3]
  have full : ∀ (A : Mat ℝ) (b : Vec ℝ) (axes : List (Fin 3)), A.rows = axes.length → b.n = axes.length → A.cols = root.dof + jointsDof →
      (∀ (i : ℕ) a, axes[i]? = some a → (∀ c, A.e i c = J.e a c) ∧ b.e i = k * (w.motion_parameters.body_com_position - P) a) →
      ∃ g, LinearTask (ikCtr root .ab (applyGain gain d A b)) root axes.length ∧ UsedGain gain g ∧
      TracksPoint r (ikCtr root .ab (applyGain gain d A b)) Robot.getBodyCoM w.motion_parameters.body_com_position k g 0 axes := by
    intro A b axes hA hb hc hab
    obtain ⟨k1, g, k2, k3⟩ := gain_rows (root := root) gain d hA hb hc
    refine ⟨g, k1, k2, fun x => ⟨P, _, h5 x, fun i a hi => ?_⟩⟩
    rw [Nat.zero_add]
    refine (k3 x i).trans ?_
    obtain ⟨f1, f2⟩ := hab i a hi
    rw [f2]
    simp only [rate, f1, hc, h4]
    rfl
  have hflag : ∀ a : Fin 3, hasFlag f a = f.getLsbD a := by
    rcases flags_cases hor with rfl | rfl | rfl | rfl | rfl | rfl | rfl | rfl <;> decide
  have hnum : (if hasFlag f 0 = true then 1 else 0) + (if hasFlag f 1 = true then 1 else 0) + (if hasFlag f 2 = true then 1 else 0) =
      (([0, 1, 2] : List (Fin 3)).filter (hasFlag f)).length := by
    rcases flags_cases hor with rfl | rfl | rfl | rfl | rfl | rfl | rfl | rfl <;> decide
  have hpos : f ≠ 0#32 → (([0, 1, 2] : List (Fin 3)).filter (hasFlag f)).length ≠ 0 := by
    rcases flags_cases hor with rfl | rfl | rfl | rfl | rfl | rfl | rfl | rfl <;> decide
  have hax : flagAxes f = ([0, 1, 2] : List (Fin 3)).filter (hasFlag f) := by
    unfold flagAxes
    congr 1
    funext a
    exact (hflag a).symm
  rw [hax]
  by_cases h7 : allFlags = f
  · rw [if_pos h7, ok_bind]
    subst h7
    have e : ([0, 1, 2] : List (Fin 3)).filter (hasFlag allFlags) = [0, 1, 2] := by decide
    rw [e]
    obtain ⟨g, q⟩ := full J (scaleVec k (vec3 (w.motion_parameters.body_com_position - P))) [0, 1, 2] h3 rfl h4 (fun i a hi => by
      obtain rfl := axes_get hi
      refine ⟨fun c => rfl, ?_⟩
      unfold scaleVec vec3
      simp only [row3_fin])
    exact ⟨_, g, rfl, q⟩
  · rw [if_neg h7, hnum]
    unfold assertThat
    rw [if_pos (by
      rintro (hn | hn)
      · exact hpos h0 hn
      · exact hn hor)]
    obtain ⟨y, y1, y2, y3, y4, -, y5⟩ := copyRows_ok f (scaleVec k (vec3 (w.motion_parameters.body_com_position - P))) h3 [0, 1, 2]
      (0, ⟨(([0, 1, 2] : List (Fin 3)).filter (hasFlag f)).length, J.cols, junkA⟩,
        ⟨(([0, 1, 2] : List (Fin 3)).filter (hasFlag f)).length, junkB⟩) (by simp) rfl
    obtain ⟨g, q⟩ := full y.2.1 y.2.2 _ y2 y4 (y3.trans h4) (fun i a hi => by
      obtain ⟨u1, u2⟩ := y5 i a hi
      simp only [Nat.zero_add] at u1 u2
      refine ⟨u1, u2.trans ?_⟩
      unfold scaleVec vec3
      simp only [row3_fin])
    refine ⟨_, g, ?_, q⟩
    exact Eq.trans (congrArg (fun z : Res (ℕ × Mat ℝ × Vec ℝ) => z >>= fun y => pure (applyGain gain d y.2.1 y.2.2)) y1) rfl

/-- **C94.** Flags which select no axis, or which have other bits, are rejected. -/
theorem C94_bodyCoM_flags {r : Robot root} (h : Ready r) (w : Wbc) (gain k : ℝ) (f : BitVec 32)
    (hf : f = 0#32 ∨ ∃ i, 3 ≤ i ∧ f.getLsbD i = true) (junkA : ℕ → ℕ → ℝ) (junkB : ℕ → ℝ) (d : CtrData ℝ) :
    bodyCoMForm gain k f junkA junkB (ikEnv r w) d = .error .thrown := by
  obtain ⟨P, J, h1, -⟩ := body_point h
  unfold bodyCoMForm
  have e2 : (ikEnv r w).robot.getBodyCoM = .ok P := h1
  have h7 : allFlags = 7#32 := by decide
  rw [e2, ok_bind]
  rcases hf with rfl | ⟨i, hi, hb⟩
  · rfl
  · have hne : ¬ allFlags = f := by
      rintro rfl
      rw [h7] at hb
      have h32 := BitVec.lt_of_getLsbD hb
      have : (7#32).getLsbD i = false := by
        rw [BitVec.getLsbD, Nat.testBit_lt_two_pow]
        calc (7#32).toNat < 2 ^ 3 := by decide
          _ ≤ 2 ^ i := Nat.pow_le_pow_right (by omega) hi
      rw [this] at hb
      cases hb
    have hor : allFlags ||| f ≠ allFlags := by
      intro he
      have := congrArg (fun v => v.getLsbD i) he
      simp only [BitVec.getLsbD_or, hb, Bool.or_true] at this
      rw [h7] at this
      have : (7#32).getLsbD i = false := by
        rw [BitVec.getLsbD, Nat.testBit_lt_two_pow]
        calc (7#32).toNat < 2 ^ 3 := by decide
          _ ≤ 2 ^ i := Nat.pow_le_pow_right (by omega) hi
      simp_all
    rw [if_neg hne]
    generalize (if hasFlag f 0 = true then 1 else 0) + (if hasFlag f 1 = true then 1 else 0) + (if hasFlag f 2 = true then 1 else 0) = num
    show (assertThat (¬ (num = 0 ∨ allFlags ||| f ≠ allFlags)) >>= _) = _
    unfold assertThat
    rw [if_neg (fun hn => hn (Or.inr hor))]
    rfl

/-! ## Orientation of the base -/

/-- **C94.** `TaskBaseOrientation`: the base turns to its reference orientation; only about the vertical axis when the root is planar. -/
theorem C94_baseOrientation {r : Robot root} (h : Ready r) (w : Wbc) (gain k : ℝ) (d : CtrData ℝ) :
    ∃ d' g Rref, baseOrientationForm gain k (ikEnv r w) d = .ok d' ∧
      LinearTask (ikCtr root .ab d') root (if root = .planar then 1 else 3) ∧ UsedGain gain g ∧
      DescribesRpy w.motion_parameters.base_orientation_rpy Rref ∧
      TracksFrame r (ikCtr root .ab d') Robot.getBaseOrientation Rref k g 0 (if root = .planar then [2] else [0, 1, 2]) := by
  have hid : IsLink r.rbdl_model.rbdl_model r.base_orientation_tag := by
    rw [h.orientation]
    exact h.parts.base_link
  obtain ⟨R, J, h1, h0, h2, h3, h4, h5⟩ := link_frame h hid
  obtain ⟨Rref, e1, -, e2⟩ := axisRotation_product w.motion_parameters.base_orientation_rpy
  unfold baseOrientationForm
  have f1 : (ikEnv r w).robot.getBaseOrientationJacobian = .ok J := h2
  have f2 : (ikEnv r w).robot.getBaseOrientation = .ok R := h1
  have f3 : convertEulerAnglesToMatrix (ikEnv r w).wbc.motion_parameters.base_orientation_rpy .rpy = .ok Rref := e1
  rw [f1, ok_bind, f2, ok_bind, f3, ok_bind]
  by_cases hr : root = .planar
  · simp only [if_pos hr]
    obtain ⟨k1, g, k2, k3⟩ := gain_rows (root := root) gain d (A := ⟨1, J.cols, fun i c => J.e (J.rows - 1 + i) c⟩)
      (b := ⟨1, fun _ => k * getRotationErrorAngleAxis R Rref 2⟩) rfl rfl h4
    rw [require_true (by omega), ok_bind]
    refine ⟨_, g, Rref, rfl, k1, k2, e2, fun x => ⟨R, _, _, h5 x, error_meaning R Rref, fun i a hi => ?_⟩⟩
    have hia : i = 0 ∧ a = 2 := by
      match i, hi with
      | 0, hi => cases hi; exact ⟨rfl, rfl⟩
    obtain ⟨rfl, rfl⟩ := hia
    refine (k3 x 0).trans ?_
    simp only [rate, h3]
    rfl
  · simp only [if_neg hr]
    obtain ⟨k1, g, k2, k3⟩ := gain_rows (root := root) gain d (A := J) (b := scaleVec k (vec3 (getRotationErrorAngleAxis R Rref))) h3 rfl h4
    refine ⟨_, g, Rref, rfl, k1, k2, e2, fun x => ⟨R, _, _, h5 x, error_meaning R Rref, fun i a hi => ?_⟩⟩
    rw [Nat.zero_add]
    refine (k3 x i).trans ?_
    obtain rfl := axes_get hi
    unfold scaleVec vec3
    simp only [row3_fin]

/-! ## Links -/

/-- The tag of a task is not known yet or belongs to the link with the name from the parameters of the task. -/
def TagOf (r : Robot root) (name : String) (tag : Option ℕ) : Prop := tag = none ∨ tag = some (r.getLinkTag name)

theorem cachedTag_eq {r : Robot root} {name : String} {tag : Option ℕ} (h : TagOf r name tag) : cachedTag r name tag = r.getLinkTag name := by
  rcases h with rfl | rfl <;> rfl

/-- **C94.** `TaskTagOrientation`: the link turns to the reference orientation. -/
theorem C94_tagOrientation {r : Robot root} (h : Ready r) (w : Wbc) (gain k : ℝ) (name : String) (rpy : Fin 3 → ℝ) {tag : Option ℕ}
    (ht : TagOf r name tag) (hid : IsLink r.rbdl_model.rbdl_model (r.getLinkTag name)) (d : CtrData ℝ) :
    ∃ d' g Rref, tagOrientationForm gain k name rpy tag (ikEnv r w) d = .ok d' ∧ LinearTask (ikCtr root .ab d') root 3 ∧ UsedGain gain g ∧
      DescribesRpy rpy Rref ∧
      TracksFrame r (ikCtr root .ab d') (fun r' => r'.getTagOrientation (r.getLinkTag name)) Rref k g 0 [0, 1, 2] := by
  obtain ⟨R, J, h1, h0, h2, h3, h4, h5⟩ := link_frame h hid
  obtain ⟨Rref, e1, -, e2⟩ := axisRotation_product rpy
  unfold tagOrientationForm
  have f0 : cachedTag (ikEnv r w).robot name tag = r.getLinkTag name := cachedTag_eq ht
  simp only [f0]
  have f1 : (ikEnv r w).robot.getTagOrientationJacobian (r.getLinkTag name) = .ok J := h2
  have f2 : (ikEnv r w).robot.getTagOrientation (r.getLinkTag name) = .ok R := h1
  rw [f1, ok_bind, f2, ok_bind, e1, ok_bind]
  obtain ⟨k1, g, k2, k3⟩ := gain_rows (root := root) gain d (A := J) (b := scaleVec k (vec3 (getRotationErrorAngleAxis R Rref))) h3 rfl h4
  refine ⟨_, g, Rref, rfl, k1, k2, e2, fun x => ⟨R, _, _, h5 x, error_meaning R Rref, fun i a hi => ?_⟩⟩
  rw [Nat.zero_add]
  refine (k3 x i).trans ?_
  obtain rfl := axes_get hi
  unfold scaleVec vec3
  simp only [row3_fin]

theorem toVec_head (v : Vec6) (a : Fin 3) : v.toVec.e a = v.head a := by
  unfold Vec6.toVec
  simp only [if_pos a.2, row3_fin]

theorem toVec_tail (v : Vec6) (a : Fin 3) : v.toVec.e (3 + a) = v.tail a := by
  unfold Vec6.toVec
  have h1 : ¬ 3 + (a : ℕ) < 3 := by omega
  have h2 : 3 + (a : ℕ) - 3 = a := by omega
  simp only [if_neg h1, h2, row3_fin]

/-- The error of a pose. -/
theorem poseError_ok {r : Robot root} (h : Ready r) (w : Wbc) {name : String} (hid : IsLink r.rbdl_model.rbdl_model (r.getLinkTag name)) {pose : Vec6}
    (hp : w.tags_desired_pose_global.lookup name = some pose) {P : Fin 3 → ℝ} {R Rref : Mat3 ℝ} (hP : r.getTagPosition (r.getLinkTag name) = .ok P)
    (hR : r.getTagOrientation (r.getLinkTag name) = .ok R) (hr : convertEulerAnglesToMatrix pose.head .rpy = .ok Rref) :
    w.getTagPoseErrorInGlobal r name = .ok ⟨getRotationErrorAngleAxis R Rref, pose.tail - P⟩ := by
  unfold Wbc.getTagPoseErrorInGlobal
  simp only [hp]
  rw [hR, ok_bind, hr, ok_bind, hP]
  rfl

/-- **C94.** `TaskTagPose`: the link moves to its desired pose (angles followed by the position). -/
theorem C94_tagPose {r : Robot root} (h : Ready r) (w : Wbc) (gain k : ℝ) (name : String) {tag : Option ℕ} (ht : TagOf r name tag)
    (hid : IsLink r.rbdl_model.rbdl_model (r.getLinkTag name)) {pose : Vec6} (hp : w.tags_desired_pose_global.lookup name = some pose)
    (d : CtrData ℝ) :
    ∃ d' g Rref, tagPoseForm gain k name tag (ikEnv r w) d = .ok d' ∧ LinearTask (ikCtr root .ab d') root 6 ∧ UsedGain gain g ∧
      DescribesRpy pose.head Rref ∧
      TracksFrame r (ikCtr root .ab d') (fun r' => r'.getTagOrientation (r.getLinkTag name)) Rref k g 0 [0, 1, 2] ∧
      TracksPoint r (ikCtr root .ab d') (fun r' => r'.getTagPosition (r.getLinkTag name)) pose.tail k g 3 [0, 1, 2] := by
  obtain ⟨P, R, J, h1, h2, -, h3, h4, h5, h6, h7⟩ := link_complete h hid
  obtain ⟨Rref, e1, -, e2⟩ := axisRotation_product pose.head
  unfold tagPoseForm
  have f0 : cachedTag (ikEnv r w).robot name tag = r.getLinkTag name := cachedTag_eq ht
  have f1 : (ikEnv r w).robot.getTagCompleteJacobian (r.getLinkTag name) = .ok J := h3
  have f2 : (ikEnv r w).wbc.getTagPoseErrorInGlobal (ikEnv r w).robot name = .ok ⟨getRotationErrorAngleAxis R Rref, pose.tail - P⟩ :=
    poseError_ok h w hid hp h1 h2 e1
  rw [f0, f1, ok_bind, f2, ok_bind]
  obtain ⟨k1, g, k2, k3⟩ := gain_rows (root := root) gain d (A := J)
    (b := scaleVec k (Vec6.toVec ⟨getRotationErrorAngleAxis R Rref, pose.tail - P⟩)) h4 rfl h5
  refine ⟨_, g, Rref, rfl, k1, k2, e2, fun x => ⟨R, _, _, h6 x, error_meaning R Rref, fun i a hi => ?_⟩,
    fun x => ⟨P, _, h7 x, fun i a hi => ?_⟩⟩
  · rw [Nat.zero_add]
    refine (k3 x i).trans ?_
    obtain rfl := axes_get hi
    unfold scaleVec
    simp only [toVec_head]
  · refine (k3 x (3 + i)).trans ?_
    obtain rfl := axes_get hi
    unfold scaleVec
    simp only [toVec_tail]
    rfl

/-- **C94.** A link without a desired pose must not move. -/
theorem C94_tagPose_unknown {r : Robot root} (h : Ready r) (w : Wbc) (gain k : ℝ) (name : String) {tag : Option ℕ} (ht : TagOf r name tag)
    (hid : IsLink r.rbdl_model.rbdl_model (r.getLinkTag name)) (hp : w.tags_desired_pose_global.lookup name = none) (d : CtrData ℝ) :
    ∃ d' g, tagPoseForm gain k name tag (ikEnv r w) d = .ok d' ∧ LinearTask (ikCtr root .ab d') root 6 ∧ UsedGain gain g ∧
      ∀ x, ∃ P V R ω, PointMoves (fun r' => r'.getTagPosition (r.getLinkTag name)) r x P V ∧
        FrameTurns (fun r' => r'.getTagOrientation (r.getLinkTag name)) r x R ω ∧
        ∀ a : Fin 3, lhs (ikCtr root .ab d') x a - target (ikCtr root .ab d') a = g * ω a ∧
          lhs (ikCtr root .ab d') x (3 + a) - target (ikCtr root .ab d') (3 + a) = g * V a := by
  obtain ⟨P, R, J, h1, h2, -, h3, h4, h5, h6, h7⟩ := link_complete h hid
  unfold tagPoseForm
  have f0 : cachedTag (ikEnv r w).robot name tag = r.getLinkTag name := cachedTag_eq ht
  have f1 : (ikEnv r w).robot.getTagCompleteJacobian (r.getLinkTag name) = .ok J := h3
  have f2 : (ikEnv r w).wbc.getTagPoseErrorInGlobal (ikEnv r w).robot name = .ok ⟨0, 0⟩ := by
    show w.getTagPoseErrorInGlobal r name = _
    unfold Wbc.getTagPoseErrorInGlobal
    rw [hp]
  rw [f0, f1, ok_bind, f2, ok_bind]
  obtain ⟨k1, g, k2, k3⟩ := gain_rows (root := root) gain d (A := J) (b := scaleVec k (Vec6.toVec ⟨0, 0⟩)) h4 rfl h5
  refine ⟨_, g, rfl, k1, k2, fun x => ⟨P, _, R, _, h7 x, h6 x, fun a => ⟨?_, ?_⟩⟩⟩
  · refine (k3 x a).trans ?_
    unfold scaleVec
    simp only [toVec_head]
    simp
  · refine (k3 x (3 + a)).trans ?_
    unfold scaleVec
    simp only [toVec_tail]
    simp

/-- **C94.** `TaskTagPose3Dof`: the link moves to its desired pose along the vertical axis and about the two horizontal ones. It must not move
along the horizontal axes and turn about the vertical one. -/
theorem C94_tagPose3Dof {r : Robot root} (h : Ready r) (w : Wbc) (gain k : ℝ) (name : String) {tag : Option ℕ} (ht : TagOf r name tag)
    (hid : IsLink r.rbdl_model.rbdl_model (r.getLinkTag name)) {pose : Vec6} (hp : w.tags_desired_pose_global.lookup name = some pose)
    (d : CtrData ℝ) :
    ∃ d' g Rref, tagPose3DofForm gain k name tag (ikEnv r w) d = .ok d' ∧ LinearTask (ikCtr root .ab d') root 6 ∧ UsedGain gain g ∧
      DescribesRpy pose.head Rref ∧
      TracksFrame r (ikCtr root .ab d') (fun r' => r'.getTagOrientation (r.getLinkTag name)) Rref k g 0 [0, 1] ∧
      TracksPoint r (ikCtr root .ab d') (fun r' => r'.getTagPosition (r.getLinkTag name)) pose.tail k g 5 [2] ∧
      ∀ x, ∃ P V R ω, PointMoves (fun r' => r'.getTagPosition (r.getLinkTag name)) r x P V ∧
        FrameTurns (fun r' => r'.getTagOrientation (r.getLinkTag name)) r x R ω ∧
        lhs (ikCtr root .ab d') x 2 - target (ikCtr root .ab d') 2 = g * ω 2 ∧
        lhs (ikCtr root .ab d') x 3 - target (ikCtr root .ab d') 3 = g * V 0 ∧
        lhs (ikCtr root .ab d') x 4 - target (ikCtr root .ab d') 4 = g * V 1 := by
  obtain ⟨P, R, J, h1, h2, -, h3, h4, h5, h6, h7⟩ := link_complete h hid
  obtain ⟨Rref, e1, -, e2⟩ := axisRotation_product pose.head
  unfold tagPose3DofForm
  have f0 : cachedTag (ikEnv r w).robot name tag = r.getLinkTag name := cachedTag_eq ht
  have f1 : (ikEnv r w).robot.getTagCompleteJacobian (r.getLinkTag name) = .ok J := h3
  have f2 : (ikEnv r w).wbc.getTagPoseErrorInGlobal (ikEnv r w).robot name = .ok ⟨getRotationErrorAngleAxis R Rref, pose.tail - P⟩ :=
    poseError_ok h w hid hp h1 h2 e1
  rw [f0, f1, ok_bind, f2, ok_bind]
  obtain ⟨k1, g, k2, k3⟩ := gain_rows (root := root) gain d (A := J)
    (b := ⟨6, fun i => if 2 ≤ i ∧ i < 2 + 3 then (scaleVec k (Vec6.toVec ⟨getRotationErrorAngleAxis R Rref, pose.tail - P⟩)).e i * 0
      else (scaleVec k (Vec6.toVec ⟨getRotationErrorAngleAxis R Rref, pose.tail - P⟩)).e i⟩) h4 rfl h5
  refine ⟨_, g, Rref, rfl, k1, k2, e2, fun x => ⟨R, _, _, h6 x, error_meaning R Rref, fun i a hi => ?_⟩,
    fun x => ⟨P, _, h7 x, fun i a hi => ?_⟩, fun x => ⟨P, _, R, _, h7 x, h6 x, ?_, ?_, ?_⟩⟩
  · have hia : i = a ∧ i < 2 := by
      match i, hi with
      | 0, hi => cases hi; exact ⟨rfl, by omega⟩
      | 1, hi => cases hi; exact ⟨rfl, by omega⟩
    rw [Nat.zero_add]
    refine (k3 x i).trans ?_
    obtain ⟨rfl, hi2⟩ := hia
    simp only [if_neg (show ¬ (2 ≤ (a : ℕ) ∧ (a : ℕ) < 2 + 3) by omega), scaleVec, toVec_head]
  · have hia : i = 0 ∧ a = 2 := by
      match i, hi with
      | 0, hi => cases hi; exact ⟨rfl, rfl⟩
    obtain ⟨rfl, rfl⟩ := hia
    refine (k3 x 5).trans ?_
    simp only [if_neg (show ¬ (2 ≤ 5 ∧ 5 < 2 + 3) by omega), scaleVec]
    have := toVec_tail ⟨getRotationErrorAngleAxis R Rref, pose.tail - P⟩ 2
    simp only [show 3 + ((2 : Fin 3) : ℕ) = 5 from rfl] at this
    rw [this]
    rfl
  · refine (k3 x 2).trans ?_
    simp only [if_pos (show 2 ≤ 2 ∧ 2 < 2 + 3 by omega), mul_zero, sub_zero]
    rfl
  · refine (k3 x 3).trans ?_
    simp only [if_pos (show 2 ≤ 3 ∧ 3 < 2 + 3 by omega), mul_zero, sub_zero]
    rfl
  · refine (k3 x 4).trans ?_
    simp only [if_pos (show 2 ≤ 4 ∧ 4 < 2 + 3 by omega), mul_zero, sub_zero]
    rfl

/-- The velocity of a moving point is unique. -/
theorem pointMoves_unique {pos : Robot root → Res (Fin 3 → ℝ)} {r : Robot root} {x : ℕ → ℝ} {P V P' V' : Fin 3 → ℝ} (h : PointMoves pos r x P V)
    (h' : PointMoves pos r x P' V') : V = V' := by
  obtain ⟨Q, q1, -, q3⟩ := h
  obtain ⟨Q2, q4, -, q6⟩ := h'
  obtain rfl : Q = Q2 := by
    funext s
    exact Except.ok.inj ((q1 s).symm.trans (q4 s))
  funext a
  exact (q3 a).unique (q6 a)

/-- **C94, refuted.** `TaskTagPose3Dof` is documented as a pose with three degrees of freedom (about x, about y, along z), but it does not leave
the other ones free: a link which satisfies it does not move along the horizontal axes, wherever the desired pose is. -/
theorem C94_tagPose3Dof_refuted {r : Robot root} (h : Ready r) (w : Wbc) {gain : ℝ} (hg : gain ≠ 0) (k : ℝ) (name : String)
    (hid : IsLink r.rbdl_model.rbdl_model (r.getLinkTag name)) {pose : Vec6} (hp : w.tags_desired_pose_global.lookup name = some pose)
    (d : CtrData ℝ) :
    ∃ d', tagPose3DofForm gain k name none (ikEnv r w) d = .ok d' ∧
      ∀ x, Satisfied (ikCtr root .ab d') x → ∀ P V, PointMoves (fun r' => r'.getTagPosition (r.getLinkTag name)) r x P V → V 0 = 0 ∧ V 1 = 0 := by
  obtain ⟨d', g, Rref, h1, h2, h3, -, -, -, h4⟩ := C94_tagPose3Dof h w gain k name (tag := none) (Or.inl rfl) hid hp d
  have hg0 : g ≠ 0 := by
    rcases h3 with rfl | ⟨rfl, -⟩
    · exact hg
    · exact one_ne_zero
  refine ⟨d', h1, fun x hx P V hm => ?_⟩
  obtain ⟨P2, V2, R2, ω2, m1, -, -, m3, m4⟩ := h4 x
  have hrow : ∀ i, i < 6 → lhs (ikCtr root .ab d') x i - target (ikCtr root .ab d') i = 0 := by
    intro i hi
    have hr := hx i (by rw [h2.rows]; omega)
    simp only [RowHolds, lower, upper, ikCtr, Option.some.injEq, forall_eq'] at hr
    exact sub_eq_zero.2 (le_antisymm hr.2 hr.1)
  rw [hrow 3 (by omega)] at m3
  rw [hrow 4 (by omega)] at m4
  rw [pointMoves_unique hm m1]
  exact ⟨(mul_eq_zero.1 m3.symm).resolve_left hg0, (mul_eq_zero.1 m4.symm).resolve_left hg0⟩

/-- **C94.** `TaskTagAngularVelocity`: the angular velocity of the link must be `k` multiplied by the requested one. -/
theorem C94_tagAngularVelocity {r : Robot root} (h : Ready r) (w : Wbc) (gain k : ℝ) (name : String) {tag : Option ℕ} (ht : TagOf r name tag)
    (hid : IsLink r.rbdl_model.rbdl_model (r.getLinkTag name)) (d : CtrData ℝ) :
    ∃ d' g, tagAngularVelocityForm gain k name tag (ikEnv r w) d = .ok d' ∧ LinearTask (ikCtr root .ab d') root 3 ∧ UsedGain gain g ∧
      ∀ x, ∃ R ω, FrameTurns (fun r' => r'.getTagOrientation (r.getLinkTag name)) r x R ω ∧
        ∀ a : Fin 3, lhs (ikCtr root .ab d') x a - target (ikCtr root .ab d') a = g * (ω a - k * (R *ᵥ (requested w name).tail) a) := by
  obtain ⟨R, J, h1, h0, h2, h3, h4, h5⟩ := link_frame h hid
  unfold tagAngularVelocityForm
  have f0 : cachedTag (ikEnv r w).robot name tag = r.getLinkTag name := cachedTag_eq ht
  have f1 : (ikEnv r w).robot.getTagOrientationJacobian (r.getLinkTag name) = .ok J := h2
  have f2 : Wbc.getTagVelocityInGlobal (ikEnv r w).robot name ((ikEnv r w).wbc.localVelocity name) .rotation =
      .ok (vec3 (R *ᵥ (requested w name).tail)) := by
    show Wbc.getTagVelocityInGlobal r name (requested w name) .rotation = _
    unfold Wbc.getTagVelocityInGlobal
    show (r.getTagOrientation (r.getLinkTag name) >>= _) = _
    rw [h1]
    rfl
  rw [f0, f1, ok_bind]
  have f3 : (ikEnv r w).wbc.getTagVelocityInLocal name .complete = .ok ((ikEnv r w).wbc.localVelocity name).toVec := rfl
  rw [f3, ok_bind, f2, ok_bind]
  obtain ⟨k1, g, k2, k3⟩ := gain_rows (root := root) gain d (A := J) (b := scaleVec k (vec3 (R *ᵥ (requested w name).tail))) h3 rfl h4
  refine ⟨_, g, rfl, k1, k2, fun x => ⟨R, _, h5 x, fun a => (k3 x a).trans ?_⟩⟩
  unfold scaleVec vec3
  simp only [row3_fin]

/-- The velocity of a link in the global frame. -/
theorem velocityInGlobal_ok {r : Robot root} {name : String} {P : Fin 3 → ℝ} {R : Mat3 ℝ} (hP : r.getTagPosition (r.getLinkTag name) = .ok P)
    (hR : r.getTagOrientation (r.getLinkTag name) = .ok R) (v : Vec6) :
    Wbc.getTagVelocityInGlobal r name v .translation = .ok (vec3 (vectorProduct P (R *ᵥ v.tail) + R *ᵥ v.head)) ∧
    Wbc.getTagVelocityInGlobal r name v .complete =
      .ok (Vec6.toVec ⟨R *ᵥ v.tail, vectorProduct P (R *ᵥ v.tail) + R *ᵥ v.head⟩) := by
  constructor
  · unfold Wbc.getTagVelocityInGlobal
    show (r.getTagPosition (r.getLinkTag name) >>= _) = _
    rw [hP, ok_bind, hR]
    rfl
  · unfold Wbc.getTagVelocityInGlobal
    show (r.getTagOrientation (r.getLinkTag name) >>= _) = _
    rw [hR, ok_bind, hP]
    rfl

/-- **C94**, in part. `TaskTagCompleteVelocity`: the angular velocity of the link must be `k` multiplied by the requested one. The linear
velocity of the link must be `k` multiplied by the requested one plus the vector product of the position of the link and its requested angular
velocity; this is the requested velocity only if the product is zero, see `C94_tagCompleteVelocity_refuted`. -/
theorem C94_tagCompleteVelocity_partial {r : Robot root} (h : Ready r) (w : Wbc) (gain k : ℝ) (name : String) {tag : Option ℕ} (ht : TagOf r name tag)
    (hid : IsLink r.rbdl_model.rbdl_model (r.getLinkTag name)) (d : CtrData ℝ) :
    ∃ d' g, tagCompleteVelocityForm gain k name tag (ikEnv r w) d = .ok d' ∧ LinearTask (ikCtr root .ab d') root 6 ∧ UsedGain gain g ∧
      ∀ x, ∃ P V R ω, PointMoves (fun r' => r'.getTagPosition (r.getLinkTag name)) r x P V ∧
        FrameTurns (fun r' => r'.getTagOrientation (r.getLinkTag name)) r x R ω ∧
        (∀ a : Fin 3, lhs (ikCtr root .ab d') x a - target (ikCtr root .ab d') a = g * (ω a - k * (R *ᵥ (requested w name).tail) a)) ∧
        (∀ a : Fin 3, lhs (ikCtr root .ab d') x (3 + a) - target (ikCtr root .ab d') (3 + a) =
          g * (V a - k * ((R *ᵥ (requested w name).head) a + vectorProduct P (R *ᵥ (requested w name).tail) a))) := by
  obtain ⟨P, R, J, h1, h2, -, h3, h4, h5, h6, h7⟩ := link_complete h hid
  unfold tagCompleteVelocityForm
  have f0 : cachedTag (ikEnv r w).robot name tag = r.getLinkTag name := cachedTag_eq ht
  have f1 : (ikEnv r w).robot.getTagCompleteJacobian (r.getLinkTag name) = .ok J := h3
  have f2 : Wbc.getTagVelocityInGlobal (ikEnv r w).robot name ((ikEnv r w).wbc.localVelocity name) .complete =
      .ok (Vec6.toVec ⟨R *ᵥ (requested w name).tail, vectorProduct P (R *ᵥ (requested w name).tail) + R *ᵥ (requested w name).head⟩) :=
    (velocityInGlobal_ok h1 h2 _).2
  have f3 : (ikEnv r w).wbc.getTagVelocityInLocal name .complete = .ok ((ikEnv r w).wbc.localVelocity name).toVec := rfl
  rw [f0, f1, ok_bind, f3, ok_bind, f2, ok_bind]
  obtain ⟨k1, g, k2, k3⟩ := gain_rows (root := root) gain d (A := J)
    (b := scaleVec k (Vec6.toVec ⟨R *ᵥ (requested w name).tail, vectorProduct P (R *ᵥ (requested w name).tail) + R *ᵥ (requested w name).head⟩)) h4 rfl h5
  refine ⟨_, g, rfl, k1, k2, fun x => ⟨P, _, R, _, h7 x, h6 x, fun a => (k3 x a).trans ?_, fun a => (k3 x (3 + a)).trans ?_⟩⟩
  · unfold scaleVec
    simp only [toVec_head]
  · unfold scaleVec
    simp only [toVec_tail, Pi.add_apply]
    rw [add_comm (vectorProduct P _ a)]

/-- There is an angular velocity whose vector product with a given vector is not zero. -/
theorem product_nonzero {P : Fin 3 → ℝ} (hP : P ≠ 0) {R : Mat3 ℝ} (hR : IsRotation R) : ∃ ω : Fin 3 → ℝ, vectorProduct P (R *ᵥ ω) ≠ 0 := by
  have key : ∃ u : Fin 3 → ℝ, vectorProduct P u ≠ 0 := by
    by_contra hn
    have hn : ∀ u : Fin 3 → ℝ, vectorProduct P u = 0 := fun u => by
      by_contra h
      exact hn ⟨u, h⟩
    apply hP
    have k0 := hn ![1, 0, 0]
    have k1 := hn ![0, 1, 0]
    funext i
    fin_cases i
    · have := congrFun k1 2
      simpa [vectorProduct] using this
    · have := congrFun k0 2
      simpa [vectorProduct] using this
    · have := congrFun k0 1
      simpa [vectorProduct] using this
  obtain ⟨u, hu⟩ := key
  refine ⟨Rᵀ *ᵥ u, ?_⟩
  rw [Matrix.mulVec_mulVec, hR.right_inv, Matrix.one_mulVec]
  exact hu

/-- **C94** fails for `TaskTagCompleteVelocity`: for each link which is not at the origin there is a velocity such that the link never moves with
this velocity if the task is satisfied. -/
theorem C94_tagCompleteVelocity_refuted {r : Robot root} (h : Ready r) {gain : ℝ} (hg : gain ≠ 0) {name : String}
    (hid : IsLink r.rbdl_model.rbdl_model (r.getLinkTag name)) {P : Fin 3 → ℝ} (hP : r.getTagPosition (r.getLinkTag name) = .ok P) (hP0 : P ≠ 0)
    (w0 : Wbc) (d : CtrData ℝ) :
    ∃ v d', tagCompleteVelocityForm gain 1 name none (ikEnv r (w0.setTagsVelocity [(name, v)])) d = .ok d' ∧
      ∀ x, Satisfied (ikCtr root .ab d') x → ∀ P V R ω, PointMoves (fun r' => r'.getTagPosition (r.getLinkTag name)) r x P V →
        FrameTurns (fun r' => r'.getTagOrientation (r.getLinkTag name)) r x R ω → V ≠ R *ᵥ v.head := by
  obtain ⟨R, J, hR, hR1, -⟩ := link_frame h hid
  obtain ⟨ω, hω⟩ := product_nonzero hP0 hR1
  have hreq : requested (w0.setTagsVelocity [(name, ⟨0, ω⟩)]) name = ⟨0, ω⟩ := by
    unfold requested Wbc.setTagsVelocity
    simp
  obtain ⟨d', g, h1, h2, h3, h4⟩ := C94_tagCompleteVelocity_partial h (w0.setTagsVelocity [(name, ⟨0, ω⟩)]) gain 1 name (tag := none) (Or.inl rfl)
    hid d
  refine ⟨⟨0, ω⟩, d', h1, fun x hx P' V' R' ω' hm hf hv => hω ?_⟩
  have hg0 : g ≠ 0 := by
    rcases h3 with rfl | ⟨rfl, -⟩
    · exact hg
    · exact one_ne_zero
  obtain ⟨P2, V2, R2, ω2, m1, m2, -, m4⟩ := h4 x
  obtain ⟨Q, q1, q2, q3⟩ := hm
  obtain ⟨Q2, q4, q5, q6⟩ := m1
  have hQ : Q = Q2 := by
    funext s
    exact Except.ok.inj ((q1 s).symm.trans (q4 s))
  subst hQ
  have hVV : V' = V2 := by
    funext a
    exact (q3 a).unique (q6 a)
  have e0 := q4 0
  rw [along_zero h] at e0
  have hP2 : P2 = P := by
    rw [← q5]
    exact Except.ok.inj (e0.symm.trans hP)
  obtain ⟨-, S, S', s1, s2, -⟩ := m2
  have e1 := s1 0
  rw [along_zero h] at e1
  have hR2 : R2 = R := by
    rw [← s2]
    exact Except.ok.inj (e1.symm.trans hR)
  funext a
  have hrow : lhs (ikCtr root .ab d') x (3 + a) - target (ikCtr root .ab d') (3 + a) = 0 := by
    have hr := hx (3 + a) (by rw [h2.rows]; omega)
    simp only [RowHolds, lower, upper, ikCtr, Option.some.injEq, forall_eq'] at hr
    exact sub_eq_zero.2 (le_antisymm hr.2 hr.1)
  have := m4 a
  rw [hrow, hreq, ← hVV, hv, hP2, hR2] at this
  have := (mul_eq_zero.1 this.symm).resolve_left hg0
  simp only [Matrix.mulVec_zero, Pi.zero_apply, zero_add, one_mul, zero_sub, neg_eq_zero] at this
  exact this

/-! ## C62: desired poses -/

/-- The desired pose of a link. -/
theorem desiredPose_ok {ea : Mat3 ℝ → Fin 3 → Fin 3 → Fin 3 → (Fin 3 → ℝ)} (hea : ExtractsAngles ea) {r : Robot root} (h : Ready r) (w : Wbc)
    {name : String} (hid : IsLink r.rbdl_model.rbdl_model (r.getLinkTag name)) :
    ∃ pose P R, w.desiredPose ea r name = .ok pose ∧ r.getTagPosition (r.getLinkTag name) = .ok P ∧
      r.getTagOrientation (r.getLinkTag name) = .ok R ∧
      (∀ a, pose.tail a = P a + w.control_interval *
        ((R *ᵥ (requested w name).head) a + vectorProduct P (R *ᵥ (requested w name).tail) a)) ∧
      ((requested w name).tail = 0 → DescribesRpy pose.head R) := by
  obtain ⟨P, -, hP, -⟩ := link_point h hid
  obtain ⟨R, -, hR, hR1, -⟩ := link_frame h hid
  have hw : (fun i : Fin 3 => (vec3 (requested w name).tail).e i) = (requested w name).tail := by
    funext i
    exact row3_fin _ i
  refine ⟨⟨fun i => ea (integrateAngularVelocity R (requested w name).tail w.control_interval) 2 1 0 (Fin.rev i),
    fun i => P i + w.control_interval * (vec3 (vectorProduct P (R *ᵥ (requested w name).tail) + R *ᵥ (requested w name).head)).e i⟩,
    P, R, ?_, hP, hR, fun a => ?_, fun h0 => ?_⟩
  · unfold Wbc.desiredPose
    show (r.getTagOrientation (r.getLinkTag name) >>= _) = _
    rw [hR, ok_bind]
    rw [show w.getTagVelocityInLocal name .rotation = .ok (vec3 (requested w name).tail) from rfl, ok_bind, hw]
    show (r.getTagPosition (r.getLinkTag name) >>= _) = _
    rw [hP, ok_bind]
    show (Wbc.getTagVelocityInGlobal r name (requested w name) .translation >>= _) = _
    rw [(velocityInGlobal_ok hP hR _).1]
    rfl
  · show P a + w.control_interval * Rbdl.row3 _ a = _
    rw [row3_fin, Pi.add_apply, add_comm (vectorProduct P _ a)]
  · have hint : integrateAngularVelocity R (requested w name).tail w.control_interval = R := by
      rw [h0]
      exact (C34_identity R 0 w.control_interval 1 one_pos).2.2.1
    show DescribesRpy (fun i => ea _ 2 1 0 (Fin.rev i)) R
    rw [hint]
    obtain ⟨A, B, C, hA, hB, hC, e⟩ := hea R hR1 2 0 (Or.inr ⟨rfl, rfl⟩)
    exact ⟨C, B, A, hC, hB, hA, e⟩

theorem assign_lookup (m : List (String × Vec6)) (key name : String) (v : Vec6) :
    (Wbc.assign m key v).lookup name = if name = key then some v else m.lookup name := by
  have filt : ∀ m : List (String × Vec6), name ≠ key → (m.filter fun p => p.1 ≠ key).lookup name = m.lookup name := by
    intro m hne
    induction m with
    | nil => rfl
    | cons p m ih =>
      by_cases hp : p.1 = key
      · have hb : (name == p.1) = false := by
          rw [hp]
          simpa using hne
        rw [List.filter_cons_of_neg (by simpa using hp), ih, List.lookup_cons, hb]
      · rw [List.filter_cons_of_pos (by simpa using hp), List.lookup_cons, List.lookup_cons, ih]
  unfold Wbc.assign
  by_cases h : name = key
  · subst h
    simp
  · have hb : (name == key) = false := by simpa using h
    rw [List.lookup_cons, hb, if_neg h]
    exact filt m h

/-- All desired poses are computed. -/
theorem desiredPoses_ok {ea : Mat3 ℝ → Fin 3 → Fin 3 → Fin 3 → (Fin 3 → ℝ)} (w : Wbc) (r : Robot root) (pose : String → Vec6)
    (l : List (String × Vec6)) (hl : ∀ p ∈ l, w.desiredPose ea r p.1 = .ok (pose p.1)) (m : List (String × Vec6)) :
    ∃ m', l.foldlM (fun m p => do
        let pose ← w.desiredPose ea r p.1
        pure (Wbc.assign m p.1 pose)) m = (.ok m' : Res _) ∧
      (∀ name ∈ l.map Prod.fst, m'.lookup name = some (pose name)) ∧ ∀ name, name ∉ l.map Prod.fst → m'.lookup name = m.lookup name := by
  induction l generalizing m with
  | nil => exact ⟨m, rfl, by simp, by simp⟩
  | cons p l ih =>
    rw [List.foldlM_cons, hl p (by simp), ok_bind]
    obtain ⟨m', h1, h2, h3⟩ := ih (fun q hq => hl q (by simp [hq])) (Wbc.assign m p.1 (pose p.1))
    refine ⟨m', h1, fun name hn => ?_, fun name hn => ?_⟩
    · by_cases hm : name ∈ l.map Prod.fst
      · exact h2 name hm
      · rw [h3 name hm, assign_lookup]
        simp only [List.map_cons, List.mem_cons] at hn
        rw [if_pos (hn.resolve_right hm), hn.resolve_right hm]
    · simp only [List.map_cons, List.mem_cons, not_or] at hn
      rw [h3 name hn.2, assign_lookup, if_neg hn.1]

/-- **C62**, in part. After `computeTagsDesiredPoseInGlobal` each link with a requested velocity has a desired pose, desired poses of other links are
kept. The desired position is the current one plus the interval multiplied by the requested linear velocity in the global frame, if the vector
product of the position of the link and of its requested angular velocity is zero; otherwise the product is added to the velocity, see `C62_refuted`.
If the requested angular velocity is zero, the desired orientation is the current one. -/
theorem C62_partial {ea : Mat3 ℝ → Fin 3 → Fin 3 → Fin 3 → (Fin 3 → ℝ)} (hea : ExtractsAngles ea) {r : Robot root} (h : Ready r) (w : Wbc)
    (hid : ∀ p ∈ w.tags_velocity, IsLink r.rbdl_model.rbdl_model (r.getLinkTag p.1)) :
    ∃ w', w.computeTagsDesiredPoseInGlobal ea r = .ok w' ∧ w'.tags_velocity = w.tags_velocity ∧
      (∀ name ∈ w.tags_velocity.map Prod.fst, ∃ pose P R, w'.tags_desired_pose_global.lookup name = some pose ∧
        r.getTagPosition (r.getLinkTag name) = .ok P ∧ r.getTagOrientation (r.getLinkTag name) = .ok R ∧
        (vectorProduct P (R *ᵥ (requested w name).tail) = 0 → pose.tail = P + w.control_interval • (R *ᵥ (requested w name).head)) ∧
        pose.tail = P + w.control_interval • (R *ᵥ (requested w name).head + vectorProduct P (R *ᵥ (requested w name).tail)) ∧
        ((requested w name).tail = 0 → DescribesRpy pose.head R)) ∧
      ∀ name, name ∉ w.tags_velocity.map Prod.fst → w'.tags_desired_pose_global.lookup name = w.tags_desired_pose_global.lookup name := by
  have hk : ∀ name, ∃ pose, name ∈ w.tags_velocity.map Prod.fst → ∃ P R, w.desiredPose ea r name = .ok pose ∧
      r.getTagPosition (r.getLinkTag name) = .ok P ∧ r.getTagOrientation (r.getLinkTag name) = .ok R ∧
      (∀ a, pose.tail a = P a + w.control_interval *
        ((R *ᵥ (requested w name).head) a + vectorProduct P (R *ᵥ (requested w name).tail) a)) ∧
      ((requested w name).tail = 0 → DescribesRpy pose.head R) := by
    intro name
    by_cases hn : name ∈ w.tags_velocity.map Prod.fst
    · obtain ⟨p, hp, rfl⟩ := List.mem_map.1 hn
      obtain ⟨pose, P, R, h1⟩ := desiredPose_ok hea h w (hid p hp)
      exact ⟨pose, fun _ => ⟨P, R, h1⟩⟩
    · exact ⟨⟨0, 0⟩, fun h => absurd h hn⟩
  choose pose hpose using hk
  obtain ⟨m', h1, h2, h3⟩ := desiredPoses_ok w r pose w.tags_velocity (ea := ea) (fun p hp => by
    obtain ⟨P, R, e, -⟩ := hpose p.1 (List.mem_map.2 ⟨p, hp, rfl⟩)
    exact e) w.tags_desired_pose_global
  refine ⟨{ w with tags_desired_pose_global := m' }, ?_, rfl, fun name hn => ?_, h3⟩
  · unfold Wbc.computeTagsDesiredPoseInGlobal
    rw [h1]
    rfl
  · obtain ⟨P, R, -, e1, e2, e3, e4⟩ := hpose name hn
    refine ⟨pose name, P, R, h2 name hn, e1, e2, fun hz => ?_, ?_, e4⟩
    · funext a
      rw [e3 a, hz]
      simp
    · funext a
      rw [e3 a]
      rfl

/-- **C62** fails: for each link which is not at the origin there is a requested velocity such that the desired position differs from the current one
plus the interval multiplied by the linear velocity in the global frame. -/
theorem C62_refuted {ea : Mat3 ℝ → Fin 3 → Fin 3 → Fin 3 → (Fin 3 → ℝ)} (hea : ExtractsAngles ea) {r : Robot root} (h : Ready r) (w0 : Wbc)
    (hdt : w0.control_interval ≠ 0) {name : String} (hid : IsLink r.rbdl_model.rbdl_model (r.getLinkTag name)) {P : Fin 3 → ℝ} {R : Mat3 ℝ}
    (hP : r.getTagPosition (r.getLinkTag name) = .ok P) (hR : r.getTagOrientation (r.getLinkTag name) = .ok R) (hP0 : P ≠ 0) :
    ∃ v w' pose, (w0.setTagsVelocity [(name, v)]).computeTagsDesiredPoseInGlobal ea r = .ok w' ∧
      w'.tags_desired_pose_global.lookup name = some pose ∧ pose.tail ≠ P + w0.control_interval • (R *ᵥ v.head) := by
  obtain ⟨R1, J, hR', hR1, -⟩ := link_frame h hid
  obtain rfl := Except.ok.inj (hR.symm.trans hR')
  obtain ⟨ω, hω⟩ := product_nonzero hP0 hR1
  obtain ⟨w', h1, -, h2, -⟩ := C62_partial hea h (w0.setTagsVelocity [(name, ⟨0, ω⟩)]) (fun p hp => by
    have hp : p ∈ [(name, (⟨0, ω⟩ : Vec6))] := hp
    simp only [List.mem_singleton] at hp
    rw [hp]
    exact hid)
  obtain ⟨pose, P', R', e1, e2, e3, -, e4, -⟩ := h2 name (by simp [Wbc.setTagsVelocity])
  obtain rfl := Except.ok.inj (hP.symm.trans e2)
  obtain rfl := Except.ok.inj (hR.symm.trans e3)
  have hreq : requested (w0.setTagsVelocity [(name, ⟨0, ω⟩)]) name = ⟨0, ω⟩ := by
    unfold requested Wbc.setTagsVelocity
    simp
  refine ⟨⟨0, ω⟩, w', pose, h1, e1, fun he => hω ?_⟩
  rw [e4, hreq] at he
  funext a
  have := congrFun he a
  have hc : (w0.setTagsVelocity [(name, ⟨0, ω⟩)]).control_interval = w0.control_interval := rfl
  simp only [hc, Pi.add_apply, Pi.smul_apply, smul_eq_mul, Matrix.mulVec_zero, Pi.zero_apply, zero_add, mul_zero, add_zero, add_eq_left,
    mul_eq_zero] at this
  exact this.resolve_left hdt

/-! ## States and solutions -/

/-- **C94.** Errors of the state: distances of the centres of mass to the reference positions and the difference between the orientation of the base
and the reference one. -/
theorem C94_stateError {r : Robot root} (h : Ready r) (p : MotionParameters) :
    ∃ e base body R Rref, r.getStateError p = .ok e ∧ r.getBaseCoM = .ok base ∧ r.getBodyCoM = .ok body ∧ r.getBaseOrientation = .ok R ∧
      DescribesRpy p.base_orientation_rpy Rref ∧
      (∀ a, e.base_com_position a = p.base_com_position a - base a) ∧ (∀ a, e.body_com_position a = p.body_com_position a - body a) ∧
      RotationError e.base_orientation_rpy R Rref := by
  obtain ⟨base, -, h1, -⟩ := base_point h
  obtain ⟨body, -, h2, -⟩ := body_point h
  have hid : IsLink r.rbdl_model.rbdl_model r.base_orientation_tag := by
    rw [h.orientation]
    exact h.parts.base_link
  obtain ⟨R, -, h3, -⟩ := link_frame h hid
  obtain ⟨Rref, e1, -, e2⟩ := axisRotation_product p.base_orientation_rpy
  refine ⟨⟨p.base_com_position - base, p.body_com_position - body, getRotationErrorAngleAxis R Rref⟩, base, body, R, Rref, ?_, h1, h2, h3, e2,
    fun _ => rfl, fun _ => rfl, error_meaning R Rref⟩
  unfold Robot.getStateError
  have h3 : r.getBaseOrientation = .ok R := h3
  rw [h1, ok_bind, h2, ok_bind, h3, ok_bind, e1]
  rfl

/-- **C94.** A solution of the problem is a displacement of the coordinates. Each solution can be taken only once. -/
theorem C94_next (w : Wbc) (p : MotionParameters) (r : Robot root) (x : List ℝ) (st : SolverStatus) (hx : x.length = root.dof + 15) :
    ∃ w', (w.update root p).getNextGeneralizedCoordinates ⟨(w.update root p).sol_structure, x, st⟩ r =
      .ok (w', displaced r.state (fun i => x.getD i 0) 1) ∧ w'.motion_parameters = p ∧
      ∀ sol, w'.getNextGeneralizedCoordinates sol r = .error .thrown := by
  have hd : root.dof ≤ x.length := by omega
  refine ⟨{ w.update root p with solution_is_parsed := true }, ?_, rfl, fun sol => rfl⟩
  have hp0 : Solution.getPart ⟨(w.update root p).sol_structure, x, st⟩ rootVelId = .ok (x.take root.dof) := by
    show Solution.getData ⟨_, x, st⟩ ((Wbc.solutionStructure root).location rootVelId) = _
    rw [ik_root]
    unfold Solution.getData assertThat
    rw [if_pos ((Location.checkLength_iff _ _).2 (by show 0 + root.dof ≤ x.length; omega))]
    rfl
  have hp1 : Solution.getPart ⟨(w.update root p).sol_structure, x, st⟩ jointsVelId = .ok ((x.drop root.dof).take jointsDof) := by
    show Solution.getData ⟨_, x, st⟩ ((Wbc.solutionStructure root).location jointsVelId) = _
    rw [ik_joints]
    unfold Solution.getData assertThat
    rw [if_pos ((Location.checkLength_iff _ _).2 (by show root.dof + 15 ≤ x.length; omega))]
    rfl
  unfold Wbc.getNextGeneralizedCoordinates
  rw [show assertThat ((w.update root p).solution_is_parsed = false) = .ok () from rfl, ok_bind, hp0, ok_bind,
    require_true (by simp; omega), ok_bind, hp1, ok_bind, require_true (by simp [jointsDof]; omega), ok_bind]
  show Except.ok _ = Except.ok _
  congr 2
  unfold displaced
  congr 1
  · funext i
    rw [one_mul]
    congr 1
    simp only [List.getD_eq_getElem?_getD, List.getElem?_take_of_lt i.2]
  · funext i
    rw [one_mul]
    congr 1
    simp only [List.getD_eq_getElem?_getD, List.getElem?_take_of_lt i.2, List.getElem?_drop]

/-! ## An example -/

/-- A robot whose bodies slide along the axis x, each in the frame of the previous one. -/
noncomputable def slider (n : ℕ) (q : ℕ → ℝ) : RbdlModel ℝ where
  size := n + 1
  lambda := fun i => i - 1
  mJoints := fun _ => .one ⟨0, ![1, 0, 0]⟩
  q_index := fun i => i - 1
  X_base := fun i => ⟨1, ![∑ k ∈ Finset.range i, q k, 0, 0]⟩
  mBodies := fun _ => ⟨1, 0⟩
  fixed_body_discriminator := 2 ^ 31
  mFixedBodies := []
  q_size := n
  GetBodyId := fun _ => 1

theorem slider_rigid {n : ℕ} (hn : n < 2 ^ 31) : RigidRobot (slider n) n := by
  refine ⟨fun q => ?_, fun q => rfl, fun q q' => ⟨rfl, rfl, rfl, rfl, rfl⟩, fun q q' => rfl, fun q dq t hq => ?_, fun q b hb => by cases hb⟩
  · constructor
    · intro i h0 hi
      show i - 1 < i
      omega
    · intro i h0 hi m
      simp [slider]
    · intro i h0 hi
      have hi : i < n + 1 := hi
      show i - 1 + 1 ≤ n
      omega
    · intro i j h0 h1 hi hj hne k hk l hl
      have hk : k < 1 := hk
      have hl : l < 1 := hl
      show i - 1 + k ≠ j - 1 + l
      omega
    · intro b hb
      cases hb
    · show n + 1 ≤ 2 ^ 31 ∧ 2 ^ 31 + 0 ≤ 2 ^ 32 - 1
      constructor
      · omega
      · norm_num
  · refine ⟨fun s => ⟨rfl, rfl, rfl, rfl, rfl⟩, fun s => ?_, fun i h0 hi => ?_⟩
    · show (⟨1, ![∑ k ∈ Finset.range 0, q s k, 0, 0]⟩ : Rbdl.Xform ℝ) = ⟨1, 0⟩
      congr 1
      funext a
      fin_cases a <;> simp
    · have hi : i < n + 1 := hi
      have hw : jointAngular (slider n (q t)) dq i = 0 := by
        unfold jointAngular
        simp [slider, dof, axis]
      have hv : jointLinear (slider n (q t)) dq i = ![dq (i - 1), 0, 0] := by
        unfold jointLinear
        funext a
        fin_cases a <;> simp [slider, dof, axis]
      refine ⟨fun s => ⟨1, ![q s (i - 1), 0, 0]⟩, fun s => ⟨?_, ?_⟩, ?_, ?_, ?_⟩
      · show (1 : Mat3 ℝ)ᵀ = (1 : Mat3 ℝ)ᵀ * (1 : Mat3 ℝ)ᵀ
        simp
      · show ![∑ k ∈ Finset.range i, q s k, 0, 0] = ![∑ k ∈ Finset.range (i - 1), q s k, 0, 0] + (1 : Mat3 ℝ)ᵀ *ᵥ ![q s (i - 1), 0, 0]
        have : i = (i - 1) + 1 := by omega
        rw [Matrix.transpose_one, Matrix.one_mulVec]
        conv_lhs => rw [this]
        rw [Finset.sum_range_succ]
        funext a
        fin_cases a <;> simp
      · simpa using isRotation_one
      · refine ⟨0, fun a b => hasDerivAt_const t _, fun p => ?_⟩
        simp only [hw]
        funext a
        fin_cases a <;> simp [vectorProduct]
      · intro a
        simp only [hv, Matrix.transpose_one, Matrix.one_mulVec]
        fin_cases a
        · exact hq (i - 1) (by omega)
        · exact hasDerivAt_const t _
        · exact hasDerivAt_const t _

theorem slider_parts (n : ℕ) (hn : 1 ≤ n) (q : ℕ → ℝ) : HasParts (slider n q) := by
  have h1 : 1 < n + 1 := by omega
  refine ⟨Or.inl h1, fun s _ => h1, fun s _ => h1, ?_, ?_⟩
  · simp [massOf, baseLinks, slider]
  · have : massOf (slider n q) bodyLinks = 15 := by
      simp [massOf, bodyLinks, slider]
      norm_num
    rw [this]
    norm_num

/-- The robot of the example before loading; its first coordinate is 1. -/
noncomputable def unloaded (root : Root) : Robot root where
  kinematics := slider 0
  rbdl_model := ⟨slider 0 0, 0, []⟩
  base_com_tag := ⟨[], 0⟩
  body_com_tag := ⟨[], 0⟩
  base_orientation_tag := 0
  base_position_tag := 0
  state := ⟨fun _ => 1, fun _ => 0⟩
  constraints := Constraints.make root fun _ => 0

/-- There are robots which are ready, and their links are not at the origin: hypotheses of all theorems above. -/
theorem ready_exists (root : Root) : ∃ r : Robot root, Ready r ∧ IsLink r.rbdl_model.rbdl_model (r.getLinkTag "CameraTop_frame") ∧
    r.getTagPosition (r.getLinkTag "CameraTop_frame") = .ok ![1, 0, 0] := by
  have hn : root.dof + 15 < 2 ^ 31 := by cases root <;> decide
  obtain ⟨r, -, h2, h3, -, h4⟩ := (C94_load (unloaded root) fun _ => ⟨0, 0⟩).2.2 (slider (root.dof + 15) 0) (slider (root.dof + 15)) (slider_rigid hn)
    (slider_parts _ (by omega) _) rfl (fun q => ⟨⟨rfl, rfl, rfl, rfl, rfl⟩, rfl⟩)
  have ht := ready_tree h2
  rw [h4, h3] at ht
  have hid : r.getLinkTag "CameraTop_frame" = 1 := by
    unfold Robot.getLinkTag Rbdl.Model.getLinkId
    rw [ht]
    rfl
  have hlt : 1 < r.rbdl_model.rbdl_model.size := by
    rw [ht]
    show 1 < root.dof + 15 + 1
    omega
  refine ⟨r, h2, Or.inl (by rw [hid]; exact hlt), ?_⟩
  rw [hid]
  have hf : ¬ r.rbdl_model.isLinkFixed 1 = true := by
    unfold Rbdl.Model.isLinkFixed
    rw [ht]
    simp [slider]
  unfold Robot.getTagPosition Rbdl.Model.getLinkPosition Rbdl.Model.getLinkTransform Rbdl.Model.getXBase
  rw [if_neg hf, require_true hlt, ht]
  show Except.ok ![∑ k ∈ Finset.range 1, (unloaded root).state.asVector k, 0, 0] = _
  have h0 : (unloaded root).state.asVector 0 = 1 := by cases root <;> rfl
  rw [Finset.sum_range_one, h0]

/-- So the refutations apply. -/
example (root : Root) : ∃ r : Robot root, ∃ P, Ready r ∧ r.getTagPosition (r.getLinkTag "CameraTop_frame") = .ok P ∧ P ≠ 0 := by
  obtain ⟨r, h1, -, h2⟩ := ready_exists root
  exact ⟨r, _, h1, h2, fun h => by simpa using congrFun h 0⟩

/-- Valid flags: x and z. -/
example : (5#32 : BitVec 32) ≠ 0#32 ∧ (∀ i, 3 ≤ i → (5#32).getLsbD i = false) ∧ flagAxes 5#32 = [0, 2] := by
  refine ⟨by decide, fun i hi => ?_, by decide⟩
  rw [BitVec.getLsbD, Nat.testBit_lt_two_pow]
  calc (5#32).toNat < 2 ^ 3 := by decide
    _ ≤ 2 ^ i := Nat.pow_le_pow_right (by omega) hi

end Ik

end Humoto
