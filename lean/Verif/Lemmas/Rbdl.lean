import Verif.Spec.Rbdl
import Verif.Lemmas.Rotary
import Verif.Lemmas.Constraints

/-!
# Kinematics: lemmas
-/

namespace Humoto

namespace Rbdl

open Spec Spec.Rbdl
open scoped Matrix

/-! ## Vector algebra -/

section ring
variable {K : Type} [CommRing K]

theorem cross_eq_vp (v w : Fin 3 → K) : cross v w = vectorProduct v w := rfl

theorem vp_add (u v w : Fin 3 → K) : vectorProduct (u + v) w = vectorProduct u w + vectorProduct v w := by
  funext i; fin_cases i <;> simp [vectorProduct] <;> ring

theorem vp_add_right (u v w : Fin 3 → K) : vectorProduct u (v + w) = vectorProduct u v + vectorProduct u w := by
  funext i; fin_cases i <;> simp [vectorProduct] <;> ring

theorem vp_anti (v w : Fin 3 → K) : vectorProduct v w = -vectorProduct w v := by
  funext i; fin_cases i <;> simp [vectorProduct] <;> ring

theorem vp_zero (w : Fin 3 → K) : vectorProduct 0 w = 0 := by
  funext i; fin_cases i <;> simp [vectorProduct]

theorem vp_smul_right (a : K) (v w : Fin 3 → K) : vectorProduct v (a • w) = a • vectorProduct v w := by
  funext i; fin_cases i <;> simp [vectorProduct] <;> ring

theorem vp_sum_right {ι : Type} (s : Finset ι) (v : Fin 3 → K) (f : ι → Fin 3 → K) :
    vectorProduct v (∑ k ∈ s, f k) = ∑ k ∈ s, vectorProduct v (f k) := by
  classical
  induction s using Finset.induction_on with
  | empty => simp; funext i; fin_cases i <;> simp [vectorProduct]
  | insert a s ha ih => rw [Finset.sum_insert ha, Finset.sum_insert ha, vp_add_right, ih]

theorem applyMatrix_eq (X : Xform K) (s : Spatial K) : X.applyMatrix s = X.apply s := by
  unfold Xform.applyMatrix Xform.apply
  rw [← Matrix.mulVec_mulVec, skew_mulVec, Matrix.mulVec_sub, cross_eq_vp]
  congr 1
  abel

theorem inverse_apply {X : Xform K} (h : IsRotation X.Eᵀ) (s : Spatial K) :
    X.inverse.apply s = ⟨X.Eᵀ *ᵥ s.w, X.Eᵀ *ᵥ s.v + vectorProduct X.r (X.Eᵀ *ᵥ s.w)⟩ := by
  unfold Xform.inverse Xform.apply
  have e : X.Eᵀ * X.E = 1 := by simpa using h.right_inv
  simp only
  rw [Matrix.mulVec_sub, cross_eq_vp, ← h.cross, Matrix.mulVec_neg, Matrix.mulVec_mulVec, e, Matrix.one_mulVec]
  congr 1
  funext i; fin_cases i <;> simp [vectorProduct] <;> ring

end ring

section field
variable {K : Type} [Field K]

theorem translate_eq (p : Fin 3 → K) (s : Spatial K) : translate p s = ⟨s.w, s.v + vectorProduct s.w p⟩ := by
  unfold translate
  congr 1
  funext i; fin_cases i <;> simp [vectorProduct] <;> ring

theorem selectRow_linear (ty : SpatialType) (p : Fin 3 → K) (row : ℕ) :
    ∃ a b : Fin 3 → K, ∀ s : Spatial K, selectRow ty (translate p s) row = a ⬝ᵥ s.w + b ⬝ᵥ s.v := by
  have ang : ∀ i, ∃ a b : Fin 3 → K, ∀ s : Spatial K, row3 (translate p s).w i = a ⬝ᵥ s.w + b ⬝ᵥ s.v := by
    intro i
    by_cases h : i < 3
    · exact ⟨Pi.single ⟨i, h⟩ 1, 0, fun s => by simp [row3, h, translate]⟩
    · exact ⟨0, 0, fun s => by simp [row3, h]⟩
  have lin : ∀ i, ∃ a b : Fin 3 → K, ∀ s : Spatial K, row3 (translate p s).v i = a ⬝ᵥ s.w + b ⬝ᵥ s.v := by
    intro i
    match i with
    | 0 => exact ⟨![0, p 2, -p 1], ![1, 0, 0], fun s => by simp [row3, translate, dotProduct, Fin.sum_univ_three]; ring⟩
    | 1 => exact ⟨![-p 2, 0, p 0], ![0, 1, 0], fun s => by simp [row3, translate, dotProduct, Fin.sum_univ_three]; ring⟩
    | 2 => exact ⟨![p 1, -p 0, 0], ![0, 0, 1], fun s => by simp [row3, translate, dotProduct, Fin.sum_univ_three]; ring⟩
    | i + 3 => exact ⟨0, 0, fun s => by simp [row3]⟩
  cases ty with
  | undefined => exact ⟨0, 0, fun s => by simp [selectRow]⟩
  | complete =>
    by_cases h : row < 3
    · obtain ⟨a, b, e⟩ := ang row
      exact ⟨a, b, fun s => by rw [← e]; simp [selectRow, h]⟩
    · obtain ⟨a, b, e⟩ := lin (row - 3)
      exact ⟨a, b, fun s => by rw [← e]; simp [selectRow, h]⟩
  | translation => exact lin row
  | rotation => exact ang row

theorem selectRow_sum (ty : SpatialType) (p : Fin 3 → K) (row : ℕ) (V : Spatial K) (n : ℕ) (c : ℕ → K) (f : ℕ → Spatial K) :
    selectRow ty (translate p ⟨V.w + ∑ k ∈ Finset.range n, c k • (f k).w, V.v + ∑ k ∈ Finset.range n, c k • (f k).v⟩) row =
      selectRow ty (translate p V) row + ∑ k ∈ Finset.range n, selectRow ty (translate p (f k)) row * c k := by
  obtain ⟨a, b, e⟩ := selectRow_linear ty p row
  rw [e, e]
  simp only [e]
  rw [dotProduct_add, dotProduct_add, dotProduct_sum, dotProduct_sum]
  simp only [dotProduct_smul, smul_eq_mul, add_mul, Finset.sum_add_distrib]
  rw [Finset.sum_congr rfl fun k _ => mul_comm (c k) (a ⬝ᵥ (f k).w), Finset.sum_congr rfl fun k _ => mul_comm (c k) (b ⬝ᵥ (f k).v)]
  ring

/-! ## Jacobian -/

/-- Spatial velocity of a body with respect to the origin. -/
inductive Twist (T : RbdlModel K) (dq : ℕ → K) : ℕ → Spatial K → Prop
  | root : Twist T dq 0 ⟨0, 0⟩
  | step {i : ℕ} {V : Spatial K} : i ≠ 0 → Twist T dq (T.lambda i) V →
      Twist T dq i
        ⟨V.w + ∑ k ∈ Finset.range (dof (T.mJoints i)), dq (T.q_index i + k) • ((T.X_base i).inverse.apply (axis (T.mJoints i) k)).w,
          V.v + ∑ k ∈ Finset.range (dof (T.mJoints i)), dq (T.q_index i + k) • ((T.X_base i).inverse.apply (axis (T.mJoints i) k)).v⟩

theorem twist_exists {T : RbdlModel K} (h : KinematicTree T) (dq : ℕ → K) (i : ℕ) (hi : i < T.size) : ∃ V, Twist T dq i V := by
  induction i using Nat.strong_induction_on with
  | _ i ih =>
    by_cases h0 : i = 0
    · exact h0 ▸ ⟨_, .root⟩
    · obtain ⟨V, hV⟩ := ih _ (h.parent i h0 hi) (lt_trans (h.parent i h0 hi) hi)
      exact ⟨_, .step h0 hV⟩

theorem updated_joint {m : Model K} {T : RbdlModel K} (hT : KinematicTree T) (hm : Updated m T) {i : ℕ} (h0 : i ≠ 0) (hi : i < T.size) :
    ∃ d, m.joint_data[i]? = some d ∧ d.dof_number = some (dof (T.mJoints i)) ∧ d.axisCols = dof (T.mJoints i) ∧
      ∀ k < dof (T.mJoints i), d.axis k = (T.X_base i).inverse.apply (axis (T.mJoints i) k) := by
  obtain ⟨m0, hl, rfl⟩ := hm
  have hg : m0.joint_data[i]? = some m0.joint_data[i] := List.getElem?_eq_getElem (by omega)
  refine ⟨(m0.joint_data[i]).compute (T.X_base i) (T.mJoints i), ?_, ?_⟩
  · unfold Model.update
    simp only
    rw [List.getElem?_mapIdx, hg]
    rfl
  · have := hT.joint i h0 hi
    cases hj : T.mJoints i with
    | one S => exact ⟨rfl, rfl, fun k _ => rfl⟩
    | three S => exact ⟨rfl, rfl, fun k hk => applyMatrix_eq _ _⟩
    | custom n S => exact ⟨rfl, rfl, fun k hk => applyMatrix_eq _ _⟩
    | other n => exact absurd hj (this n)

theorem writeColumns_ok {ty : SpatialType} (hty : ty ≠ .undefined) (p : Fin 3 → K) {J : Mat K} {q n : ℕ} {d : JointData K}
    (h : q + n ≤ J.cols) (hd : d.axisCols = n) :
    Model.writeColumns ty p J q n d = .ok
      ⟨J.rows, J.cols, fun i c => if q ≤ c ∧ c < q + n then selectRow ty (translate p (d.axis (c - q))) i else J.e i c⟩ := by
  unfold Model.writeColumns
  rw [require_true h, ok_bind]
  cases ty with
  | undefined => exact absurd rfl hty
  | _ => simp only [hd, le_refl, require_true, ok_bind]; rfl

/-- Sum over the columns when a range of zero columns is written. -/
theorem sum_write (q n N : ℕ) (h : q + n ≤ N) (f g dq : ℕ → K) (hz : ∀ k < n, f (q + k) = 0) :
    ∑ c ∈ Finset.range N, (if q ≤ c ∧ c < q + n then g (c - q) else f c) * dq c =
      ∑ c ∈ Finset.range N, f c * dq c + ∑ k ∈ Finset.range n, g k * dq (q + k) := by
  have e1 : ∀ c ∈ Finset.range N, (if q ≤ c ∧ c < q + n then g (c - q) else f c) * dq c =
      f c * dq c + if q ≤ c ∧ c < q + n then g (c - q) * dq c else 0 := by
    intro c _
    by_cases hc : q ≤ c ∧ c < q + n
    · have := hz (c - q) (by omega)
      rw [show q + (c - q) = c by omega] at this
      simp [hc, this]
    · simp [hc]
  rw [Finset.sum_congr rfl e1, Finset.sum_add_distrib]
  congr 1
  rw [← Finset.sum_filter]
  symm
  refine Finset.sum_bij (fun k _ => q + k) (fun k hk => ?_) (fun a _ b _ e => by omega) (fun c hc => ?_) (fun k _ => ?_)
  · simp only [Finset.mem_filter, Finset.mem_range] at hk ⊢
    omega
  · simp only [Finset.mem_filter, Finset.mem_range] at hc
    exact ⟨c - q, by simp only [Finset.mem_range]; omega, by omega⟩
  · simp

theorem jacobianLoop_ok {m : Model K} {T : RbdlModel K} (hT : KinematicTree T) (hm : Updated m T) {ty : SpatialType} (hty : ty ≠ .undefined)
    (p : Fin 3 → K) (dq : ℕ → K) (fuel j : ℕ) (J : Mat K) (hj : j < T.size) (hf : j < fuel) (hc : J.cols = T.q_size)
    (hz : ∀ i, i ≠ 0 → i ≤ j → ∀ k < dof (T.mJoints i), ∀ row, J.e row (T.q_index i + k) = 0) {V : Spatial K} (hV : Twist T dq j V) :
    ∃ J', m.jacobianLoop ty p fuel j J = .ok J' ∧ J'.rows = J.rows ∧ J'.cols = J.cols ∧
      ∀ row, ∑ c ∈ Finset.range J.cols, J'.e row c * dq c = ∑ c ∈ Finset.range J.cols, J.e row c * dq c + selectRow ty (translate p V) row := by
  induction fuel generalizing j J V with
  | zero => omega
  | succ fuel ih =>
    have hrm : m.rbdl_model = T := by
      obtain ⟨m0, -, rfl⟩ := hm
      rfl
    unfold Model.jacobianLoop
    cases hV with
    | root =>
      rw [if_pos rfl]
      refine ⟨J, rfl, rfl, rfl, fun row => ?_⟩
      have : selectRow ty (translate p (⟨0, 0⟩ : Spatial K)) row = 0 := by
        obtain ⟨a, b, e⟩ := selectRow_linear ty p row
        rw [e]; simp
      rw [this, add_zero]
    | @step _ V h0 hV =>
      rw [if_neg h0]
      obtain ⟨d, e1, e2, e3, e4⟩ := updated_joint hT hm h0 hj
      simp only [e1, e2]
      rw [hrm]
      have hq := hT.coordinates j h0 hj
      rw [writeColumns_ok hty p (hc ▸ hq) e3, ok_bind]
      have hp := hT.parent j h0 hj
      obtain ⟨J', f, f1, f2, f3⟩ := ih (T.lambda j)
        ⟨J.rows, J.cols, fun i c => if T.q_index j ≤ c ∧ c < T.q_index j + dof (T.mJoints j) then
          selectRow ty (translate p (d.axis (c - T.q_index j))) i else J.e i c⟩ (by omega) (by omega) hc
        (fun i hi hij k hk row => by
          have hne : ¬ (T.q_index j ≤ T.q_index i + k ∧ T.q_index i + k < T.q_index j + dof (T.mJoints j)) := by
            rintro ⟨ha, hb⟩
            exact hT.separate i j hi h0 (by omega) hj (by omega) k hk (T.q_index i + k - T.q_index j) (by omega) (by omega)
          show (if _ then _ else _) = _
          rw [if_neg hne]
          exact hz i hi (by omega) k hk row) hV
      refine ⟨J', f, f1, f2, fun row => ?_⟩
      have f3 := f3 row
      simp only at f3
      rw [f3, sum_write (T.q_index j) (dof (T.mJoints j)) J.cols (hc ▸ hq) (J.e row)
        (fun k => selectRow ty (translate p (d.axis k)) row) dq (fun k hk => hz j h0 le_rfl k hk row)]
      rw [selectRow_sum ty p row V (dof (T.mJoints j)) (fun k => dq (T.q_index j + k))
        (fun k => (T.X_base j).inverse.apply (axis (T.mJoints j) k))]
      have e5 : ∑ k ∈ Finset.range (dof (T.mJoints j)), selectRow ty (translate p (d.axis k)) row * dq (T.q_index j + k) =
          ∑ k ∈ Finset.range (dof (T.mJoints j)),
            selectRow ty (translate p ((T.X_base j).inverse.apply (axis (T.mJoints j) k))) row * dq (T.q_index j + k) :=
        Finset.sum_congr rfl fun k hk => by rw [e4 k (Finset.mem_range.1 hk)]
      rw [e5]
      ring

/-! ## Links -/

/-- A link is a movable body or attached to one. -/
theorem link_attached {T : RbdlModel K} (hT : KinematicTree T) {id : ℕ} (hid : IsLink T id) :
    ∃ (j : ℕ) (R : Mat3 K) (r : Fin 3 → K), j < T.size ∧ (id < T.size → j = id ∧ R = 1 ∧ r = 0) ∧
      ∀ m : Model K, SameRobot T m.rbdl_model →
        (∃ X, m.getLinkTransform id = .ok X ∧ X.Eᵀ = (m.rbdl_model.X_base j).Eᵀ * R ∧
          X.r = (m.rbdl_model.X_base j).r + (m.rbdl_model.X_base j).Eᵀ *ᵥ r ∧
          ∀ p, m.expressInRootFrame id p = .ok (X.r + X.Eᵀ *ᵥ p)) ∧
        m.movableId id = .ok j := by
  by_cases hm : id < T.size
  · refine ⟨id, 1, 0, hm, fun _ => ⟨rfl, rfl, rfl⟩, fun m ⟨s1, _, s3, s4, _⟩ => ?_⟩
    have hf : ¬ m.isLinkFixed id = true := by
      unfold Model.isLinkFixed
      rw [s3]
      have := hT.ids.1
      simp only [Bool.and_eq_true, decide_eq_true_eq]
      omega
    have hx : m.getXBase id = .ok (m.rbdl_model.X_base id) := by
      unfold Model.getXBase
      rw [s1, require_true hm, ok_bind]
      rfl
    refine ⟨⟨m.rbdl_model.X_base id, ?_, ?_, ?_, fun p => ?_⟩, ?_⟩
    · unfold Model.getLinkTransform
      rw [if_neg hf, hx]
    · rw [Matrix.mul_one]
    · simp
    · unfold Model.expressInRootFrame
      rw [if_neg hf, hx, ok_bind]
      rfl
    · unfold Model.movableId
      rw [if_neg hf]
      rfl
  · obtain ⟨k, hk, rfl⟩ := hid.resolve_left hm
    have hp := hT.fixed _ (List.getElem_mem hk)
    refine ⟨T.mFixedBodies[k].mMovableParent, T.mFixedBodies[k].mParentTransform.Eᵀ, T.mFixedBodies[k].mParentTransform.r, hp,
      fun h => absurd h hm, fun m ⟨s1, _, s3, s4, _⟩ => ?_⟩
    have hf : m.isLinkFixed (T.fixed_body_discriminator + k) = true := by
      unfold Model.isLinkFixed
      rw [s3, s4]
      have := hT.ids.2
      simp only [Bool.and_eq_true, decide_eq_true_eq]
      omega
    have hb : m.getFixedBody (T.fixed_body_discriminator + k - m.rbdl_model.fixed_body_discriminator) = .ok T.mFixedBodies[k] := by
      unfold Model.getFixedBody
      rw [s3, s4, Nat.add_sub_cancel_left, List.getElem?_eq_getElem hk]
    have hx : m.getXBase T.mFixedBodies[k].mMovableParent = .ok (m.rbdl_model.X_base T.mFixedBodies[k].mMovableParent) := by
      unfold Model.getXBase
      rw [s1, require_true hp, ok_bind]
      rfl
    refine ⟨⟨T.mFixedBodies[k].mParentTransform.mul (m.rbdl_model.X_base T.mFixedBodies[k].mMovableParent), ?_, ?_, ?_, fun p => ?_⟩, ?_⟩
    · unfold Model.getLinkTransform
      rw [if_pos hf, hb, ok_bind, hx, ok_bind]
      rfl
    · exact Matrix.transpose_mul _ _
    · rfl
    · unfold Model.expressInRootFrame
      rw [if_pos hf, hb, ok_bind, hx, ok_bind]
      show Except.ok _ = _
      congr 1
      unfold Xform.mul
      simp only
      rw [Matrix.transpose_mul, ← Matrix.mulVec_mulVec, Matrix.mulVec_add, add_assoc]
    · unfold Model.movableId
      rw [if_pos hf, hb, ok_bind]
      rfl

theorem sameRobot_refl (T : RbdlModel K) : SameRobot T T := ⟨rfl, rfl, rfl, rfl, rfl⟩

/-- The Jacobian of a point of a link. -/
theorem getTagJacobian_ok {m : Model K} {T : RbdlModel K} (hT : KinematicTree T) (hm : Updated m T) {id : ℕ} (hid : IsLink T id) (p : Fin 3 → K) :
    ∃ (j : ℕ) (R : Mat3 K) (r P : Fin 3 → K), j < T.size ∧
      (∀ m : Model K, SameRobot T m.rbdl_model → ∃ X, m.getLinkTransform id = .ok X ∧ X.Eᵀ = (m.rbdl_model.X_base j).Eᵀ * R ∧
        X.r = (m.rbdl_model.X_base j).r + (m.rbdl_model.X_base j).Eᵀ *ᵥ r) ∧
      P = (T.X_base j).r + (T.X_base j).Eᵀ *ᵥ (r + R *ᵥ p) ∧
      ∀ (ty : SpatialType) (n : ℕ), ty.getNumberOfElements = .ok n →
        ∃ J, m.getTagJacobian ty id p = .ok J ∧ J.rows = n ∧ J.cols = T.q_size ∧
          ∀ dq V, Twist T dq j V → ∀ row, ∑ c ∈ Finset.range J.cols, J.e row c * dq c = selectRow ty (translate P V) row := by
  have hrm : m.rbdl_model = T := by
    obtain ⟨m0, -, rfl⟩ := hm
    rfl
  obtain ⟨j, R, r, hj, -, h⟩ := link_attached hT hid
  obtain ⟨⟨X, -, hX1, hX2, hX⟩, hjid⟩ := h m (hrm ▸ sameRobot_refl T)
  refine ⟨j, R, r, X.r + X.Eᵀ *ᵥ p, hj, fun m' hm' => ?_, ?_, fun ty n hn => ?_⟩
  · obtain ⟨⟨X', h1, h2, h3, -⟩, -⟩ := h m' hm'
    exact ⟨X', h1, h2, h3⟩
  · rw [hX1, hX2, hrm, Matrix.mulVec_add, Matrix.mulVec_mulVec, add_assoc]
  have hty : ty ≠ .undefined := by
    rintro rfl
    cases hn
  have loop := fun dq V (hV : Twist T dq j V) => jacobianLoop_ok hT hm hty (X.r + X.Eᵀ *ᵥ p) dq (T.size + 1) j ⟨n, T.q_size, fun _ _ => 0⟩
    hj (by omega) rfl (fun _ _ _ _ _ _ => rfl) hV
  obtain ⟨V0, hV0⟩ := twist_exists hT 0 j hj
  obtain ⟨J, e, e1, e2, -⟩ := loop 0 V0 hV0
  refine ⟨J, ?_, e1, e2, fun dq V hV row => ?_⟩
  · unfold Model.getTagJacobian Model.getDOFNumber
    rw [hjid, ok_bind, hn, ok_bind, hX, ok_bind, hrm]
    exact e
  · obtain ⟨J', f, f1, f2, f3⟩ := loop dq V hV
    cases e.symm.trans f
    rw [e2]
    have := f3 row
    simpa using this

end field

/-! ## Motion -/

theorem body_moves {T : ℝ → RbdlModel ℝ} {t : ℝ} {dq : ℕ → ℝ} (hT : KinematicTree (T t)) (hM : Moves T t dq) {i : ℕ} (hi : i < (T t).size)
    {V : Spatial ℝ} (hV : Twist (T t) dq i V) :
    IsRotation ((T t).X_base i).Eᵀ ∧
    (∃ R', MatDeriv (fun s => ((T s).X_base i).Eᵀ) R' t ∧ IsAngularVelocity V.w ((T t).X_base i).Eᵀ R') ∧
    ∀ a, HasDerivAt (fun s => ((T s).X_base i).r a) ((V.v + vectorProduct V.w ((T t).X_base i).r) a) t := by
  induction hV with
  | root =>
    refine ⟨?_, ⟨0, fun a b => ?_, fun p => ?_⟩, fun a => ?_⟩
    · rw [hM.root]
      simpa using isRotation_one
    · show HasDerivAt (fun s => ((T s).X_base 0).Eᵀ a b) 0 t
      simp only [hM.root]
      exact hasDerivAt_const t _
    · rw [vp_zero, Matrix.zero_mulVec]
    · simp only [hM.root, vp_zero]
      exact (hasDerivAt_const t _).congr_deriv (by simp)
  | @step i V h0 hV ih =>
    have hp := hT.parent i h0 hi
    obtain ⟨r1, ⟨R', r2, r3⟩, r4⟩ := ih (by omega)
    obtain ⟨X, hX, x1, ⟨S', x2, x3⟩, x4⟩ := hM.body i h0 hi
    have hXt := hX t
    have hR : IsRotation ((T t).X_base i).Eᵀ := by
      rw [hXt.1]
      exact r1.mul x1
    have hsum : ∀ f : ℕ → Fin 3 → ℝ, ((T t).X_base i).Eᵀ *ᵥ (∑ k ∈ Finset.range (dof ((T t).mJoints i)), dq ((T t).q_index i + k) • f k) =
        ∑ k ∈ Finset.range (dof ((T t).mJoints i)), dq ((T t).q_index i + k) • ((T t).X_base i).Eᵀ *ᵥ f k := by
      intro f
      rw [Matrix.mulVec_sum]
      exact Finset.sum_congr rfl fun k _ => Matrix.mulVec_smul _ _ _
    have hw : ∑ k ∈ Finset.range (dof ((T t).mJoints i)), dq ((T t).q_index i + k) •
        (((T t).X_base i).inverse.apply (axis ((T t).mJoints i) k)).w = ((T t).X_base i).Eᵀ *ᵥ jointAngular (T t) dq i := by
      unfold jointAngular
      rw [hsum]
      exact Finset.sum_congr rfl fun k _ => by rw [inverse_apply hR]
    have hv : ∑ k ∈ Finset.range (dof ((T t).mJoints i)), dq ((T t).q_index i + k) •
        (((T t).X_base i).inverse.apply (axis ((T t).mJoints i) k)).v = ((T t).X_base i).Eᵀ *ᵥ jointLinear (T t) dq i +
          vectorProduct ((T t).X_base i).r (((T t).X_base i).Eᵀ *ᵥ jointAngular (T t) dq i) := by
      unfold jointAngular jointLinear
      rw [hsum, hsum, vp_sum_right, ← Finset.sum_add_distrib]
      exact Finset.sum_congr rfl fun k _ => by rw [inverse_apply hR, smul_add, vp_smul_right]
    rw [hw, hv]
    refine ⟨hR, ⟨R' * (X t).Eᵀ + ((T t).X_base ((T t).lambda i)).Eᵀ * S', ?_, fun p => ?_⟩, fun a => ?_⟩
    · have := r2.mul x2
      simpa only [(hX _).1] using this
    · rw [Matrix.add_mulVec, ← Matrix.mulVec_mulVec, ← Matrix.mulVec_mulVec, r3, x3, vp_add, hR.cross, hXt.1,
        ← Matrix.mulVec_mulVec, ← Matrix.mulVec_mulVec]
    · have hr : ∀ b, HasDerivAt (fun s => ((T s).X_base ((T t).lambda i)).Eᵀ a b * (X s).r b)
          (R' a b * (X t).r b + ((T t).X_base ((T t).lambda i)).Eᵀ a b * ((X t).Eᵀ *ᵥ jointLinear (T t) dq i) b) t := fun b => (r2 a b).mul (x4 b)
      have h := (r4 a).add (((hr 0).add (hr 1)).add (hr 2))
      have e : (fun s => ((T s).X_base i).r a) = fun s => ((T s).X_base ((T t).lambda i)).r a +
          (((T s).X_base ((T t).lambda i)).Eᵀ a 0 * (X s).r 0 + ((T s).X_base ((T t).lambda i)).Eᵀ a 1 * (X s).r 1 +
            ((T s).X_base ((T t).lambda i)).Eᵀ a 2 * (X s).r 2) := by
        funext s
        rw [(hX s).2, Pi.add_apply, Matrix.mulVec, dotProduct, Fin.sum_univ_three]
      rw [e]
      refine h.congr_deriv ?_
      have e1 : R' a 0 * (X t).r 0 + R' a 1 * (X t).r 1 + R' a 2 * (X t).r 2 = (R' *ᵥ (X t).r) a := by
        rw [Matrix.mulVec, dotProduct, Fin.sum_univ_three]
      have e2 : ∀ x : Fin 3 → ℝ, ((T t).X_base ((T t).lambda i)).Eᵀ a 0 * x 0 + ((T t).X_base ((T t).lambda i)).Eᵀ a 1 * x 1 +
          ((T t).X_base ((T t).lambda i)).Eᵀ a 2 * x 2 = (((T t).X_base ((T t).lambda i)).Eᵀ *ᵥ x) a := by
        intro x
        rw [Matrix.mulVec, dotProduct, Fin.sum_univ_three]
      have e2' := e2 ((X t).Eᵀ *ᵥ jointLinear (T t) dq i)
      rw [Matrix.mulVec_mulVec, ← hXt.1] at e2'
      have e3 : ((V.v + (((T t).X_base i).Eᵀ *ᵥ jointLinear (T t) dq i +
            vectorProduct ((T t).X_base i).r (((T t).X_base i).Eᵀ *ᵥ jointAngular (T t) dq i))) +
          vectorProduct (V.w + ((T t).X_base i).Eᵀ *ᵥ jointAngular (T t) dq i) ((T t).X_base i).r) =
          V.v + vectorProduct V.w ((T t).X_base ((T t).lambda i)).r + R' *ᵥ (X t).r + ((T t).X_base i).Eᵀ *ᵥ jointLinear (T t) dq i := by
        rw [vp_add, vp_anti ((T t).X_base i).r, r3, add_assoc V.v (vectorProduct V.w _), ← vp_add_right, ← hXt.2]
        abel
      rw [e3]
      show _ = (V.v + vectorProduct V.w ((T t).X_base ((T t).lambda i)).r) a + (R' *ᵥ (X t).r) a + (((T t).X_base i).Eᵀ *ᵥ jointLinear (T t) dq i) a
      rw [← e1, ← e2']
      ring

end Rbdl

end Humoto
