import Verif.Lemmas.Rbdl
import Verif.Props.Rotary

/-!
# C92, C93: kinematics
-/

namespace Humoto

namespace Rbdl

open Spec Spec.Rbdl
open scoped Matrix

/-! ## C93 -/

section
variable {K : Type} [Field K]

/-- **C93.** Positions of points follow from the position and the orientation of their link. -/
theorem C93_point {m : Model K} (hT : KinematicTree m.rbdl_model) {id : ℕ} (hid : IsLink m.rbdl_model id) :
    ∃ q R, m.getLinkPosition id = .ok q ∧ m.getTagOrientation id = .ok R ∧
      ∀ p, m.getPointTagPosition id p = .ok (q + R *ᵥ p) ∧ m.expressInRootFrame id p = .ok (q + R *ᵥ p) := by
  obtain ⟨j, R, r, -, -, h⟩ := link_attached hT hid
  obtain ⟨⟨X, hX, -, -, hp⟩, -⟩ := h m (sameRobot_refl _)
  refine ⟨X.r, X.Eᵀ, ?_, ?_, fun p => ⟨?_, hp p⟩⟩
  · unfold Model.getLinkPosition; rw [hX]; rfl
  · unfold Model.getTagOrientation; rw [hX]; rfl
  · unfold Model.getPointTagPosition
    rw [hX, ok_bind, add_comm]
    rfl

/-- **C93.** A fixed link moves with the body it is attached to: it keeps its pose in the frame of this body. -/
theorem C93_fixed {m : Model K} (hT : KinematicTree m.rbdl_model) {k : ℕ} (hk : k < m.rbdl_model.mFixedBodies.length) :
    ∃ q R, m.getLinkPosition m.rbdl_model.mFixedBodies[k].mMovableParent = .ok q ∧
      m.getTagOrientation m.rbdl_model.mFixedBodies[k].mMovableParent = .ok R ∧
      m.getLinkPosition (m.rbdl_model.fixed_body_discriminator + k) =
        .ok (q + R *ᵥ m.rbdl_model.mFixedBodies[k].mParentTransform.r) ∧
      m.getTagOrientation (m.rbdl_model.fixed_body_discriminator + k) =
        .ok (R * m.rbdl_model.mFixedBodies[k].mParentTransform.Eᵀ) := by
  have hp := hT.fixed _ (List.getElem_mem hk)
  have hf : m.isLinkFixed (m.rbdl_model.fixed_body_discriminator + k) = true := by
    unfold Model.isLinkFixed
    have := hT.ids.2
    simp only [Bool.and_eq_true, decide_eq_true_eq]
    omega
  have hn : ¬ m.isLinkFixed m.rbdl_model.mFixedBodies[k].mMovableParent = true := by
    unfold Model.isLinkFixed
    have := hT.ids.1
    simp only [Bool.and_eq_true, decide_eq_true_eq]
    omega
  have hx : m.getXBase m.rbdl_model.mFixedBodies[k].mMovableParent = .ok (m.rbdl_model.X_base m.rbdl_model.mFixedBodies[k].mMovableParent) := by
    unfold Model.getXBase
    rw [require_true hp, ok_bind]
    rfl
  have hb : m.getFixedBody (m.rbdl_model.fixed_body_discriminator + k - m.rbdl_model.fixed_body_discriminator) =
      .ok m.rbdl_model.mFixedBodies[k] := by
    unfold Model.getFixedBody
    rw [Nat.add_sub_cancel_left, List.getElem?_eq_getElem hk]
  have h1 : m.getLinkTransform m.rbdl_model.mFixedBodies[k].mMovableParent =
      .ok (m.rbdl_model.X_base m.rbdl_model.mFixedBodies[k].mMovableParent) := by
    unfold Model.getLinkTransform
    rw [if_neg hn, hx]
  have h2 : m.getLinkTransform (m.rbdl_model.fixed_body_discriminator + k) =
      .ok (m.rbdl_model.mFixedBodies[k].mParentTransform.mul (m.rbdl_model.X_base m.rbdl_model.mFixedBodies[k].mMovableParent)) := by
    unfold Model.getLinkTransform
    rw [if_pos hf, hb, ok_bind, hx, ok_bind]
    rfl
  refine ⟨(m.rbdl_model.X_base m.rbdl_model.mFixedBodies[k].mMovableParent).r,
    (m.rbdl_model.X_base m.rbdl_model.mFixedBodies[k].mMovableParent).Eᵀ, ?_, ?_, ?_, ?_⟩
  · unfold Model.getLinkPosition; rw [h1]; rfl
  · unfold Model.getTagOrientation; rw [h1]; rfl
  · unfold Model.getLinkPosition; rw [h2]; rfl
  · unfold Model.getTagOrientation; rw [h2, ok_bind]
    show Except.ok _ = _
    congr 1
    exact Matrix.transpose_mul _ _

theorem com_fold (m : Model K) (B : ℕ → Body K) (P : ℕ → Fin 3 → K) (ids : List ℕ)
    (h : ∀ id ∈ ids, m.getBody id = .ok (B id) ∧ m.getPointTagPosition id (B id).mCenterOfMass = .ok (P id)) (c : Fin 3 → K) :
    ids.foldlM m.addBodyCoM c = .ok (c + (ids.map fun id => (B id).mMass • P id).sum) := by
  induction ids generalizing c with
  | nil => simp [pure_eq_ok]
  | cons a ids ih =>
    have h1 : m.addBodyCoM c a = .ok (c + (B a).mMass • P a) := by
      unfold Model.addBodyCoM
      rw [(h a (by simp)).1, ok_bind, (h a (by simp)).2, ok_bind]
      rfl
    rw [List.foldlM_cons, h1, ok_bind, ih fun id hid => h id (by simp [hid])]
    simp [add_assoc]

theorem body_ok {m : Model K} (hT : KinematicTree m.rbdl_model) {id : ℕ} (hid : id < m.rbdl_model.size) :
    m.getBody id = .ok (m.rbdl_model.mBodies id) ∧ ∃ P, m.getPointTagPosition id (m.rbdl_model.mBodies id).mCenterOfMass = .ok P := by
  refine ⟨?_, ?_⟩
  · unfold Model.getBody
    rw [require_true hid, ok_bind]
    rfl
  · obtain ⟨q, R, -, -, h⟩ := C93_point hT (Or.inl hid)
    exact ⟨_, (h _).1⟩

/-- **C93.** The centre of mass of a set of bodies is the mean position of their centres of mass, weighted by masses. -/
theorem C93_partial_com {m : Model K} (hT : KinematicTree m.rbdl_model) {names : List String}
    (hn : ∀ s ∈ names, m.rbdl_model.GetBodyId s < m.rbdl_model.size) :
    ∃ tag, m.getCoMTag names = .ok tag ∧ tag.mass = (names.map fun s => (m.rbdl_model.mBodies (m.rbdl_model.GetBodyId s)).mMass).sum ∧
      ∃ com, m.getPartialCoM tag = .ok com ∧ (tag.mass ≠ 0 → ∃ P : ℕ → Fin 3 → K,
        (∀ s ∈ names, m.getPointTagPosition (m.rbdl_model.GetBodyId s) (m.rbdl_model.mBodies (m.rbdl_model.GetBodyId s)).mCenterOfMass =
          .ok (P (m.rbdl_model.GetBodyId s))) ∧
        tag.mass • com = (names.map fun s => (m.rbdl_model.mBodies (m.rbdl_model.GetBodyId s)).mMass • P (m.rbdl_model.GetBodyId s)).sum) := by
  have hfold : ∀ (l : List String) (hl : ∀ s ∈ l, m.rbdl_model.GetBodyId s < m.rbdl_model.size) (x : K),
      l.foldlM (fun (mass : K) name => do
        let b ← m.getBody (m.getLinkId name)
        pure (mass + b.mMass)) x = .ok (x + (l.map fun s => (m.rbdl_model.mBodies (m.rbdl_model.GetBodyId s)).mMass).sum) := by
    intro l hl
    induction l with
    | nil => intro x; simp [pure_eq_ok]
    | cons a l ih =>
      intro x
      have := (body_ok hT (hl a (by simp))).1
      unfold Model.getLinkId
      rw [List.foldlM_cons, this, ok_bind, pure_eq_ok, ok_bind]
      have ih := ih (fun s hs => hl s (by simp [hs])) (x + (m.rbdl_model.mBodies (m.rbdl_model.GetBodyId a)).mMass)
      unfold Model.getLinkId at ih
      rw [ih]
      simp [add_assoc]
  refine ⟨⟨names.map m.getLinkId, 0 + (names.map fun s => (m.rbdl_model.mBodies (m.rbdl_model.GetBodyId s)).mMass).sum⟩, ?_, zero_add _, ?_⟩
  · unfold Model.getCoMTag
    rw [hfold names hn, ok_bind]
    rfl
  have hP : ∀ id, ∃ P, id < m.rbdl_model.size → m.getPointTagPosition id (m.rbdl_model.mBodies id).mCenterOfMass = .ok P := by
    intro id
    by_cases h : id < m.rbdl_model.size
    · obtain ⟨P, hP⟩ := (body_ok hT h).2
      exact ⟨P, fun _ => hP⟩
    · exact ⟨0, fun h' => absurd h' h⟩
  choose P hP using hP
  have hf := com_fold m m.rbdl_model.mBodies P (names.map m.getLinkId) (fun id hid => by
    obtain ⟨s, hs, rfl⟩ := List.mem_map.1 hid
    exact ⟨(body_ok hT (hn s hs)).1, hP _ (hn s hs)⟩) 0
  refine ⟨fun i => (0 + ((names.map m.getLinkId).map fun id => (m.rbdl_model.mBodies id).mMass • P id).sum) i /
      (0 + (names.map fun s => (m.rbdl_model.mBodies (m.rbdl_model.GetBodyId s)).mMass).sum), ?_, fun hm => ⟨P, fun s hs => hP _ (hn s hs), ?_⟩⟩
  · unfold Model.getPartialCoM
    rw [hf, ok_bind]
    rfl
  · funext i
    rw [Pi.smul_apply, smul_eq_mul, mul_div_cancel₀ _ hm, zero_add, List.map_map]
    rfl

theorem load_mass (T : RbdlModel K) :
    (List.range (T.size - 1)).foldl (fun a i => a + (T.mBodies (i + 1)).mMass) 0 = ∑ i ∈ Finset.range (T.size - 1), (T.mBodies (i + 1)).mMass := by
  induction T.size - 1 with
  | zero => rfl
  | succ n ih => rw [List.range_succ, List.foldl_append, ih, Finset.sum_range_succ]; rfl

/-- **C93.** The mass of the robot is the sum of the masses of its bodies, and its centre of mass is the mean position of their
centres of mass, weighted by masses. -/
theorem C93_com {m0 m : Model K} {junk : ℕ → Spatial K} {T T' : RbdlModel K} (hl : m0.load junk (some T) = .ok m) (hT : KinematicTree T')
    (hs : SameRobot T T') :
    (m.update T').total_mass = ∑ i ∈ Finset.range (T.size - 1), (T.mBodies (i + 1)).mMass ∧
    ∃ com, (m.update T').getCoM = .ok com ∧ ((m.update T').total_mass ≠ 0 → ∃ P : ℕ → Fin 3 → K,
      (∀ i, i + 1 < T.size → (m.update T').getPointTagPosition (i + 1) (T.mBodies (i + 1)).mCenterOfMass = .ok (P i)) ∧
      (m.update T').total_mass • com = ∑ i ∈ Finset.range (T.size - 1), (T.mBodies (i + 1)).mMass • P i) := by
  have hm : m.total_mass = ∑ i ∈ Finset.range (T.size - 1), (T.mBodies (i + 1)).mMass := by
    unfold Model.load at hl
    rw [← Except.ok.inj hl]
    exact load_mass T
  refine ⟨hm, ?_⟩
  have hT' : KinematicTree (m.update T').rbdl_model := hT
  have hP : ∀ i, ∃ P, i + 1 < T.size → (m.update T').getPointTagPosition (i + 1) (T.mBodies (i + 1)).mCenterOfMass = .ok P := by
    intro i
    by_cases h : i + 1 < T.size
    · obtain ⟨P, hP⟩ := (body_ok hT' (id := i + 1) (by rw [show (m.update T').rbdl_model.size = T.size from hs.1]; exact h)).2
      rw [show (m.update T').rbdl_model.mBodies = T.mBodies from hs.2.2.2.2] at hP
      exact ⟨P, fun _ => hP⟩
    · exact ⟨0, fun h' => absurd h' h⟩
  choose P hP using hP
  have hf := com_fold (m.update T') T.mBodies (fun id => P (id - 1)) ((List.range (T.size - 1)).map (· + 1)) (fun id hid => by
    obtain ⟨i, hi, rfl⟩ := List.mem_map.1 hid
    have hi := List.mem_range.1 hi
    refine ⟨?_, hP i (by omega)⟩
    rw [(body_ok hT' (id := i + 1) (by rw [show (m.update T').rbdl_model.size = T.size from hs.1]; omega)).1]
    exact congrArg (fun f => Except.ok (f (i + 1))) hs.2.2.2.2) 0
  refine ⟨fun i => (0 + (((List.range (T.size - 1)).map (· + 1)).map fun id => (T.mBodies id).mMass • P (id - 1)).sum) i / (m.update T').total_mass,
    ?_, fun hm => ⟨P, hP, ?_⟩⟩
  · unfold Model.getCoM
    rw [show (m.update T').rbdl_model.size = T.size from hs.1, hf, ok_bind]
    rfl
  · funext i
    rw [Pi.smul_apply, smul_eq_mul, mul_div_cancel₀ _ hm, zero_add, List.map_map]
    congr 1

/-- **C93.** A file which cannot be read is rejected; after a successful loading and an update the data of the joints are those of
the current state. -/
theorem C93_load (m : Model K) (junk : ℕ → Spatial K) (T T' : RbdlModel K) (hs : T'.size = T.size) :
    m.load junk none = .error .thrown ∧ ∃ m', m.load junk (some T) = .ok m' ∧ m'.rbdl_model = T ∧ Updated (m'.update T') T' :=
  ⟨rfl, _, rfl, rfl, _, by simp [hs], rfl⟩

/-- **C93.** Requests for links which are not a part of the robot are not rejected: their behaviour is undefined. The same holds for
the mass and the centre of mass of fixed links. -/
theorem C93_unknown_refuted {m : Model K} (hT : KinematicTree m.rbdl_model) :
    (∀ name, m.rbdl_model.GetBodyId name = maxUnsigned → m.getLinkPosition (m.getLinkId name) = .error .ub ∧
      m.getTagOrientation (m.getLinkId name) = .error .ub ∧ m.getLinkCoMTag name = .error .ub) ∧
    (∀ k < m.rbdl_model.mFixedBodies.length, m.getLinkMass (m.rbdl_model.fixed_body_discriminator + k) = .error .ub) := by
  have hsize := hT.ids
  refine ⟨fun name hn => ?_, fun k hk => ?_⟩
  · have hf : ¬ m.isLinkFixed maxUnsigned = true := by
      unfold Model.isLinkFixed
      simp
    have hx : m.getXBase maxUnsigned = .error .ub := by
      unfold Model.getXBase
      rw [require_false (by omega)]
      rfl
    have hl : m.getLinkTransform maxUnsigned = .error .ub := by
      unfold Model.getLinkTransform
      rw [if_neg hf, hx]
    unfold Model.getLinkId Model.getLinkPosition Model.getTagOrientation Model.getLinkCoMTag Model.getBody Model.getLinkId
    rw [hn, hl, require_false (by omega)]
    exact ⟨rfl, rfl, rfl⟩
  · unfold Model.getLinkMass Model.getBody
    rw [require_false (by omega)]
    rfl

/-! ## C92 -/

theorem jac_fold (m : Model K) (B : ℕ → Body K) (J : ℕ → Mat K) (N : ℕ) (ids : List ℕ)
    (h : ∀ id ∈ ids, m.getBody id = .ok (B id) ∧ m.getTagJacobian .translation id (B id).mCenterOfMass = .ok (J id) ∧
      (J id).rows = 3 ∧ (J id).cols = N) (J0 : Mat K) (h0 : J0.rows = 3 ∧ J0.cols = N) :
    ∃ J', ids.foldlM m.addBodyJacobian (some J0) = .ok (some J') ∧ J'.rows = 3 ∧ J'.cols = N ∧
      ∀ i c, J'.e i c = J0.e i c + (ids.map fun id => (J id).e i c * (B id).mMass).sum := by
  induction ids generalizing J0 with
  | nil => exact ⟨J0, rfl, h0.1, h0.2, by simp⟩
  | cons a ids ih =>
    obtain ⟨h1, h2, h3, h4⟩ := h a (by simp)
    obtain ⟨J', e, e1, e2, e3⟩ := ih (fun id hid => h id (by simp [hid]))
      ⟨J0.rows, J0.cols, fun i c => J0.e i c + (J a).e i c * (B a).mMass⟩ h0
    refine ⟨J', ?_, e1, e2, fun i c => ?_⟩
    · rw [List.foldlM_cons]
      have : m.addBodyJacobian (some J0) a = .ok (some ⟨J0.rows, J0.cols, fun i c => J0.e i c + (J a).e i c * (B a).mMass⟩) := by
        unfold Model.addBodyJacobian
        rw [h1, ok_bind, h2, ok_bind]
        simp only
        rw [require_true ⟨h0.1.trans h3.symm, h0.2.trans h4.symm⟩, ok_bind]
        rfl
      rw [this, ok_bind, e]
    · rw [e3, List.map_cons, List.sum_cons, add_assoc]

theorem jac_fold_none (m : Model K) (B : ℕ → Body K) (J : ℕ → Mat K) (N : ℕ) (ids : List ℕ) (hne : ids ≠ [])
    (h : ∀ id ∈ ids, m.getBody id = .ok (B id) ∧ m.getTagJacobian .translation id (B id).mCenterOfMass = .ok (J id) ∧
      (J id).rows = 3 ∧ (J id).cols = N) :
    ∃ J', ids.foldlM m.addBodyJacobian none = .ok (some J') ∧ J'.rows = 3 ∧ J'.cols = N ∧
      ∀ i c, J'.e i c = (ids.map fun id => (J id).e i c * (B id).mMass).sum := by
  cases ids with
  | nil => exact absurd rfl hne
  | cons a ids =>
    obtain ⟨h1, h2, h3, h4⟩ := h a (by simp)
    obtain ⟨J', e, e1, e2, e3⟩ := jac_fold m B J N ids (fun id hid => h id (by simp [hid]))
      ⟨(J a).rows, (J a).cols, fun i c => (J a).e i c * (B a).mMass⟩ ⟨h3, h4⟩
    refine ⟨J', ?_, e1, e2, fun i c => ?_⟩
    · rw [List.foldlM_cons]
      have : m.addBodyJacobian none a = .ok (some ⟨(J a).rows, (J a).cols, fun i c => (J a).e i c * (B a).mMass⟩) := by
        unfold Model.addBodyJacobian
        rw [h1, ok_bind, h2, ok_bind]
        rfl
      rw [this, ok_bind, e]
    · rw [e3, List.map_cons, List.sum_cons]

/-- **C92.** The complete Jacobian consists of the rotational one followed by the translational one. -/
theorem C92_complete {m : Model K} {T : RbdlModel K} (hT : KinematicTree T) (hm : Updated m T) {id : ℕ} (hid : IsLink T id) (p : Fin 3 → K) :
    ∃ J Jr Jt, m.getTagJacobian .complete id p = .ok J ∧ m.getTagJacobian .rotation id p = .ok Jr ∧
      m.getTagJacobian .translation id p = .ok Jt ∧ J.rows = 6 ∧ Jr.rows = 3 ∧ Jt.rows = 3 ∧
      J.cols = T.q_size ∧ Jr.cols = T.q_size ∧ Jt.cols = T.q_size ∧
      ∀ i < 3, ∀ c < T.q_size, J.e i c = Jr.e i c ∧ J.e (i + 3) c = Jt.e i c := by
  obtain ⟨j, R, r, P, hj, -, -, h⟩ := getTagJacobian_ok hT hm hid p
  obtain ⟨J, e, e1, e2, e3⟩ := h .complete 6 rfl
  obtain ⟨Jr, f, f1, f2, f3⟩ := h .rotation 3 rfl
  obtain ⟨Jt, g, g1, g2, g3⟩ := h .translation 3 rfl
  refine ⟨J, Jr, Jt, e, f, g, e1, f1, g1, e2, f2, g2, fun i hi c hc => ?_⟩
  obtain ⟨V, hV⟩ := twist_exists hT (Pi.single c 1) j hj
  have col : ∀ A : Mat K, A.cols = T.q_size → ∀ row, ∑ k ∈ Finset.range A.cols, A.e row k * (Pi.single c 1 : ℕ → K) k = A.e row c := by
    intro A hA row
    rw [Finset.sum_eq_single c (fun k _ hk => by rw [Pi.single_eq_of_ne hk, mul_zero]) (fun h => absurd (Finset.mem_range.2 (hA ▸ hc)) h)]
    simp
  rw [← col J e2 i, ← col J e2 (i + 3), ← col Jr f2 i, ← col Jt g2 i, e3 _ _ hV, e3 _ _ hV, f3 _ _ hV, g3 _ _ hV]
  refine ⟨?_, ?_⟩
  · unfold selectRow; simp [hi]
  · unfold selectRow; simp

/-- **C92.** Other types of Jacobians are rejected. -/
theorem C92_undefined {m : Model K} {T : RbdlModel K} (hT : KinematicTree T) (hm : Updated m T) {id : ℕ} (hid : IsLink T id) (p : Fin 3 → K) :
    m.getTagJacobian .undefined id p = .error .thrown := by
  have hrm : m.rbdl_model = T := by
    obtain ⟨m0, -, rfl⟩ := hm
    rfl
  obtain ⟨j, R, r, hj, -, h⟩ := link_attached hT hid
  obtain ⟨-, hjid⟩ := h m (hrm ▸ sameRobot_refl T)
  unfold Model.getTagJacobian
  rw [hjid, ok_bind]
  rfl

/-- **C92.** Jacobians of movable links cannot be requested between loading of a model and its first update: the behaviour is
undefined. -/
theorem C92_needs_update {m : Model K} {junk : ℕ → Spatial K} {T : RbdlModel K} (hT : KinematicTree T)
    (hl : Model.load ⟨T, 0, []⟩ junk (some T) = .ok m) {id : ℕ} (h0 : id ≠ 0) (hid : id < T.size) (p : Fin 3 → K) :
    m.getTagJacobian .complete id p = .error .ub := by
  have hm := (Except.ok.inj hl).symm
  have hrm : m.rbdl_model = T := by rw [hm]
  obtain ⟨j, R, r, hj, hj', h⟩ := link_attached hT (Or.inl hid)
  obtain ⟨⟨X, -, -, -, hX⟩, hjid⟩ := h m (hrm ▸ sameRobot_refl T)
  obtain rfl := (hj' hid).1
  unfold Model.getTagJacobian
  rw [hjid, ok_bind]
  show (m.expressInRootFrame _ p >>= _) = _
  rw [hX, ok_bind]
  show Model.jacobianLoop _ _ _ (_ + 1) _ _ = _
  unfold Model.jacobianLoop
  rw [if_neg h0, hm]
  simp [hj]

end

section
variable {T : ℝ → RbdlModel ℝ} {M : ℝ → Model ℝ} {t : ℝ} {dq : ℕ → ℝ} {id : ℕ}

/-- **C92.** The translational Jacobian of a point of a link is the derivative of its position: for any motion of the robot, the
product of the Jacobian and of the velocities of the coordinates is the velocity of the point. -/
theorem C92_translation (hT : KinematicTree (T t)) (hM : Moves T t dq) (hD : ∀ s, (M s).rbdl_model = T s) (hU : Updated (M t) (T t))
    (hid : IsLink (T t) id) (p : Fin 3 → ℝ) :
    ∃ (P : ℝ → Fin 3 → ℝ) (J : Mat ℝ), (∀ s, (M s).getPointTagPosition id p = .ok (P s)) ∧
      (M t).getTagJacobian .translation id p = .ok J ∧ J.rows = 3 ∧ J.cols = (T t).q_size ∧
      ∀ a : Fin 3, HasDerivAt (fun s => P s a) (rate J dq a) t := by
  obtain ⟨j, R, r, P, hj, hX, hP, h⟩ := getTagJacobian_ok hT hU hid p
  obtain ⟨J, e, e1, e2, e3⟩ := h .translation 3 rfl
  obtain ⟨V, hV⟩ := twist_exists hT dq j hj
  obtain ⟨-, ⟨R', b1, b2⟩, b3⟩ := body_moves hT hM hj hV
  refine ⟨fun s => ((T s).X_base j).r + ((T s).X_base j).Eᵀ *ᵥ (r + R *ᵥ p), J, fun s => ?_, e, e1, e2, fun a => ?_⟩
  · obtain ⟨X, x1, x2, x3⟩ := hX (M s) (by rw [hD]; exact hM.same s)
    unfold Model.getPointTagPosition
    rw [x1, ok_bind, x2, x3, hD]
    show Except.ok _ = _
    congr 1
    simp only
    rw [Matrix.mulVec_add, Matrix.mulVec_mulVec, add_comm (_ *ᵥ p), add_assoc]
  · have h := (b3 a).add ((((b1 a 0).mul_const ((r + R *ᵥ p) 0)).add ((b1 a 1).mul_const ((r + R *ᵥ p) 1))).add
      ((b1 a 2).mul_const ((r + R *ᵥ p) 2)))
    have hf : (fun s => (((T s).X_base j).r + ((T s).X_base j).Eᵀ *ᵥ (r + R *ᵥ p)) a) = fun s => ((T s).X_base j).r a +
        (((T s).X_base j).Eᵀ a 0 * (r + R *ᵥ p) 0 + ((T s).X_base j).Eᵀ a 1 * (r + R *ᵥ p) 1 + ((T s).X_base j).Eᵀ a 2 * (r + R *ᵥ p) 2) := by
      funext s
      rw [Pi.add_apply]
      congr 1
      rw [Matrix.mulVec, dotProduct, Fin.sum_univ_three]
    rw [hf]
    refine h.congr_deriv ?_
    unfold rate
    rw [e3 dq V hV]
    have h1 : R' a 0 * (r + R *ᵥ p) 0 + R' a 1 * (r + R *ᵥ p) 1 + R' a 2 * (r + R *ᵥ p) 2 = (R' *ᵥ (r + R *ᵥ p)) a := by
      conv_rhs => rw [Matrix.mulVec, dotProduct, Fin.sum_univ_three]
    rw [h1, b2, translate_eq, hP, vp_add_right]
    simp [selectRow, row3, add_assoc]

/-- **C92.** The rotational Jacobian of a link gives its angular velocity. -/
theorem C92_rotation (hT : KinematicTree (T t)) (hM : Moves T t dq) (hD : ∀ s, (M s).rbdl_model = T s) (hU : Updated (M t) (T t))
    (hid : IsLink (T t) id) (p : Fin 3 → ℝ) :
    ∃ (R : ℝ → Mat3 ℝ) (R' : Mat3 ℝ) (J : Mat ℝ), (∀ s, (M s).getTagOrientation id = .ok (R s)) ∧
      (M t).getTagJacobian .rotation id p = .ok J ∧ J.rows = 3 ∧ J.cols = (T t).q_size ∧
      MatDeriv R R' t ∧ IsAngularVelocity (fun a => rate J dq a) (R t) R' := by
  obtain ⟨j, R, r, P, hj, hX, hP, h⟩ := getTagJacobian_ok hT hU hid p
  obtain ⟨J, e, e1, e2, e3⟩ := h .rotation 3 rfl
  obtain ⟨V, hV⟩ := twist_exists hT dq j hj
  obtain ⟨-, ⟨R', b1, b2⟩, b3⟩ := body_moves hT hM hj hV
  have hc : MatDeriv (fun _ => R) 0 t := fun a b => hasDerivAt_const t _
  refine ⟨fun s => ((T s).X_base j).Eᵀ * R, R' * R, J, fun s => ?_, e, e1, e2, ?_, fun q => ?_⟩
  · obtain ⟨X, x1, x2, x3⟩ := hX (M s) (by rw [hD]; exact hM.same s)
    unfold Model.getTagOrientation
    rw [x1, ok_bind, x2, hD]
    rfl
  · have := b1.mul hc
    rwa [Matrix.mul_zero, add_zero] at this
  · have hw : (fun a : Fin 3 => rate J dq a) = V.w := by
      funext a
      unfold rate
      rw [e3 dq V hV, translate_eq]
      simp [selectRow, row3]
    rw [hw, ← Matrix.mulVec_mulVec, ← Matrix.mulVec_mulVec, b2]

theorem hasDerivAt_list_sum (l : List ℕ) (f : ℕ → ℝ → ℝ) (f' : ℕ → ℝ) (h : ∀ i ∈ l, HasDerivAt (f i) (f' i) t) :
    HasDerivAt (fun s => (l.map fun i => f i s).sum) (l.map f').sum t := by
  induction l with
  | nil => exact hasDerivAt_const t _
  | cons a l ih =>
    simp only [List.map_cons, List.sum_cons]
    exact (h a (by simp)).add (ih fun i hi => h i (by simp [hi]))

/-- Positions and Jacobians of sums. -/
theorem com_deriv (hT : KinematicTree (T t)) (hM : Moves T t dq) (hD : ∀ s, (M s).rbdl_model = T s) (hU : Updated (M t) (T t))
    {ids : List ℕ} (hids : ∀ i ∈ ids, i < (T t).size) (hne : ids ≠ []) :
    ∃ (c : ℝ → Fin 3 → ℝ) (J : Mat ℝ), (∀ s, ids.foldlM (M s).addBodyCoM 0 = .ok (c s)) ∧
      ids.foldlM (M t).addBodyJacobian none = .ok (some J) ∧ J.rows = 3 ∧ J.cols = (T t).q_size ∧
      ∀ a : Fin 3, HasDerivAt (fun s => c s a) (rate J dq a) t := by
  have hk : ∀ i, ∃ (P : ℝ → Fin 3 → ℝ) (J : Mat ℝ), i < (T t).size →
      (∀ s, (M s).getPointTagPosition i ((T t).mBodies i).mCenterOfMass = .ok (P s)) ∧
      (M t).getTagJacobian .translation i ((T t).mBodies i).mCenterOfMass = .ok J ∧ J.rows = 3 ∧ J.cols = (T t).q_size ∧
      ∀ a : Fin 3, HasDerivAt (fun s => P s a) (rate J dq a) t := by
    intro i
    by_cases h : i < (T t).size
    · obtain ⟨P, J, h'⟩ := C92_translation hT hM hD hU (Or.inl h) ((T t).mBodies i).mCenterOfMass
      exact ⟨P, J, fun _ => h'⟩
    · exact ⟨0, ⟨0, 0, 0⟩, fun h' => absurd h' h⟩
  choose P J hk using hk
  have hb : ∀ s i, i < (T t).size → (M s).getBody i = .ok ((T t).mBodies i) := by
    intro s i hi
    obtain ⟨s1, -, -, -, s5⟩ := hM.same s
    unfold Model.getBody
    rw [hD, s1, s5, require_true hi]
    rfl
  obtain ⟨J', e, e1, e2, e3⟩ := jac_fold_none (M t) (T t).mBodies J (T t).q_size ids hne fun i hi =>
    ⟨hb t i (hids i hi), (hk i (hids i hi)).2.1, (hk i (hids i hi)).2.2.1, (hk i (hids i hi)).2.2.2.1⟩
  refine ⟨_, J', fun s => com_fold (M s) (T t).mBodies (fun i => P i s) ids (fun i hi => ⟨hb s i (hids i hi), (hk i (hids i hi)).1 s⟩) 0,
    e, e1, e2, fun a => ?_⟩
  have hs := hasDerivAt_list_sum (t := t) ids (fun i s => ((T t).mBodies i).mMass * P i s a) (fun i => ((T t).mBodies i).mMass * rate (J i) dq a)
    fun i hi => ((hk i (hids i hi)).2.2.2.2 a).const_mul _
  have hf : (fun s => (0 + (ids.map fun i => ((T t).mBodies i).mMass • P i s).sum) a) =
      fun s => (ids.map fun i => ((T t).mBodies i).mMass * P i s a).sum := by
    funext s
    rw [zero_add]
    clear hs e e3 hne hids
    induction ids with
    | nil => rfl
    | cons b l ih => simp only [List.map_cons, List.sum_cons, Pi.add_apply, ih]; rfl
  rw [hf]
  refine hs.congr_deriv ?_
  unfold rate
  rw [e2]
  simp only [e3]
  clear hs hf e e3 hne
  induction ids with
  | nil => simp
  | cons b l ih =>
    simp only [List.map_cons, List.sum_cons, add_mul, Finset.sum_add_distrib]
    rw [← ih fun i hi => hids i (by simp [hi])]
    congr 1
    rw [(hk b (hids b (by simp))).2.2.2.1, Finset.mul_sum]
    exact Finset.sum_congr rfl fun c _ => by ring

theorem rate_div (J : Mat ℝ) (μ : ℝ) (row : ℕ) : rate ⟨J.rows, J.cols, fun i c => J.e i c / μ⟩ dq row = rate J dq row / μ := by
  unfold rate
  rw [div_eq_mul_inv, Finset.sum_mul]
  exact Finset.sum_congr rfl fun c _ => by ring

/-- **C92.** The Jacobian of the centre of mass of the robot is the derivative of its position. -/
theorem C92_com (hT : KinematicTree (T t)) (hM : Moves T t dq) (hD : ∀ s, (M s).rbdl_model = T s) (hU : Updated (M t) (T t))
    {μ : ℝ} (hm : ∀ s, (M s).total_mass = μ) (_ : μ ≠ 0) (h1 : 1 < (T t).size) (J0 : Mat ℝ) :
    ∃ (P : ℝ → Fin 3 → ℝ) (J : Mat ℝ), (∀ s, (M s).getCoM = .ok (P s)) ∧ (M t).getCoMJacobian J0 = .ok J ∧
      J.rows = 3 ∧ J.cols = (T t).q_size ∧ ∀ a : Fin 3, HasDerivAt (fun s => P s a) (rate J dq a) t := by
  obtain ⟨c, J, e1, e2, e3, e4, e5⟩ := com_deriv hT hM hD hU (ids := (List.range ((T t).size - 1)).map (· + 1))
    (fun i hi => by
      obtain ⟨k, hk, rfl⟩ := List.mem_map.1 hi
      have := List.mem_range.1 hk
      omega) (by
      intro h
      have := congrArg List.length h
      simp at this
      omega)
  refine ⟨fun s i => c s i / μ, ⟨J.rows, J.cols, fun i c => J.e i c / μ⟩, fun s => ?_, ?_, e3, e4, fun a => ?_⟩
  · unfold Model.getCoM
    rw [hD, (hM.same s).1, e1, ok_bind, hm]
    rfl
  · unfold Model.getCoMJacobian
    rw [hD, e2, ok_bind, hm]
    rfl
  · rw [rate_div]
    exact (e5 a).div_const μ

/-- **C92.** The Jacobian of the centre of mass of a set of bodies is the derivative of its position. -/
theorem C92_partial_com (hT : KinematicTree (T t)) (hM : Moves T t dq) (hD : ∀ s, (M s).rbdl_model = T s) (hU : Updated (M t) (T t))
    (tag : Model.TagPartialCoM ℝ) (_ : tag.mass ≠ 0) (hids : ∀ i ∈ tag.link_ids, i < (T t).size) (hne : tag.link_ids ≠ []) (J0 : Mat ℝ) :
    ∃ (P : ℝ → Fin 3 → ℝ) (J : Mat ℝ), (∀ s, (M s).getPartialCoM tag = .ok (P s)) ∧ (M t).getPartialCoMJacobian J0 tag = .ok J ∧
      J.rows = 3 ∧ J.cols = (T t).q_size ∧ ∀ a : Fin 3, HasDerivAt (fun s => P s a) (rate J dq a) t := by
  obtain ⟨c, J, e1, e2, e3, e4, e5⟩ := com_deriv hT hM hD hU hids hne
  refine ⟨fun s i => c s i / tag.mass, ⟨J.rows, J.cols, fun i c => J.e i c / tag.mass⟩, fun s => ?_, ?_, e3, e4, fun a => ?_⟩
  · unfold Model.getPartialCoM
    rw [e1, ok_bind]
    rfl
  · unfold Model.getPartialCoMJacobian
    rw [e2, ok_bind]
    rfl
  · rw [rate_div]
    exact (e5 a).div_const tag.mass

/-- **C93.** The angles of a reported pose describe the orientation of the link, its position is the one of the tag. -/
theorem C93_pose {ea : Mat3 ℝ → Fin 3 → Fin 3 → Fin 3 → (Fin 3 → ℝ)} (hea : ExtractsAngles ea) (hT : KinematicTree (T t)) (hM : Moves T t dq)
    (hR : ∀ b ∈ (T t).mFixedBodies, IsRotation b.mParentTransform.Eᵀ)
    (hD : (M t).rbdl_model = T t) (hid : IsLink (T t) id) (p : Fin 3 → ℝ) :
    ∃ P rpy R, (M t).getTagPose ea id p = .ok (P, rpy) ∧ (M t).getPointTagPosition id p = .ok P ∧
      (M t).getTagOrientation id = .ok R ∧ convertEulerAnglesToMatrix rpy .rpy = .ok R := by
  have hrot : ∀ j < (T t).size, IsRotation ((T t).X_base j).Eᵀ := by
    intro j hj
    obtain ⟨V, hV⟩ := twist_exists hT dq j hj
    exact (body_moves hT hM hj hV).1
  have hX : ∃ X, (M t).getLinkTransform id = .ok X ∧ IsRotation X.Eᵀ := by
    rcases hid with hid | ⟨k, hk, rfl⟩
    · obtain ⟨j, R, r, hj, hj', h⟩ := link_attached hT (Or.inl hid)
      obtain ⟨⟨X, h1, h2, -, -⟩, -⟩ := h (M t) (hD ▸ sameRobot_refl _)
      obtain ⟨rfl, rfl, -⟩ := hj' hid
      refine ⟨X, h1, ?_⟩
      rw [h2, Matrix.mul_one, hD]
      exact hrot _ hj
    · have hb := List.getElem_mem hk
      have hT' : KinematicTree (M t).rbdl_model := hD ▸ hT
      have hk' : k < (M t).rbdl_model.mFixedBodies.length := by rw [hD]; exact hk
      obtain ⟨q, R, h1, h2, h3, h4⟩ := C93_fixed hT' hk'
      obtain ⟨j, R', r', hj, hj', h⟩ := link_attached hT (Or.inr ⟨k, hk, rfl⟩)
      obtain ⟨⟨X, g1, -⟩, -⟩ := h (M t) (hD ▸ sameRobot_refl _)
      refine ⟨X, g1, ?_⟩
      unfold Model.getTagOrientation at h4
      simp only [hD] at h2 h4
      rw [g1, ok_bind] at h4
      have h4 : X.Eᵀ = R * ((T t).mFixedBodies[k]).mParentTransform.Eᵀ := Except.ok.inj h4
      rw [h4]
      refine IsRotation.mul ?_ (hR _ hb)
      obtain ⟨j2, R2, r2, hj2, hj2', h2'⟩ := link_attached hT (Or.inl (hT.fixed _ hb))
      obtain ⟨⟨X2, k1, k2, -, -⟩, -⟩ := h2' (M t) (hD ▸ sameRobot_refl _)
      obtain ⟨e1, rfl, -⟩ := hj2' (hT.fixed _ hb)
      unfold Model.getTagOrientation at h2
      rw [k1, ok_bind] at h2
      have h2 : X2.Eᵀ = R := Except.ok.inj h2
      rw [← h2, k2, Matrix.mul_one, hD]
      exact hrot _ hj2
  obtain ⟨X, hX, hXR⟩ := hX
  obtain ⟨rpy, h1, h2⟩ := C34_extract ea hea X.Eᵀ hXR .rpy (by decide)
  refine ⟨X.Eᵀ *ᵥ p + X.r, rpy, X.Eᵀ, ?_, ?_, ?_, h2⟩
  · unfold Model.getTagPose
    rw [hX, ok_bind, h1, ok_bind]
    rfl
  · unfold Model.getPointTagPosition; rw [hX]; rfl
  · unfold Model.getTagOrientation; rw [hX]; rfl

end

/-! ## An arm with two joints -/

/-- An arm which turns about the vertical axis by `a` and is extended by `b`, with a tool at its end. -/
noncomputable def arm (a b : ℝ) : RbdlModel ℝ where
  size := 3
  lambda := fun i => i - 1
  mJoints := fun i => if i = 1 then .one ⟨![0, 0, 1], 0⟩ else if i = 2 then .one ⟨0, ![1, 0, 0]⟩ else .other 0
  q_index := fun i => i - 1
  X_base := fun i => if i = 0 then ⟨1, 0⟩ else if i = 1 then ⟨(axisRotation 2 a)ᵀ, 0⟩ else
    ⟨(axisRotation 2 a)ᵀ, axisRotation 2 a *ᵥ ![b, 0, 0]⟩
  mBodies := fun i => ⟨i, ![1, 0, 0]⟩
  fixed_body_discriminator := 10
  mFixedBodies := [⟨2, ⟨1, ![1, 0, 0]⟩⟩]
  q_size := 2
  GetBodyId := fun _ => 2

theorem arm_tree (a b : ℝ) : KinematicTree (arm a b) := by
  have two : ∀ i, i ≠ 0 → i < 3 → i = 1 ∨ i = 2 := by omega
  constructor
  · intro i h0 hi
    show i - 1 < i
    omega
  · intro i h0 hi n
    rcases two i h0 hi with rfl | rfl <;> simp [arm]
  · intro i h0 hi
    rcases two i h0 hi with rfl | rfl <;> simp [arm, dof]
  · intro i j h0 h0' hi hj hij k hk l hl
    rcases two i h0 hi with rfl | rfl <;> rcases two j h0' hj with rfl | rfl <;> simp [arm, dof] at hij hk hl ⊢ <;> omega
  · intro x hx
    simp only [arm, List.mem_singleton] at hx ⊢
    subst hx
    decide
  · simp [arm, maxUnsigned]

/-- The arm turns with the unit velocity and is extended twice as fast. -/
theorem arm_moves (t : ℝ) : Moves (fun s => arm s (2 * s)) t (fun c => if c = 0 then 1 else 2) := by
  refine ⟨fun s => ⟨rfl, rfl, rfl, rfl, rfl⟩, fun s => rfl, fun i h0 hi => ?_⟩
  obtain rfl | rfl : i = 1 ∨ i = 2 := by
    have : i < 3 := hi
    omega
  · refine ⟨fun s => ⟨(axisRotation 2 s)ᵀ, 0⟩, fun s => ⟨?_, ?_⟩, ?_, ?_, ?_⟩
    · show (axisRotation 2 s)ᵀᵀ = (1 : Mat3 ℝ)ᵀ * _
      simp
    · show (0 : Fin 3 → ℝ) = 0 + _ *ᵥ 0
      simp
    · simpa using axisRotation_rotation 2 t
    · refine ⟨CrossProductMatrix.eval ⟨Pi.single 2 1⟩ * axisRotation 2 t, axisRotation_deriv 2 (fun s => s) 1 t (hasDerivAt_id t), fun p => ?_⟩
      have hw : jointAngular (arm t (2 * t)) (fun c => if c = 0 then 1 else 2) 1 = Pi.single 2 1 := by
        funext a
        fin_cases a <;> simp [jointAngular, arm, dof, axis]
      rw [hw, Matrix.transpose_transpose, ← (axisRotation_rotation 2 t).cross, (axisRotation_turns 2 t).1, ← Matrix.mulVec_mulVec, skew_mulVec]
    · intro a
      have hv : jointLinear (arm t (2 * t)) (fun c => if c = 0 then 1 else 2) 1 = 0 := by
        funext a
        fin_cases a <;> simp [jointLinear, arm, dof, axis]
      rw [hv, Matrix.mulVec_zero]
      exact hasDerivAt_const t _
  · refine ⟨fun s => ⟨1, ![2 * s, 0, 0]⟩, fun s => ⟨?_, ?_⟩, ?_, ?_, ?_⟩
    · show _ = _ * (1 : Mat3 ℝ)ᵀ
      simp [arm]
    · show axisRotation 2 s *ᵥ ![2 * s, 0, 0] = 0 + (axisRotation 2 s)ᵀᵀ *ᵥ ![2 * s, 0, 0]
      simp
    · simpa using isRotation_one
    · refine ⟨0, fun a b => hasDerivAt_const t _, fun p => ?_⟩
      have hw : jointAngular (arm t (2 * t)) (fun c => if c = 0 then 1 else 2) 2 = 0 := by
        funext a
        fin_cases a <;> simp [jointAngular, arm, dof, axis]
      rw [hw, vp_zero, Matrix.zero_mulVec, Matrix.mulVec_zero]
    · intro a
      have hv : jointLinear (arm t (2 * t)) (fun c => if c = 0 then 1 else 2) 2 = ![2, 0, 0] := by
        funext a
        fin_cases a <;> simp [jointLinear, arm, dof, axis]
      rw [hv, Matrix.transpose_one, Matrix.one_mulVec]
      fin_cases a
      · simpa using (hasDerivAt_id t).const_mul 2
      · exact hasDerivAt_const t _
      · exact hasDerivAt_const t _

/-- The arm before the first update. -/
noncomputable def armInitial : Model ℝ :=
  ⟨arm 0 0, 3, [⟨0, fun _ => ⟨0, 0⟩, none⟩, ⟨0, fun _ => ⟨0, 0⟩, none⟩, ⟨0, fun _ => ⟨0, 0⟩, none⟩]⟩

/-- The arm after an update. -/
noncomputable def armModel (s : ℝ) : Model ℝ := armInitial.update (arm s (2 * s))

/-- Velocity of the tool of the moving arm. -/
example (t : ℝ) : ∃ (P : ℝ → Fin 3 → ℝ) (J : Mat ℝ), (∀ s, (armModel s).getPointTagPosition 10 0 = .ok (P s)) ∧
    (armModel t).getTagJacobian .translation 10 0 = .ok J ∧ J.rows = 3 ∧ J.cols = 2 ∧
    ∀ a : Fin 3, HasDerivAt (fun s => P s a) (rate J (fun c => if c = 0 then 1 else 2) a) t :=
  C92_translation (T := fun s => arm s (2 * s)) (M := armModel) (t := t) (arm_tree t (2 * t)) (arm_moves t) (fun s => rfl) ⟨armInitial, rfl, rfl⟩ (Or.inr ⟨0, by simp [arm], rfl⟩) 0

/-- The centre of mass of the arm. -/
example (t : ℝ) (J0 : Mat ℝ) : ∃ (P : ℝ → Fin 3 → ℝ) (J : Mat ℝ), (∀ s, (armModel s).getCoM = .ok (P s)) ∧ (armModel t).getCoMJacobian J0 = .ok J ∧
    J.rows = 3 ∧ J.cols = 2 ∧ ∀ a : Fin 3, HasDerivAt (fun s => P s a) (rate J (fun c => if c = 0 then 1 else 2) a) t :=
  C92_com (T := fun s => arm s (2 * s)) (M := armModel) (t := t) (arm_tree t (2 * t)) (arm_moves t) (fun s => rfl) ⟨armInitial, rfl, rfl⟩ (fun s => rfl) (by norm_num : (3 : ℝ) ≠ 0) (by simp [arm]) J0

/-- An arm of which the names of all links are unknown: requests are not rejected. -/
example : ∃ m : Model ℝ, KinematicTree m.rbdl_model ∧ m.rbdl_model.GetBodyId "hand" = maxUnsigned ∧ 0 < m.rbdl_model.mFixedBodies.length :=
  ⟨⟨{ arm 0 0 with GetBodyId := fun _ => maxUnsigned }, 3, []⟩,
    ⟨(arm_tree 0 0).parent, (arm_tree 0 0).joint, (arm_tree 0 0).coordinates, (arm_tree 0 0).separate, (arm_tree 0 0).fixed, (arm_tree 0 0).ids⟩,
    rfl, by simp [arm]⟩

end Rbdl

end Humoto
