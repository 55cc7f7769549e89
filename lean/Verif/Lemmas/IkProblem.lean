import Verif.Spec.IkProblem
import Verif.Props.IkTasks
import Verif.Props.TaskGeneric
import Verif.Lemmas.Shape
import Verif.Lemmas.PepperTasks

/-!
# Pepper IK: tasks of the optimization problem
-/

namespace Humoto

namespace Ik

open Spec Spec.Ik Spec.Rbdl
open scoped Matrix

variable {root : Root}

/-! ### The same robot -/

theorem sameRobot_ready {r0 r : Robot root} (h : Ready r0) (hs : SameIkRobot r0 r) : Ready r := by
  induction hs with
  | same => exact h
  | update g _ ih => exact (C94_update ih g).1

theorem sameRobot_tag {r0 r : Robot root} (h : Ready r0) (hs : SameIkRobot r0 r) (name : String) : r.getLinkTag name = r0.getLinkTag name := by
  induction hs with
  | same => rfl
  | @update r g hs ih =>
    have hr := sameRobot_ready h hs
    rw [← ih]
    show (r.kinematics g.asVector).GetBodyId name = r.rbdl_model.rbdl_model.GetBodyId name
    rw [ready_tree hr, hr.rigid.names g.asVector r.state.asVector]

theorem movedBy_tag {r : Robot root} (h : Ready r) (x : ℕ → ℝ) (s : ℝ) (name : String) :
    (movedBy r x s).getLinkTag name = r.getLinkTag name := sameRobot_tag h (.update _ .same) name

theorem frameTurns_tag {r : Robot root} (h : Ready r) {name : String} {x : ℕ → ℝ} {R : Mat3 ℝ} {w : Fin 3 → ℝ}
    (ht : FrameTurns (fun r' => r'.getTagOrientation (r.getLinkTag name)) r x R w) :
    FrameTurns (fun r' => r'.getTagOrientation (r'.getLinkTag name)) r x R w := by
  obtain ⟨h0, Q, Q', h1, h2⟩ := ht
  refine ⟨h0, Q, Q', fun s => ?_, h2⟩
  show (movedBy r x s).getTagOrientation ((movedBy r x s).getLinkTag name) = _
  rw [movedBy_tag h]
  exact h1 s

theorem pointMoves_tag {r : Robot root} (h : Ready r) {name : String} {x : ℕ → ℝ} {P V : Fin 3 → ℝ}
    (ht : PointMoves (fun r' => r'.getTagPosition (r.getLinkTag name)) r x P V) :
    PointMoves (fun r' => r'.getTagPosition (r'.getLinkTag name)) r x P V := by
  obtain ⟨Q, h1, h2⟩ := ht
  refine ⟨Q, fun s => ?_, h2⟩
  show (movedBy r x s).getTagPosition ((movedBy r x s).getLinkTag name) = _
  rw [movedBy_tag h]
  exact h1 s

theorem tracksFrame_tag {r : Robot root} (h : Ready r) {name : String} {c : Ctr ℝ} {ref : Mat3 ℝ} {k g : ℝ} {first : ℕ} {axes : List (Fin 3)}
    (ht : TracksFrame r c (fun r' => r'.getTagOrientation (r.getLinkTag name)) ref k g first axes) :
    TracksFrame r c (fun r' => r'.getTagOrientation (r'.getLinkTag name)) ref k g first axes := by
  intro x
  obtain ⟨R, w, e, h1, h2⟩ := ht x
  exact ⟨R, w, e, frameTurns_tag h h1, h2⟩

theorem tracksPoint_tag {r : Robot root} (h : Ready r) {name : String} {c : Ctr ℝ} {ref : Fin 3 → ℝ} {k g : ℝ} {first : ℕ} {axes : List (Fin 3)}
    (ht : TracksPoint r c (fun r' => r'.getTagPosition (r.getLinkTag name)) ref k g first axes) :
    TracksPoint r c (fun r' => r'.getTagPosition (r'.getLinkTag name)) ref k g first axes := by
  intro x
  obtain ⟨P, V, h1, h2⟩ := ht x
  exact ⟨P, V, pointMoves_tag h h1, h2⟩

/-! ### Members -/

/-- The members of `TaskZeroVariables` and the constraints agree. -/
structure ZeroKept (gain : ℝ) (id : String) (z : ZeroVariables ℝ) (d : CtrData ℝ) : Prop where
  id : z.variables_id = id
  same : z.gain = gain
  sizes : d.gains.n = z.location.length ∧ d.idx.n = z.location.length
  rows : ∀ i < z.location.length, d.gains.e i = gain ∧ d.idx.e i = z.location.offset + i

theorem zeroKept_form {gain : ℝ} {id : String} {z : ZeroVariables ℝ} {d : CtrData ℝ} (h : ZeroKept gain id z d) (s : SolutionStructure) :
    ZeroKept gain id (z.form s d).1 (z.form s d).2.1 ∧ (z.form s d).1.location = z.locate s := by
  unfold ZeroVariables.form
  simp only
  by_cases e : z.locate s ≠ z.location
  · rw [if_pos e]
    exact ⟨⟨h.id, h.same, ⟨rfl, rfl⟩, fun i _ => ⟨h.same, rfl⟩⟩, rfl⟩
  · rw [if_neg e]
    exact ⟨h, (not_not.1 e).symm⟩

/-- What is known about the members of an object. -/
def MembersOf (r0 : Robot root) (m : Members) (d : CtrData ℝ) (k : IkTask) : Prop :=
  (∀ name, k.link = some name → TagOf r0 name m.tag) ∧
  ∀ gain id, k = .zeroVariables gain id → ZeroKept gain id m.zero d

theorem membersOf_new (r0 : Robot root) (k : IkTask) : MembersOf r0 k.newMembers Pepper.noData k := by
  refine ⟨fun name hn => ?_, fun gain id e => ?_⟩
  · cases k <;> first | exact Or.inl rfl | cases hn
  · subst e
    exact ⟨rfl, rfl, ⟨rfl, rfl⟩, fun i hi => absurd hi (Nat.not_lt_zero i)⟩

theorem membersOf_after {r0 r : Robot root} (h : Ready r0) (hs : SameIkRobot r0 r) {env : IkEnv root} (he : env.robot = r) {m : Members}
    {d d' : CtrData ℝ} {k : IkTask} (hm : MembersOf r0 m d k)
    (hd : ∀ gain id, k = .zeroVariables gain id → d' = (m.zero.form env.structure_ d).2.1) : MembersOf r0 (k.membersAfter m env) d' k := by
  refine ⟨fun name hn => ?_, fun gain id e => ?_⟩
  · have key : cachedTag env.robot name m.tag = r0.getLinkTag name := by
      rcases hm.1 name hn with e | e
      · rw [e, he]
        exact sameRobot_tag h hs name
      · rw [e]
        rfl
    have : (k.membersAfter m env).tag = some (cachedTag env.robot name m.tag) := by
      cases k <;> first | cases hn | skip
      all_goals rfl
    rw [this, key]
    exact Or.inr rfl
  · subst e
    rw [hd gain id rfl]
    have := (zeroKept_form (hm.2 gain id rfl) env.structure_).1
    show ZeroKept gain id (m.zero.form env.structure_ Pepper.noData).1 _
    rw [Pepper.zero_form_members m.zero _ Pepper.noData d]
    exact this

/-! ### Forming of tasks -/

theorem baseAxes_eq (root : Root) : baseAxes root = planarAxes root := by cases root <;> rfl

theorem baseTurns_eq (root : Root) : baseTurns root = if root = .planar then [2] else [0, 1, 2] := by cases root <;> rfl

theorem locate_named {root : Root} {z : ZeroVariables ℝ} {id : String} (hz : z.variables_id = id)
    (hid : id = "root_vel" ∨ id = "joints_vel" ∨ id = "") :
    0 < (z.locate (Wbc.solutionStructure root)).length ∧
    (z.locate (Wbc.solutionStructure root)).offset + (z.locate (Wbc.solutionStructure root)).length ≤ root.dof + 15 ∧
    ∀ v, NamedVariable root id v ↔ (z.locate (Wbc.solutionStructure root)).offset ≤ v ∧
      v < (z.locate (Wbc.solutionStructure root)).offset + (z.locate (Wbc.solutionStructure root)).length := by
  have hdof : 0 < root.dof := by cases root <;> decide
  have hn : (Wbc.solutionStructure root).nvars = root.dof + 15 := by cases root <;> rfl
  unfold ZeroVariables.locate NamedVariable
  rw [hz]
  rcases hid with rfl | rfl | rfl
  · rw [if_neg (by decide), show ("root_vel" : String) = rootVelId from rfl, ik_root]
    refine ⟨hdof, by show 0 + root.dof ≤ _; omega, fun v => ?_⟩
    simp [rootVelId]
  · rw [if_neg (by decide), show ("joints_vel" : String) = jointsVelId from rfl, ik_joints]
    refine ⟨by show 0 < 15; omega, by show root.dof + 15 ≤ _; omega, fun v => ?_⟩
    simp [jointsVelId]
  · rw [if_pos (by decide), hn]
    refine ⟨by show 0 < root.dof + 15; omega, by show 0 + (root.dof + 15) ≤ _; omega, fun v => ?_⟩
    simp

/-- The virtual function `form` of the tasks. -/
theorem formData_ok {r0 r : Robot root} (h0 : Ready r0) (hs : SameIkRobot r0 r) (w : Wbc) {k : IkTask} (ha : Applicable r w k) {m : Members}
    {d : CtrData ℝ} (hm : MembersOf r0 m d k) (junkA : ℕ → ℕ → ℝ) (junkB : ℕ → ℝ) :
    ∃ d' u, k.formData junkA junkB m (ikEnv r w) d = .ok (d', u) ∧ IkMeans r w (ikCtr root k.ctype d') k ∧
      (∀ gain id, k = .zeroVariables gain id → d' = (m.zero.form (ikEnv r w).structure_ d).2.1) := by
  have h : Ready r := sameRobot_ready h0 hs
  have tag : ∀ name, k.link = some name → TagOf r name m.tag := by
    intro name hn
    unfold TagOf
    rw [sameRobot_tag h0 hs name]
    exact hm.1 name hn
  have run : ∀ {x : Res (CtrData ℝ)} {d' : CtrData ℝ}, x = .ok d' → (x >>= fun y => pure (y, false) : Res (CtrData ℝ × Bool)) = .ok (d', false) := by
    intro x d' e
    rw [e]
    rfl
  cases k with
  | jointsBounds =>
    obtain ⟨d', e, h1, h2⟩ := C94_jointsBounds r w d
    exact ⟨d', false, run e, ⟨rfl, h1, h2⟩, fun _ _ e => by cases e⟩
  | jointsReference gain k reference =>
    obtain ⟨d', e, h1, h2, h3⟩ := C94_jointsReference r w gain k reference d
    exact ⟨d', false, run e, ⟨rfl, h1, h2, h3⟩, fun _ _ e => by cases e⟩
  | baseCoM gain k =>
    obtain ⟨d', g, e, h1, h2, h3⟩ := C94_baseCoM h w gain k junkA d
    refine ⟨d', false, run e, ?_, fun _ _ e => by cases e⟩
    show LinearTask _ root (baseAxes root).length ∧ _
    rw [baseAxes_eq]
    exact ⟨h1, g, h2, h3⟩
  | bodyCoM gain k f =>
    obtain ⟨d', g, e, h1, h2, h3⟩ := C94_bodyCoM h w gain k f ha.1 ha.2 junkA junkB d
    exact ⟨d', false, run e, ⟨h1, g, h2, h3⟩, fun _ _ e => by cases e⟩
  | baseOrientation gain k =>
    obtain ⟨d', g, Rref, e, h1, h2, h3, h4⟩ := C94_baseOrientation h w gain k d
    refine ⟨d', false, run e, ?_, fun _ _ e => by cases e⟩
    show LinearTask _ root (baseTurns root).length ∧ _
    have hl : (baseTurns root).length = if root = .planar then 1 else 3 := by cases root <;> rfl
    rw [hl]
    refine ⟨h1, g, Rref, h2, h3, ?_⟩
    rw [baseTurns_eq]
    exact h4
  | tagOrientation gain k name rpy =>
    obtain ⟨d', g, Rref, e, h1, h2, h3, h4⟩ := C94_tagOrientation h w gain k name rpy (tag name rfl) ha d
    exact ⟨d', false, run e, ⟨h1, g, Rref, h2, h3, tracksFrame_tag h h4⟩, fun _ _ e => by cases e⟩
  | tagPose gain k name =>
    obtain ⟨ha, pose, hp⟩ := ha
    obtain ⟨d', g, Rref, e, h1, h2, h3, h4, h5⟩ := C94_tagPose h w gain k name (tag name rfl) ha hp d
    exact ⟨d', false, run e, ⟨h1, g, Rref, pose, h2, hp, h3, tracksFrame_tag h h4, tracksPoint_tag h h5⟩, fun _ _ e => by cases e⟩
  | tagPose3Dof gain k name =>
    obtain ⟨ha, pose, hp⟩ := ha
    obtain ⟨d', g, Rref, e, h1, h2, h3, h4, h5, -⟩ := C94_tagPose3Dof h w gain k name (tag name rfl) ha hp d
    exact ⟨d', false, run e, ⟨h1, g, Rref, pose, h2, hp, h3, tracksFrame_tag h h4, tracksPoint_tag h h5⟩, fun _ _ e => by cases e⟩
  | tagAngularVelocity gain k name =>
    obtain ⟨d', g, e, h1, h2, h3⟩ := C94_tagAngularVelocity h w gain k name (tag name rfl) ha d
    refine ⟨d', false, run e, ⟨h1, g, h2, fun x => ?_⟩, fun _ _ e => by cases e⟩
    obtain ⟨R, ω, a1, a2⟩ := h3 x
    exact ⟨R, ω, frameTurns_tag h a1, a2⟩
  | tagCompleteVelocity gain k name =>
    obtain ⟨d', g, e, h1, h2, h3⟩ := C94_tagCompleteVelocity_partial h w gain k name (tag name rfl) ha d
    refine ⟨d', false, run e, ⟨h1, g, h2, fun x => ?_⟩, fun _ _ e => by cases e⟩
    obtain ⟨P, V, R, ω, a1, a2, a3⟩ := h3 x
    exact ⟨P, V, R, ω, pointMoves_tag h a1, frameTurns_tag h a2, a3⟩
  | fixArms =>
    obtain ⟨d', e, h1, h2⟩ := C94_fixArms r w d
    exact ⟨d', false, run e, ⟨rfl, h1, h2⟩, fun _ _ e => by cases e⟩
  | fixHead =>
    obtain ⟨d', e, h1, h2⟩ := C94_fixHead r w d
    exact ⟨d', false, run e, ⟨rfl, h1, h2⟩, fun _ _ e => by cases e⟩
  | zeroVariables gain id =>
    have hz := hm.2 gain id rfl
    obtain ⟨k1, k2⟩ := zeroKept_form hz (ikEnv r w).structure_
    obtain ⟨l1, l2, l3⟩ := locate_named (root := root) hz.id ha
    refine ⟨_, _, rfl, ?_, fun _ _ e => by cases e; rfl⟩
    have k2 : (m.zero.form (ikEnv r w).structure_ d).1.location = m.zero.locate (Wbc.solutionStructure root) := k2
    rw [← k2] at l1 l2 l3
    generalize (m.zero.form (ikEnv r w).structure_ d).1 = z at k1 l1 l2 l3
    show IkMeans r w (ikCtr root .gib0 (m.zero.form (ikEnv r w).structure_ d).2.1) (.zeroVariables gain id)
    generalize (m.zero.form (ikEnv r w).structure_ d).2.1 = d' at k1
    have hrow : rows (ikCtr root .gib0 d') = z.location.length := k1.sizes.2
    have hres : ∀ i < z.location.length, ∀ x, lhs (ikCtr root .gib0 d') x i - target (ikCtr root .gib0 d') i = gain * x (z.location.offset + i) := by
      intro i hi x
      simp only [lhs, target, ikCtr, sub_zero]
      rw [(k1.rows i hi).1, (k1.rows i hi).2]
    refine ⟨rfl, ⟨trivial, k1.sizes.1.trans k1.sizes.2.symm, fun i hi => ?_⟩, ⟨fun i hi => ?_, fun v hv => ?_, fun i hi j hj e => ?_⟩⟩
    · have hi : i < z.location.length := by rw [← k1.sizes.2]; exact hi
      show d'.idx.e i < root.dof + jointsDof
      rw [(k1.rows i hi).2]
      show z.location.offset + i < root.dof + 15
      omega
    · rw [hrow] at hi
      exact ⟨_, (l3 _).2 ⟨by omega, by omega⟩, hres i hi⟩
    · obtain ⟨v1, v2⟩ := (l3 v).1 hv
      refine ⟨v - z.location.offset, by rw [hrow]; omega, fun x => ?_⟩
      rw [hres _ (by omega), show z.location.offset + (v - z.location.offset) = v by omega]
    · rw [hrow] at hi hj
      have e : d'.idx.e i = d'.idx.e j := e
      rw [(k1.rows i hi).2, (k1.rows j hj).2] at e
      omega
  | zeroSelected gain indices =>
    obtain ⟨h1, h2, h3⟩ := C64_selected indices gain d (root.dof + jointsDof)
    exact ⟨_, false, rfl, ⟨rfl, h3 ha.2, h1, h2⟩, fun _ _ e => by cases e⟩

theorem flagAxes_pos {f : BitVec 32} (h : f ≠ 0#32 ∧ ∀ i, 3 ≤ i → f.getLsbD i = false) : 0 < (flagAxes f).length := by
  by_contra hn
  have he : flagAxes f = [] := List.length_eq_zero_iff.1 (by omega)
  refine h.1 (BitVec.eq_of_getLsbD_eq fun i _ => ?_)
  rw [BitVec.getLsbD_zero]
  by_cases hi : i < 3
  · have := List.filter_eq_nil_iff.1 he (⟨i, hi⟩ : Fin 3) (by
      have : i = 0 ∨ i = 1 ∨ i = 2 := by omega
      rcases this with rfl | rfl | rfl <;> simp [Fin.ext_iff])
    simpa using this
  · exact h.2 i (by omega)

/-- Tasks have rows. -/
theorem means_rows {r : Robot root} {w : Wbc} {k : IkTask} (ha : Applicable r w k) {m : Members} {d d' : CtrData ℝ} {junkA : ℕ → ℕ → ℝ}
    {junkB : ℕ → ℝ} {u : Bool} (e : k.formData junkA junkB m (ikEnv r w) d = .ok (d', u)) (h : IkMeans r w (ikCtr root k.ctype d') k) :
    0 < rows (ikCtr root k.ctype d') := by
  cases k with
  | jointsBounds =>
    cases e
    show 0 < ((Wbc.solutionStructure root).location jointsVelId).length
    rw [ik_joints]
    show 0 < 15
    omega
  | fixArms => cases e; show 0 < 10; omega
  | fixHead => cases e; show 0 < 2; omega
  | jointsReference gain k reference => rw [h.2.2.1]; omega
  | zeroVariables gain id =>
    have : ∃ v, NamedVariable root id v := by
      have hdof : 0 < root.dof := by cases root <;> decide
      rcases ha with rfl | rfl | rfl
      · exact ⟨0, .inl ⟨rfl, hdof⟩⟩
      · exact ⟨root.dof, .inr (.inl ⟨rfl, le_refl _, by omega⟩)⟩
      · exact ⟨0, .inr (.inr ⟨rfl, by omega⟩)⟩
    obtain ⟨v, hv⟩ := this
    obtain ⟨i, hi, -⟩ := h.2.2.covers v hv
    omega
  | zeroSelected gain indices => rw [h.2.2.1]; exact ha.1
  | baseCoM gain k => rw [h.1.rows]; cases root <;> decide
  | bodyCoM gain k f => rw [h.1.rows]; exact flagAxes_pos ha
  | baseOrientation gain k => rw [h.1.rows]; cases root <;> decide
  | _ => rw [h.1.rows]; omega

theorem means_ctype {r : Robot root} {w : Wbc} {c : Ctr ℝ} {k : IkTask} (h : IkMeans r w c k) : c.ctype = k.ctype := by
  cases k <;> first | exact h.1 | exact h.1.ctype

theorem means_wellFormed {r : Robot root} {w : Wbc} {c : Ctr ℝ} {k : IkTask} (h : IkMeans r w c k) : WellFormed c := by
  cases k <;> first | exact h.2.1 | exact h.1.wellFormed

/-! ### Tasks on the first level -/

theorem pointMoves_same {point : Robot root → Res (Fin 3 → ℝ)} {r : Robot root} {x : ℕ → ℝ} {P V P' V' : Fin 3 → ℝ}
    (h : PointMoves point r x P V) (h' : PointMoves point r x P' V') : P = P' ∧ V = V' := by
  obtain ⟨Q, h1, rfl, h3⟩ := h
  obtain ⟨Q', h1', rfl, h3'⟩ := h'
  have : Q = Q' := funext fun s => Except.ok.inj ((h1 s).symm.trans (h1' s))
  subst this
  exact ⟨rfl, funext fun a => (h3 a).unique (h3' a)⟩

theorem angularVelocity_unique {R R' : Mat3 ℝ} (hR : IsRotation R) {w w' : Fin 3 → ℝ} (h : IsAngularVelocity w R R')
    (h' : IsAngularVelocity w' R R') : w = w' := by
  have hinv : R * Rᵀ = 1 := mul_eq_one_comm.1 hR.1
  have key : ∀ p, vectorProduct w p = vectorProduct w' p := by
    intro p
    have e : R *ᵥ (Rᵀ *ᵥ p) = p := by rw [Matrix.mulVec_mulVec, hinv, Matrix.one_mulVec]
    have := (h (Rᵀ *ᵥ p)).symm.trans (h' (Rᵀ *ᵥ p))
    rwa [e] at this
  have k0 := key ![1, 0, 0]
  have k1 := key ![0, 1, 0]
  have a1 := congrFun k0 1
  have a2 := congrFun k0 2
  have a3 := congrFun k1 2
  simp [vectorProduct] at a1 a2 a3
  funext a
  fin_cases a <;> assumption

theorem frameTurns_unique {frame : Robot root → Res (Mat3 ℝ)} {r : Robot root} {x : ℕ → ℝ} {R R' : Mat3 ℝ} {w w' : Fin 3 → ℝ}
    (h : FrameTurns frame r x R w) (h' : FrameTurns frame r x R' w') : R = R' ∧ w = w' := by
  obtain ⟨hR, Q, D, h1, rfl, h3, h4⟩ := h
  obtain ⟨-, Q', D', h1', rfl, h3', h4'⟩ := h'
  have : Q = Q' := funext fun s => Except.ok.inj ((h1 s).symm.trans (h1' s))
  subst this
  have : D = D' := by
    ext i j
    exact (h3 i j).unique (h3' i j)
  subst this
  exact ⟨rfl, angularVelocity_unique hR h4 h4'⟩

theorem turnsAbout_unique {k : Fin 3} {a : ℝ} {R R' : Mat3 ℝ} (h : TurnsAbout k a R) (h' : TurnsAbout k a R') : R = R' := by
  have key : ∀ j : Fin 3, R.mulVec (Pi.single j 1) = R'.mulVec (Pi.single j 1) := by
    have h0 := h.1.trans h'.1.symm
    have h1 := h.2.1.trans h'.2.1.symm
    have h2 := h.2.2.trans h'.2.2.symm
    intro j
    have : ∀ j k : Fin 3, j = k ∨ j = k + 1 ∨ j = k + 2 := by decide
    rcases this j k with rfl | rfl | rfl <;> assumption
  ext i j
  have := congrFun (key j) i
  simpa using this

theorem describesRpy_unique {e : Fin 3 → ℝ} {R R' : Mat3 ℝ} (h : DescribesRpy e R) (h' : DescribesRpy e R') : R = R' := by
  obtain ⟨X, Y, Z, h1, h2, h3, rfl⟩ := h
  obtain ⟨X', Y', Z', h1', h2', h3', rfl⟩ := h'
  rw [turnsAbout_unique h1 h1', turnsAbout_unique h2 h2', turnsAbout_unique h3 h3']

theorem usedGain_ne {gain g : ℝ} (h : UsedGain gain g) (hg : gain ≠ 0) : g ≠ 0 := by
  rcases h with rfl | ⟨rfl, -⟩
  · exact hg
  · exact one_ne_zero

theorem satisfied_equality {c : Ctr ℝ} (h : c.ctype = .ab ∨ c.ctype = .gib ∨ c.ctype = .gib0) (x : ℕ → ℝ) :
    Satisfied c x ↔ ∀ i < rows c, lhs c x i - target c i = 0 := by
  obtain ⟨t, nv, d⟩ := c
  refine forall₂_congr fun i hi => ?_
  rw [sub_eq_zero]
  rcases h with h | h | h <;> cases h <;>
  · constructor
    · intro h
      exact le_antisymm (h.2 _ rfl) (h.1 _ rfl)
    · intro h
      refine ⟨fun l hl => ?_, fun l hl => ?_⟩ <;> cases hl <;> first | exact h.ge | exact h.le

/-- A task with rows for the axes. -/
theorem tracks_rows {c : Ctr ℝ} {x : ℕ → ℝ} {axes : List (Fin 3)} {f : Fin 3 → ℝ} {g : ℝ} (hg : g ≠ 0) {first : ℕ}
    (h : ∀ (i : ℕ) a, axes[i]? = some a → lhs c x (first + i) - target c (first + i) = g * f a) :
    (∀ i, first ≤ i → i < first + axes.length → lhs c x i - target c i = 0) ↔ ∀ a ∈ axes, f a = 0 := by
  constructor
  · intro hs a ha
    obtain ⟨i, hi⟩ := List.getElem?_of_mem ha
    have e := hs (first + i) (by omega) (by have := (List.getElem?_eq_some_iff.1 hi).1; omega)
    rw [h i a hi] at e
    exact (mul_eq_zero.1 e).resolve_left hg
  · intro hs i h1 h2
    have hi : i - first < axes.length := by omega
    have e := h (i - first) axes[i - first] (List.getElem?_eq_getElem hi)
    rw [show first + (i - first) = i by omega] at e
    rw [e, hs _ (List.getElem_mem hi), mul_zero]

theorem fin3_rows {c : Ctr ℝ} {x : ℕ → ℝ} {f : Fin 3 → ℝ} {g : ℝ} (hg : g ≠ 0) {first : ℕ}
    (h : ∀ a : Fin 3, lhs c x (first + a) - target c (first + a) = g * f a) :
    (∀ i, first ≤ i → i < first + 3 → lhs c x i - target c i = 0) ↔ ∀ a, f a = 0 := by
  have := tracks_rows (axes := [0, 1, 2]) hg (first := first) (c := c) (x := x) (f := f) (by
    intro i a hi
    rw [axes_get hi]
    exact h a)
  rw [show first + 3 = first + ([0, 1, 2] : List (Fin 3)).length from rfl, this]
  refine forall_congr' fun a => ⟨fun h => h (by fin_cases a <;> simp), fun h _ => h⟩

theorem all_axes (a : Fin 3) : a ∈ ([0, 1, 2] : List (Fin 3)) := by fin_cases a <;> simp

theorem six_rows {p : ℕ → Prop} : (∀ i < 6, p i) ↔ (∀ i, 0 ≤ i → i < 0 + 3 → p i) ∧ ∀ i, 3 ≤ i → i < 3 + 3 → p i :=
  ⟨fun h => ⟨fun i _ hi => h i (by omega), fun i _ hi => h i (by omega)⟩, fun ⟨h1, h2⟩ i hi => by
    by_cases h3 : i < 3
    · exact h1 i (by omega) (by omega)
    · exact h2 i (by omega) (by omega)⟩

theorem from_zero {p : ℕ → Prop} {n : ℕ} : (∀ i < n, p i) ↔ ∀ i, 0 ≤ i → i < 0 + n → p i :=
  ⟨fun h i _ hi => h i (by omega), fun h i hi => h i (by omega) (by omega)⟩

/-- Satisfied constraints do what their tasks ask for. -/
theorem means_achieves {r : Robot root} {w : Wbc} {c : Ctr ℝ} {k : IkTask} (h : IkMeans r w c k) (hw : Weighted k) (x : ℕ → ℝ) :
    (Satisfied c x → Achieves r w x k) ∧ (Exact k → Achieves r w x k → Satisfied c x) := by
  have both : ∀ {p q : Prop}, (p ↔ q) → (p → q) ∧ (Exact k → q → p) := fun h => ⟨h.1, fun _ => h.2⟩
  cases k with
  | jointsBounds => exact both (h.2.2 x)
  | fixArms => exact both (h.2.2 x)
  | fixHead => exact both (h.2.2 x)
  | jointsReference gain k reference =>
    obtain ⟨h1, -, h3, h4⟩ := h
    refine both ?_
    rw [satisfied_equality (.inr (.inl h1)), h3]
    have hw : gain ≠ 0 := hw
    constructor
    · intro hs j
      have e := hs j j.2
      rw [h4] at e
      have e := (mul_eq_zero.1 e).resolve_left hw
      linarith
    · intro hs i hi
      rw [h4 x ⟨i, hi⟩, hs ⟨i, hi⟩]
      ring
  | baseCoM gain k =>
    obtain ⟨h1, g, hg, ht⟩ := h
    refine both ?_
    obtain ⟨P, V, hm, hr⟩ := ht x
    rw [satisfied_equality (.inl h1.ctype), h1.rows, from_zero, tracks_rows (usedGain_ne hg hw) hr]
    exact ⟨fun h => ⟨P, V, hm, fun a ha => sub_eq_zero.1 (h a ha)⟩, fun ⟨P', V', hm', h⟩ a ha => by
      obtain ⟨rfl, rfl⟩ := pointMoves_same hm hm'
      exact sub_eq_zero.2 (h a ha)⟩
  | bodyCoM gain k f =>
    obtain ⟨h1, g, hg, ht⟩ := h
    refine both ?_
    obtain ⟨P, V, hm, hr⟩ := ht x
    rw [satisfied_equality (.inl h1.ctype), h1.rows, from_zero, tracks_rows (usedGain_ne hg hw) hr]
    exact ⟨fun h => ⟨P, V, hm, fun a ha => sub_eq_zero.1 (h a ha)⟩, fun ⟨P', V', hm', h⟩ a ha => by
      obtain ⟨rfl, rfl⟩ := pointMoves_same hm hm'
      exact sub_eq_zero.2 (h a ha)⟩
  | baseOrientation gain k =>
    obtain ⟨h1, g, Rref, hg, hd, ht⟩ := h
    refine both ?_
    obtain ⟨R, ω, e, hm, he, hr⟩ := ht x
    rw [satisfied_equality (.inl h1.ctype), h1.rows, from_zero, tracks_rows (usedGain_ne hg hw) hr]
    exact ⟨fun h => ⟨Rref, R, ω, e, hd, hm, he, fun a ha => sub_eq_zero.1 (h a ha)⟩, fun ⟨Rref', R', ω', e', hd', hm', he', h⟩ a ha => by
      obtain ⟨rfl, rfl⟩ := frameTurns_unique hm hm'
      obtain rfl := describesRpy_unique hd hd'
      obtain rfl := error_unique he he'
      exact sub_eq_zero.2 (h a ha)⟩
  | tagOrientation gain k name rpy =>
    obtain ⟨h1, g, Rref, hg, hd, ht⟩ := h
    refine both ?_
    obtain ⟨R, ω, e, hm, he, hr⟩ := ht x
    rw [satisfied_equality (.inl h1.ctype), h1.rows, from_zero, show 3 = ([0, 1, 2] : List (Fin 3)).length from rfl,
      tracks_rows (usedGain_ne hg hw) hr]
    exact ⟨fun h => ⟨Rref, R, ω, e, hd, hm, he, fun a => sub_eq_zero.1 (h a (all_axes a))⟩, fun ⟨Rref', R', ω', e', hd', hm', he', h⟩ a _ => by
      obtain ⟨rfl, rfl⟩ := frameTurns_unique hm hm'
      obtain rfl := describesRpy_unique hd hd'
      obtain rfl := error_unique he he'
      exact sub_eq_zero.2 (h a)⟩
  | tagPose gain k name =>
    obtain ⟨h1, g, Rref, pose, hg, hp, hd, ht, ht2⟩ := h
    refine both ?_
    obtain ⟨R, ω, e, hm, he, hr⟩ := ht x
    obtain ⟨P, V, hm2, hr2⟩ := ht2 x
    rw [satisfied_equality (.inl h1.ctype), h1.rows, six_rows]
    refine Iff.trans (and_congr (tracks_rows (usedGain_ne hg hw) hr) (tracks_rows (usedGain_ne hg hw) hr2)) ?_
    constructor
    · exact fun h => ⟨pose, Rref, R, ω, e, P, V, hp, hd, hm, he, fun a => sub_eq_zero.1 (h.1 a (all_axes a)), hm2,
        fun a => sub_eq_zero.1 (h.2 a (all_axes a))⟩
    · rintro ⟨pose', Rref', R', ω', e', P', V', hp', hd', hm', he', k1, hm2', k2⟩
      cases hp.symm.trans hp'
      obtain ⟨rfl, rfl⟩ := frameTurns_unique hm hm'
      obtain ⟨rfl, rfl⟩ := pointMoves_same hm2 hm2'
      obtain rfl := describesRpy_unique hd hd'
      obtain rfl := error_unique he he'
      exact ⟨fun a _ => sub_eq_zero.2 (k1 a), fun a _ => sub_eq_zero.2 (k2 a)⟩
  | tagPose3Dof gain k name =>
    obtain ⟨h1, g, Rref, pose, hg, hp, hd, ht, ht2⟩ := h
    obtain ⟨R, ω, e, hm, he, hr⟩ := ht x
    obtain ⟨P, V, hm2, hr2⟩ := ht2 x
    refine ⟨fun hs => ?_, fun h => h.elim⟩
    rw [satisfied_equality (.inl h1.ctype), h1.rows] at hs
    have k1 := (tracks_rows (usedGain_ne hg hw) hr).1 fun i _ hi => hs i (by
      simp only [List.length_cons, List.length_nil] at hi
      omega)
    have k2 := (tracks_rows (usedGain_ne hg hw) hr2).1 fun i _ hi => hs i (by
      simp only [List.length_cons, List.length_nil] at hi
      omega)
    exact ⟨pose, Rref, R, ω, e, P, V, hp, hd, hm, he, fun a ha => sub_eq_zero.1 (k1 a ha), hm2, sub_eq_zero.1 (k2 2 (by simp))⟩
  | tagAngularVelocity gain k name =>
    obtain ⟨h1, g, hg, ht⟩ := h
    refine both ?_
    obtain ⟨R, ω, hm, hr⟩ := ht x
    rw [satisfied_equality (.inl h1.ctype), h1.rows, from_zero, fin3_rows (usedGain_ne hg hw) (first := 0) (by simpa using hr)]
    exact ⟨fun h => ⟨R, ω, hm, fun a => sub_eq_zero.1 (h a)⟩, fun ⟨R', ω', hm', h⟩ a => by
      obtain ⟨rfl, rfl⟩ := frameTurns_unique hm hm'
      exact sub_eq_zero.2 (h a)⟩
  | tagCompleteVelocity gain k name =>
    obtain ⟨h1, g, hg, ht⟩ := h
    refine both ?_
    obtain ⟨P, V, R, ω, hm2, hm, hr, hr2⟩ := ht x
    rw [satisfied_equality (.inl h1.ctype), h1.rows, six_rows, fin3_rows (usedGain_ne hg hw) (first := 0) (by simpa using hr),
      fin3_rows (usedGain_ne hg hw) hr2]
    constructor
    · exact fun h => ⟨P, V, R, ω, hm2, hm, fun a => sub_eq_zero.1 (h.1 a), fun a => sub_eq_zero.1 (h.2 a)⟩
    · rintro ⟨P', V', R', ω', hm2', hm', k1, k2⟩
      obtain ⟨rfl, rfl⟩ := frameTurns_unique hm hm'
      obtain ⟨rfl, rfl⟩ := pointMoves_same hm2 hm2'
      exact ⟨fun a => sub_eq_zero.2 (k1 a), fun a => sub_eq_zero.2 (k2 a)⟩
  | zeroVariables gain id =>
    obtain ⟨h1, -, h3⟩ := h
    refine both ?_
    have hw : gain ≠ 0 := hw
    rw [satisfied_equality (.inr (.inr h1))]
    constructor
    · intro hs v hv
      obtain ⟨i, hi, e⟩ := h3.covers v hv
      exact (mul_eq_zero.1 ((e x).symm.trans (hs i hi))).resolve_left hw
    · intro hs i hi
      obtain ⟨v, hv, e⟩ := h3.only i hi
      rw [e, hs v hv, mul_zero]
  | zeroSelected gain indices =>
    obtain ⟨h1, -, h3, h4⟩ := h
    refine both ?_
    have hw : gain ≠ 0 := hw
    rw [satisfied_equality (.inr (.inr h1)), h3]
    refine forall₂_congr fun i hi => ?_
    rw [h4 i hi]
    exact ⟨fun e => (mul_eq_zero.1 e).resolve_left hw, fun e => by rw [e, mul_zero]⟩

/-! ### Tasks in the hierarchy -/

/-- `t` is the object number `k.1`, a task of the kind `k.2`; `Q` are additional conditions. -/
structure IkTaskOf (r0 : Robot root) (tasks : List IkTask) (members : ℕ → Members) (Q : IkTask → Ctr ℝ → Prop)
    (t : Task (ProblemEnv root) ℝ) (k : ℕ × IkTask) : Prop where
  formFn : t.formFn = (k.2.task root k.1).formFn
  guessFn : t.guessFn = none
  ctype : t.ctr.ctype = k.2.ctype
  guess : t.guess = []
  object : tasks[k.1]? = some k.2
  members : MembersOf r0 (members k.1) t.ctr.data k.2
  kept : Q k.2 t.ctr

/-- The members after forming. -/
def nextMembers (tasks : List IkTask) (members : ℕ → Members) (env : IkEnv root) (n : ℕ) : Members :=
  match tasks[n]? with
  | some t => t.membersAfter (members n) env
  | none => members n

section
variable {r0 r : Robot root} {tasks : List IkTask} {members : ℕ → Members} {Q : IkTask → Ctr ℝ → Prop} {t : Task (ProblemEnv root) ℝ}
  {k : ℕ × IkTask}

theorem ikTask_form (h0 : Ready r0) (hs : SameIkRobot r0 r) (w : Wbc) (ha : Applicable r w k.2) (hk : IkTaskOf r0 tasks members Q t k)
    (junkA : ℕ → ℕ → ℕ → ℝ) (junkB : ℕ → ℕ → ℝ) :
    ∃ t', t.formAll (root.dof + jointsDof) ⟨ikEnv r w, members, junkA, junkB⟩ false = .ok t' ∧ 0 < rows t'.ctr ∧
      IkTaskOf r0 tasks (nextMembers tasks members (ikEnv r w)) (fun k c => IkMeans r w c k) t' k := by
  obtain ⟨d', u, e, h1, h2⟩ := formData_ok h0 hs w ha hk.members (junkA k.1) (junkB k.1)
  have hr := means_rows ha e h1
  have hc : ikCtr root k.2.ctype d' = ⟨t.ctr.ctype, root.dof + jointsDof, d'⟩ := by rw [hk.ctype]; rfl
  rw [hc] at h1 hr
  refine ⟨{ t with ctr := ⟨t.ctr.ctype, root.dof + jointsDof, d'⟩, modified := if u then false else true }, ?_, hr, hk.formFn, hk.guessFn,
    hk.ctype, hk.guess, hk.object, ?_, h1⟩
  · have ef : (t.preForm (root.dof + jointsDof)).form (⟨ikEnv r w, members, junkA, junkB⟩ : ProblemEnv root) =
        .ok { t with ctr := ⟨t.ctr.ctype, root.dof + jointsDof, d'⟩, modified := if u then false else true } := by
      unfold Task.form
      show t.formFn _ ⟨t.ctr.ctype, root.dof + jointsDof, t.ctr.data⟩ >>= _ = _
      have e' : t.formFn (⟨ikEnv r w, members, junkA, junkB⟩ : ProblemEnv root) ⟨t.ctr.ctype, root.dof + jointsDof, t.ctr.data⟩ =
          .ok (d', u) := by
        rw [hk.formFn]
        exact e
      rw [e']
      rfl
    unfold Task.formAll
    rw [ef, ok_bind]
    show (Task.postForm _ >>= _) = _
    unfold Task.postForm
    rw [checkConsistency_of_wellFormed _ (means_wellFormed h1), ok_bind]
    show (assertThat (t.guess.length = 0 ∨ _) >>= _) = _
    rw [assertThat_true (Or.inl (by rw [hk.guess]; rfl)), ok_bind]
    rfl
  · unfold nextMembers
    rw [hk.object]
    exact membersOf_after h0 hs (env := ikEnv r w) rfl hk.members h2

/-- Also if other tasks fail: what is known about a formed task. -/
theorem ikTask_formed (h0 : Ready r0) (hs : SameIkRobot r0 r) (w : Wbc) (hk : IkTaskOf r0 tasks members Q t k)
    {junkA : ℕ → ℕ → ℕ → ℝ} {junkB : ℕ → ℕ → ℝ} {t' : Task (ProblemEnv root) ℝ}
    (e : t.formAll (root.dof + jointsDof) ⟨ikEnv r w, members, junkA, junkB⟩ false = .ok t') :
    IkTaskOf r0 tasks (nextMembers tasks members (ikEnv r w)) (fun k c => Applicable r w k → IkMeans r w c k) t' k := by
  unfold Task.formAll at e
  obtain ⟨t1, e1, e⟩ := bind_eq_ok.1 e
  obtain ⟨t2, e2, e⟩ := bind_eq_ok.1 e
  obtain ⟨_, _, e⟩ := bind_eq_ok.1 e
  cases e
  cases e2
  have e1' := e1
  unfold Task.form at e1
  obtain ⟨⟨d', u⟩, e3, e4⟩ := bind_eq_ok.1 e1
  cases e4
  have e3 : t.formFn _ ⟨t.ctr.ctype, root.dof + jointsDof, t.ctr.data⟩ = .ok (d', u) := e3
  rw [hk.formFn] at e3
  have e3 : k.2.formData (junkA k.1) (junkB k.1) (members k.1) (ikEnv r w) t.ctr.data = .ok (d', u) := e3
  refine ⟨hk.formFn, hk.guessFn, hk.ctype, hk.guess, hk.object, ?_, fun ha => ?_⟩
  · unfold nextMembers
    rw [hk.object]
    refine membersOf_after h0 hs (env := ikEnv r w) rfl hk.members fun gain id ek => ?_
    rw [ek] at e3
    exact (congrArg Prod.fst (Except.ok.inj e3)).symm
  · obtain ⟨d'', u', e5, h1, -⟩ := formData_ok h0 hs w ha hk.members (junkA k.1) (junkB k.1)
    cases e3.symm.trans e5
    show IkMeans r w ⟨t.ctr.ctype, root.dof + jointsDof, d'⟩ k.2
    rw [hk.ctype]
    exact h1

end

/-! ### The problem -/

/-- The hierarchy has the given tasks. -/
structure IkShaped (r0 : Robot root) (Q : IkTask → Ctr ℝ → Prop) (p : IkProblem root) (levels : List (List IkTask)) : Prop where
  shape : ∃ kinds, Shaped (IkTaskOf r0 p.tasks p.members Q) p.hierarchy kinds ∧
    List.Forall₂ (fun ks l => (ks.map Prod.snd).Perm l) kinds levels

theorem reachable_replicate {E K : Type} (n : ℕ) : ∀ L ∈ List.replicate n (Level.empty : Level E K), Reachable L := by
  intro L hL
  rw [List.eq_of_mem_replicate hL]
  exact .empty

theorem ikShaped_reset (r0 : Robot root) (p : IkProblem root) (n : ℕ) :
    IkShaped r0 (fun _ _ => True) (p.reset n) (List.replicate n []) := by
  refine ⟨List.replicate n [], ⟨reachable_replicate n, ?_⟩, ?_⟩
  · show List.Forall₂ _ (List.replicate n Level.empty) _
    induction n with
    | zero => exact .nil
    | succ n ih => exact .cons .nil ih
  · induction n with
    | zero => exact .nil
    | succ n ih => exact .cons .nil ih

theorem ikTaskOf_push {r0 : Robot root} {p : IkProblem root} {Q : IkTask → Ctr ℝ → Prop} (k0 : IkTask) {t : Task (ProblemEnv root) ℝ}
    {k : ℕ × IkTask} (h : IkTaskOf r0 p.tasks p.members Q t k) :
    IkTaskOf r0 (p.tasks ++ [k0]) (Function.update p.members p.tasks.length k0.newMembers) Q t k := by
  have hl : k.1 < p.tasks.length := (List.getElem?_eq_some_iff.1 h.object).1
  refine ⟨h.formFn, h.guessFn, h.ctype, h.guess, ?_, ?_, h.kept⟩
  · rw [List.getElem?_append_left hl]
    exact h.object
  · rw [Function.update_of_ne (by omega)]
    exact h.members

theorem forall2_set {α β : Type} {R : α → β → Prop} {a : List α} {b : List β} (h : List.Forall₂ R a b) (i : ℕ) {x : α} {y : β}
    (hxy : R x y) : List.Forall₂ R (a.set i x) (b.set i y) := by
  induction h generalizing i with
  | nil => simp
  | cons h1 h2 ih =>
    cases i with
    | zero => exact .cons hxy h2
    | succ i => exact .cons h1 (ih i)

theorem forall2_getElem {α β : Type} {R : α → β → Prop} {a : List α} {b : List β} (h : List.Forall₂ R a b) {i : ℕ} {y : β}
    (hy : b[i]? = some y) : ∃ x, a[i]? = some x ∧ R x y := by
  induction h generalizing i with
  | nil => simp at hy
  | cons h1 h2 ih =>
    cases i with
    | zero => cases hy; exact ⟨_, rfl, h1⟩
    | succ i => exact ih hy

theorem ikShaped_push {r0 : Robot root} {p : IkProblem root} {lists : List (List IkTask)} (h : IkShaped r0 (fun _ _ => True) p lists)
    {i : ℕ} {l : List IkTask} (hl : lists[i]? = some l) (k : IkTask) :
    ∃ p', p.pushTask k i = .ok p' ∧ IkShaped r0 (fun _ _ => True) p' (lists.set i (l ++ [k])) := by
  obtain ⟨kinds, ⟨h1, h2⟩, h3⟩ := h
  obtain ⟨ks, hks, hp⟩ := forall2_getElem h3 hl
  obtain ⟨L, hL, hLk⟩ := forall2_getElem h2 hks
  have hpush : ∃ ks', (ks'.map Prod.snd).Perm (l ++ [k]) ∧ List.Forall₂ (fun (ti : TaskInfo (ProblemEnv root) ℝ) k' => IkTaskOf r0 (p.tasks ++ [k])
      (Function.update p.members p.tasks.length k.newMembers) (fun _ _ => True) ti.task k') (L.pushTask (k.task root p.tasks.length)).tasks ks' := by
    have hnew : IkTaskOf r0 (p.tasks ++ [k]) (Function.update p.members p.tasks.length k.newMembers) (fun _ _ => True)
        (k.task root p.tasks.length) (p.tasks.length, k) := by
      refine ⟨rfl, rfl, rfl, rfl, by simp, ?_, trivial⟩
      rw [Function.update_self]
      exact membersOf_new r0 k
    have hold := hLk.imp fun _ _ h => ikTaskOf_push k h
    unfold Level.pushTask
    split
    · refine ⟨ks ++ [(p.tasks.length, k)], ?_, ?_⟩
      · rw [List.map_append]
        exact hp.append_right _
      · exact List.rel_append hold (.cons hnew .nil)
    · refine ⟨(p.tasks.length, k) :: ks, ?_, ?_⟩
      · exact (List.Perm.cons k hp).trans (List.perm_append_comm (l₁ := [k]))
      · exact .cons hnew hold
  obtain ⟨ks', hp', hf'⟩ := hpush
  refine ⟨⟨{ p.hierarchy with levels := p.hierarchy.levels.set i (L.pushTask (k.task root p.tasks.length)) }, p.tasks ++ [k],
    Function.update p.members p.tasks.length k.newMembers⟩, ?_, ⟨kinds.set i ks', ⟨fun L' hL' => ?_, ?_⟩, ?_⟩⟩
  · unfold IkProblem.pushTask Hierarchy.pushTask
    rw [hL]
    rfl
  · rcases List.mem_or_eq_of_mem_set hL' with hL' | rfl
    · exact h1 _ hL'
    · exact .push _ (h1 _ (List.mem_of_getElem? hL))
  · exact forall2_set (h2.imp fun _ _ h => h.imp fun _ _ h => ikTaskOf_push k h) i hf'
  · exact forall2_set h3 i hp'

theorem ikShaped_pushes {r0 : Robot root} {p : IkProblem root} {lists : List (List IkTask)} (h : IkShaped r0 (fun _ _ => True) p lists)
    {i : ℕ} {l : List IkTask} (hl : lists[i]? = some l) (new : List IkTask) :
    ∃ p', new.foldlM (fun p t => p.pushTask t i) p = .ok p' ∧ IkShaped r0 (fun _ _ => True) p' (lists.set i (l ++ new)) := by
  induction new generalizing p lists l with
  | nil =>
    refine ⟨p, rfl, ?_⟩
    have : lists.set i l = lists := by
      obtain ⟨hi, rfl⟩ := List.getElem?_eq_some_iff.1 hl
      exact List.set_getElem_self hi
    rw [List.append_nil, this]
    exact h
  | cons k new ih =>
    obtain ⟨p1, e1, h1⟩ := ikShaped_push h hl k
    have hi : i < lists.length := (List.getElem?_eq_some_iff.1 hl).1
    obtain ⟨p2, e2, h2⟩ := ih h1 (l := l ++ [k]) (by simp [hi])
    refine ⟨p2, ?_, ?_⟩
    · rw [List.foldlM_cons, e1]
      exact e2
    · rw [List.set_set, List.append_assoc] at h2
      exact h2

/-- The setup. -/
theorem ikShaped_setup (r0 : Robot root) (levels : List (List IkTask)) (p : IkProblem root) :
    ∃ p', p.setup levels = .ok p' ∧ IkShaped r0 (fun _ _ => True) p' levels := by
  have key : ∀ (rest done : List (List IkTask)) (p : IkProblem root),
      IkShaped r0 (fun _ _ => True) p (done ++ List.replicate rest.length []) →
      ∃ p', (rest.zipIdx done.length).foldlM (fun p l => l.1.foldlM (fun p t => p.pushTask t l.2) p) p = .ok p' ∧
        IkShaped r0 (fun _ _ => True) p' (done ++ rest) := by
    intro rest
    induction rest with
    | nil => intro done p h; exact ⟨p, rfl, h⟩
    | cons l rest ih =>
      intro done p h
      obtain ⟨p1, e1, h1⟩ := ikShaped_pushes h (i := done.length) (l := []) (by simp) l
      have hset : (done ++ List.replicate (l :: rest).length []).set done.length ([] ++ l) =
          (done ++ [l]) ++ List.replicate rest.length [] := by
        simp [List.replicate_succ]
      rw [hset] at h1
      obtain ⟨p2, e2, h2⟩ := ih (done ++ [l]) p1 h1
      refine ⟨p2, ?_, by simpa using h2⟩
      rw [List.zipIdx_cons, List.foldlM_cons]
      show (l.foldlM (fun p t => p.pushTask t done.length) p >>= _) = _
      rw [e1, ok_bind]
      simpa using e2
  obtain ⟨p', e, h⟩ := key levels [] (p.reset levels.length) (by simpa using ikShaped_reset r0 p levels.length)
  exact ⟨p', e, h⟩

section
variable {r0 r : Robot root} {Q : IkTask → Ctr ℝ → Prop} {p p' : IkProblem root} {levels : List (List IkTask)}

theorem update_structure (w : Wbc) (q : MotionParameters) : (w.update root q).sol_structure = Wbc.solutionStructure root := rfl

theorem structure_nvars (root : Root) : (Wbc.solutionStructure root).nvars = root.dof + jointsDof := by cases root <;> rfl

theorem ikProblem_formed (h0 : Ready r0) (hs : SameIkRobot r0 r) (hp : IkShaped r0 Q p levels) {w : Wbc} {q : MotionParameters}
    {junkA : ℕ → ℕ → ℕ → ℝ} {junkB : ℕ → ℕ → ℝ} (e : p.form junkA junkB r (w.update root q) = .ok p') :
    IkShaped r0 (fun k c => Applicable r (w.update root q) k → IkMeans r (w.update root q) c k) p' levels ∧
    p.hierarchy.form (root.dof + jointsDof) ⟨ikEnv r (w.update root q), p.members, junkA, junkB⟩ false = .ok p'.hierarchy := by
  obtain ⟨kinds, hk, hl⟩ := hp.shape
  unfold IkProblem.form at e
  obtain ⟨P, e1, e⟩ := bind_eq_ok.1 e
  rw [update_structure, structure_nvars] at e1
  cases e
  refine ⟨⟨kinds, ?_, hl⟩, e1⟩
  exact shaped_formed hk (fun t k t' ht e => ikTask_formed h0 hs (w.update root q) ht e) e1

theorem ikProblem_form (h0 : Ready r0) (hs : SameIkRobot r0 r) (hp : IkShaped r0 Q p levels) (w : Wbc) (q : MotionParameters)
    (ha : ∀ l ∈ levels, ∀ k ∈ l, Applicable r (w.update root q) k) (hne : levels ≠ []) (hln : ∀ l ∈ levels, l ≠ [])
    (junkA : ℕ → ℕ → ℕ → ℝ) (junkB : ℕ → ℕ → ℝ) : ∃ p', p.form junkA junkB r (w.update root q) = .ok p' := by
  obtain ⟨kinds, hk, hl⟩ := hp.shape
  have hak : ∀ ks ∈ kinds, ∀ k ∈ ks, Applicable r (w.update root q) k.2 := by
    intro ks hks k hkk
    obtain ⟨i, hi⟩ := List.getElem?_of_mem hks
    obtain ⟨l, hl1, hl2⟩ := forall2_getElem hl.flip hi
    exact ha l (List.mem_of_getElem? hl1) k.2 (hl2.mem_iff.1 (List.mem_map_of_mem hkk))
  have hk' : Shaped (fun t k => IkTaskOf r0 p.tasks p.members Q t k ∧ Applicable r (w.update root q) k.2) p.hierarchy kinds := by
    refine ⟨hk.reach, ?_⟩
    have := hk.shape
    generalize p.hierarchy.levels = Ls at this
    clear hk hl
    induction this with
    | nil => exact .nil
    | @cons L ks Ls kinds h1 h2 ih =>
      refine .cons ?_ (ih fun ks hks => hak ks (List.mem_cons_of_mem _ hks))
      have := hak ks List.mem_cons_self
      clear hak ih h2
      generalize L.tasks = ts at h1 ⊢
      induction h1 with
      | nil => exact .nil
      | cons a1 a2 ih => exact .cons ⟨a1, this _ List.mem_cons_self⟩ (ih fun k hk => this k (List.mem_cons_of_mem _ hk))
  obtain ⟨P', e⟩ := shaped_form (nv := root.dof + jointsDof) (env := ⟨ikEnv r (w.update root q), p.members, junkA, junkB⟩) (g := false) hk'
    (by
      rintro rfl
      cases hl
      exact hne rfl)
    (fun t k ht => (ikTask_form h0 hs (w.update root q) ht.2 ht.1 junkA junkB).imp fun _ h => h.1)
    (fun ks hks => by
      obtain ⟨i, hi⟩ := List.getElem?_of_mem hks
      obtain ⟨l, hl1, hl2⟩ := forall2_getElem hl.flip hi
      have hn : ks ≠ [] := by
        rintro rfl
        exact hln l (List.mem_of_getElem? hl1) (List.nil_perm.1 hl2)
      obtain ⟨k, hk⟩ := List.exists_mem_of_ne_nil ks hn
      refine ⟨k, hk, fun t t' ht e => ?_⟩
      obtain ⟨t'', e', hr, -⟩ := ikTask_form h0 hs (w.update root q) ht.2 ht.1 junkA junkB
      cases e.symm.trans e'
      exact hr)
  refine ⟨{ p with hierarchy := P', members := nextMembers p.tasks p.members (ikEnv r (w.update root q)) }, ?_⟩
  unfold IkProblem.form
  show (p.hierarchy.form (Wbc.solutionStructure root).nvars _ false >>= _) = _
  rw [structure_nvars]
  exact Eq.trans (congrArg (fun z : Res _ => z >>= _) e) rfl

theorem ikProblem_process (hp : IkShaped r0 Q p levels) {s : ActiveSetH} (e : p.processActiveSet s = .ok p') : IkShaped r0 Q p' levels := by
  obtain ⟨kinds, hk, hl⟩ := hp.shape
  unfold IkProblem.processActiveSet at e
  obtain ⟨P, e1, e⟩ := bind_eq_ok.1 e
  cases e
  refine ⟨kinds, (shaped_process hk e1).mono fun t' k ⟨t, ht, ⟨x, hx⟩, _⟩ => ?_, hl⟩
  rw [hx]
  exact ⟨ht.formFn, ht.guessFn, ht.ctype, ht.guess, ht.object, ht.members, ht.kept⟩

theorem IkShaped.mono {Q' : IkTask → Ctr ℝ → Prop} (h : ∀ k c, Q k c → Q' k c) (hp : IkShaped r0 Q p levels) : IkShaped r0 Q' p levels := by
  obtain ⟨kinds, hk, hl⟩ := hp.shape
  exact ⟨kinds, hk.mono fun _ _ ht => ⟨ht.formFn, ht.guessFn, ht.ctype, ht.guess, ht.object, ht.members, h _ _ ht.kept⟩, hl⟩

/-- The invariant of all problems. -/
theorem ikProblem_after (h0 : Ready r0) (hp : IkProblemAfter r0 levels p) : IkShaped r0 (fun _ _ => True) p levels := by
  induction hp with
  | @setup p p' e =>
    obtain ⟨p'', e', h⟩ := ikShaped_setup r0 levels p
    cases e.symm.trans e'
    exact h
  | form _ hs e ih => exact (ikProblem_formed h0 hs ih e).1.mono fun _ _ _ => trivial
  | process _ e ih => exact ikProblem_process ih e

/-- The meaning of a formed problem. -/
theorem ikShaped_means {w : Wbc} (hp : IkShaped r0 (fun k c => Applicable r w k → IkMeans r w c k) p levels)
    (ha : ∀ l ∈ levels, ∀ k ∈ l, Applicable r w k) : List.Forall₂ (LevelMeans r w) p.hierarchy.levels levels := by
  obtain ⟨kinds, hk, hl⟩ := hp.shape
  have hs := hk.shape
  generalize p.hierarchy.levels = Ls at hs
  clear hk hp
  induction hs generalizing levels with
  | nil => cases hl; exact .nil
  | @cons L ks Ls kinds h1 h2 ih =>
    cases hl with
    | @cons _ l _ levels hl1 hl2 =>
      refine .cons ?_ (ih (fun l hl => ha l (List.mem_cons_of_mem _ hl)) hl2)
      have hf : List.Forall₂ (fun c k => IkMeans r w c k) (L.tasks.map fun ti => ti.task.ctr) (ks.map Prod.snd) := by
        have hak : ∀ k ∈ ks, Applicable r w k.2 := fun k hk =>
          ha l List.mem_cons_self k.2 (hl1.mem_iff.1 (List.mem_map_of_mem hk))
        clear ih h2 hl1 hl2 ha
        generalize L.tasks = ts at h1 ⊢
        induction h1 with
        | nil => exact .nil
        | cons a1 a2 ih => exact .cons (a1.kept (hak _ List.mem_cons_self)) (ih fun k hk => hak k (List.mem_cons_of_mem _ hk))
      obtain ⟨cs, h3, h4⟩ := List.perm_comp_forall₂ hl1.symm hf.flip
      exact ⟨cs, h4.symm, h3.flip⟩

/-- All formed tasks have rows. -/
theorem ikProblem_rows (h0 : Ready r0) (hs : SameIkRobot r0 r) (hp : IkShaped r0 Q p levels) {w : Wbc} {q : MotionParameters}
    (ha : ∀ l ∈ levels, ∀ k ∈ l, Applicable r (w.update root q) k) {junkA : ℕ → ℕ → ℕ → ℝ} {junkB : ℕ → ℕ → ℝ}
    (e : p.form junkA junkB r (w.update root q) = .ok p') :
    IkShaped r0 (fun k c => Applicable r (w.update root q) k → 0 < rows c) p' levels := by
  obtain ⟨kinds, hk, hl⟩ := hp.shape
  have e' := (ikProblem_formed h0 hs hp e).2
  unfold IkProblem.form at e
  obtain ⟨P, e1, e⟩ := bind_eq_ok.1 e
  rw [update_structure, structure_nvars] at e1
  cases e
  refine ⟨kinds, shaped_formed hk (fun t k t' ht e => ?_) e1, hl⟩
  have h := ikTask_formed h0 hs (w.update root q) ht e
  refine ⟨h.formFn, h.guessFn, h.ctype, h.guess, h.object, h.members, fun ha => ?_⟩
  obtain ⟨t'', e'', hr, -⟩ := ikTask_form h0 hs (w.update root q) ha ht junkA junkB
  cases e.symm.trans e''
  exact hr

theorem ikShaped_rows {w : Wbc} (hp : IkShaped r0 (fun k c => Applicable r w k → 0 < rows c) p levels)
    (ha : ∀ l ∈ levels, ∀ k ∈ l, Applicable r w k) : ∀ L ∈ p.hierarchy.levels, ∀ ti ∈ L.tasks, 0 < rows ti.task.ctr := by
  obtain ⟨kinds, hk, hl⟩ := hp.shape
  intro L hL ti hti
  obtain ⟨i, hi⟩ := List.getElem?_of_mem hL
  obtain ⟨ks, h1, h2⟩ := forall2_getElem hk.shape.flip hi
  obtain ⟨l, h3, h4⟩ := forall2_getElem hl.flip h1
  obtain ⟨j, hj⟩ := List.getElem?_of_mem hti
  obtain ⟨k, h5, h6⟩ := forall2_getElem h2.flip hj
  exact h6.kept (ha l (List.mem_of_getElem? h3) k.2 (h4.mem_iff.1 (List.mem_map_of_mem (List.mem_of_getElem? h5))))

end

end Ik

end Humoto
