import Verif.Props.Bridges

/-!
# Interfaces to QP solvers: C50, C66, C67
-/

namespace Humoto.Bridge

open Spec Finset

set_option linter.unusedSectionVars false

variable {E K : Type} [Field K] [LinearOrder K] [IsStrictOrderedRing K]

/-! ## C50 -/

theorem quadprog_init {P P' : Hierarchy E K} {nv : ℕ} {env : E} {g : Bool} (h : P.form nv env g = .ok P')
    (hr : ∀ L ∈ P.levels, Reachable L) {L0 L1 : Level E K} (hL : P'.levels = [L0, L1])
    (hi : ∀ L ∈ P'.levels, ∀ ti ∈ L.tasks, InRange ti.task.ctr) (hm : ∀ ti ∈ L1.tasks, CanMinimise ti.task.ctr)
    (z : ℕ → ℕ → K) (zc : Junk K) (old : QPObjective K × QPConstraintsABAL K) :
    ∃ q, quadprogInitialize z zc old P' nv = .ok q ∧ Minimises q.1 L1.tasks nv true ∧ q.2.eq.A.cols = nv ∧
      q.2.eq.b.n = q.2.eq.A.rows ∧ q.2.ineq.A.cols = nv ∧ q.2.ineq.lb.n = q.2.ineq.A.rows ∧
      ∀ x, (ABHolds q.2.eq x ∧ ALHolds q.2.ineq x) ↔ LevelSatisfied L0 x := by
  obtain ⟨M0, hr0, h0⟩ := hierarchy_level h hr (L' := L0) (by simp [hL])
  obtain ⟨M1, hr1, h1⟩ := hierarchy_level h hr (L' := L1) (by simp [hL])
  obtain ⟨q, q1, q2⟩ := C11_objective hr1 h1 (hi L1 (by simp [hL])) hm old.1 z true
  obtain ⟨ke, ki, k1, k2, k3, k4, k5, k6, k7, k8, k9⟩ := C09_split hr0 h0 (hi L0 (by simp [hL])) zc
  refine ⟨(q, ⟨ke, ki⟩), ?_, q2, k4, by rw [k5, k3], k7, by rw [k8, k6], k9⟩
  unfold quadprogInitialize Hierarchy.getQPProblem
  rw [hL, assertThat_true (by simp), ok_bind]
  simp only [q1, ok_bind, QPConstraintsABAL.initialize, k1, k2]; rfl

theorem quadprogFeasible_iff {o : QPObjective K} {c : QPConstraintsABAL K} (x : ℕ → K) :
    QuadProgFeasible (quadprogArgs o c) x ↔ ABHolds c.eq x ∧ ALHolds c.ineq x := by
  unfold QuadProgFeasible quadprogArgs ABHolds ALHolds Mat.transpose Vec.neg
  simp only
  constructor
  · rintro ⟨h1, h2⟩
    exact ⟨fun i hi => by have := h1 i hi; linarith, fun i hi => by have := h2 i hi; linarith⟩
  · rintro ⟨h1, h2⟩
    exact ⟨fun i hi => by have := h1 i hi; linarith, fun i hi => by have := h2 i hi; linarith⟩

/-- The matrices passed to QuadProg++ for a hierarchy of two levels describe the points which satisfy the first level;
the objective is half of the sum of squared residuals of the second level and of the regularization, up to a constant;
nothing else influences the result. -/
theorem C50_translation {P P' : Hierarchy E K} {nv : ℕ} {env : E} {g : Bool} (h : P.form nv env g = .ok P')
    (hr : ∀ L ∈ P.levels, Reachable L) {L0 L1 : Level E K} (hL : P'.levels = [L0, L1])
    (hi : ∀ L ∈ P'.levels, ∀ ti ∈ L.tasks, InRange ti.task.ctr) (hm : ∀ ti ∈ L1.tasks, CanMinimise ti.task.ctr)
    (z : ℕ → ℕ → K) (zc : Junk K) (old : QPObjective K × QPConstraintsABAL K) {reg : K} (hreg : 0 ≤ reg) :
    ∃ q a, quadprogInitialize z zc old P' nv = .ok q ∧
      (∀ ext sol, quadprogSolve ext reg q sol =
        .ok { sol with x := (ext a).2, status := if (ext a).1 = .ok then .ok else .other }) ∧
      QuadProgSizes a nv ∧ Symmetric a.G ∧
      (∀ x, QuadProgFeasible a x ↔ LevelSatisfied L0 x) ∧
      ∀ x, quadratic a.G x / 2 + linear a.g0 x =
        (leastSquares L1.tasks x + reg * ∑ i ∈ range nv, x i ^ 2) / 2 - leastSquares L1.tasks (fun _ => 0) / 2 := by
  obtain ⟨q, k1, k2, k3, k4, k5, k6, k7⟩ := quadprog_init h hr hL hi hm z zc old
  obtain ⟨o, o1, o2, o3, o4, o5⟩ := regularizeIf_ok hreg k2.rows k2.cols
  refine ⟨q, quadprogArgs o q.2, k1, fun ext sol => ?_, ⟨o2, o3, ?_, k3, k4, k5, k6⟩, ?_, fun x => ?_, fun x => ?_⟩
  · unfold quadprogSolve
    rw [o1]; rfl
  · show o.g.n = nv
    rw [o4, k2.n]
  · intro i j hi hj
    have hi : i < nv := o2 ▸ hi
    have hj : j < nv := o2 ▸ hj
    show o.H.e i j = o.H.e j i
    rw [o5 i j hi, o5 j i hj, k2.symmetric rfl i j hi hj]
    by_cases hij : i = j
    · rw [if_pos hij, if_pos hij.symm]
    · rw [if_neg hij, if_neg (Ne.symm hij)]
  · rw [quadprogFeasible_iff, k7]
  · show quadratic o.H x / 2 + linear o.g x = _
    rw [quadratic_reg k2.rows k2.cols o2 o3 o5, o4]
    linear_combination k2.full rfl x

/-- A negative regularization factor is rejected. -/
theorem C50_reject {reg : K} (hreg : reg < 0) (ext : QuadProgArgs K → QuadProgStatus × List K)
    (q : QPObjective K × QPConstraintsABAL K) (sol : Solution K) :
    quadprogSolve ext reg q sol = .error .thrown := by
  unfold quadprogSolve regularizeIf
  rw [assertThat_false (not_le.mpr hreg)]; rfl

/-! ## C66 -/

/-- A level with constraints has tasks, so that the content of the objective before the call does not matter. -/
theorem objective_old {L : Level E K} (hL : L.tasks ≠ []) (z : ℕ → ℕ → K) (o o' : QPObjective K) (upper : Bool) :
    QPObjective.initialize o z L upper = QPObjective.initialize o' z L upper := by
  have : L.getObjective z o.H o.g = L.getObjective z o'.H o'.g := by
    unfold Level.getObjective
    cases hl : L.tasks with
    | nil => exact absurd hl hL
    | cons t ts => rfl
  unfold QPObjective.initialize
  rw [this]

theorem formed_tasks {L L' : Level E K} (hr : Reachable L) {nv : ℕ} {env : E} {g : Bool} (h : L.form nv env g = .ok L')
    (hi : ∀ ti ∈ L'.tasks, InRange ti.task.ctr) : L'.tasks ≠ [] := by
  have hf := formedLevel_of_form hr h hi
  intro h0
  have h1 := hf.pos
  have h2 := hf.nConstraints
  rw [h0] at h2
  simp [totalRows] at h2
  omega

/-- A hierarchy of two levels: the problem which is given to the solver does not depend on the problems which were solved
before with the same object. -/
theorem C66_reuse_partial {C : Type} {P P' : Hierarchy E K} {nv : ℕ} {env : E} {g : Bool} (h : P.form nv env g = .ok P')
    (hr : ∀ L ∈ P.levels, Reachable L) {L0 L1 : Level E K} (hL : P'.levels = [L0, L1])
    (hi : ∀ ti ∈ L1.tasks, InRange ti.task.ctr) (z : ℕ → ℕ → K) (init : Level E K → Res C) (o o' : QPObjective K)
    (c c' : C) (upper : Bool) :
    P'.getQPProblem z init o c upper = P'.getQPProblem z init o' c' upper := by
  obtain ⟨M1, hr1, h1⟩ := hierarchy_level h hr (L' := L1) (by simp [hL])
  unfold Hierarchy.getQPProblem
  rw [hL]
  simp only [objective_old (formed_tasks hr1 h1 hi) z o o' upper]

/-- One level: the objective does not depend on the past, but the constraints of the previous problem are kept. -/
theorem C66_oneLevel {C : Type} {P P' : Hierarchy E K} {nv : ℕ} {env : E} {g : Bool} (h : P.form nv env g = .ok P')
    (hr : ∀ L ∈ P.levels, Reachable L) {L : Level E K} (hL : P'.levels = [L])
    (hi : ∀ ti ∈ L.tasks, InRange ti.task.ctr) (hm : ∀ ti ∈ L.tasks, CanMinimise ti.task.ctr) (z : ℕ → ℕ → K)
    (upper : Bool) : ∃ q, Minimises q L.tasks nv upper ∧
      ∀ (init : Level E K → Res C) (o : QPObjective K) (c : C), P'.getQPProblem z init o c upper = .ok (q, c) := by
  obtain ⟨M, hr1, h1⟩ := hierarchy_level h hr (L' := L) (by simp [hL])
  obtain ⟨q, q1, q2⟩ := C11_objective hr1 h1 hi hm ⟨⟨0, 0, fun _ _ => 0⟩, ⟨0, fun _ => 0⟩, .undefined⟩ z upper
  refine ⟨q, q2, fun init o c => ?_⟩
  unfold Hierarchy.getQPProblem
  rw [hL, assertThat_true (by simp), ok_bind]
  simp only
  rw [objective_old (formed_tasks hr1 h1 hi) z o _ upper, q1, ok_bind]
  rfl

/-! ## C67 -/

/-- Minimisers of shifted and scaled objectives. -/
theorem optimal_of {L0 : Level E K} {ts : List (TaskInfo E K)} {nv : ℕ} {reg c : K} {S F : (ℕ → K) → Prop} {f : (ℕ → K) → K}
    {x : ℕ → K} (hf : ∀ x, f x = (leastSquares ts x + reg * ∑ i ∈ range nv, x i ^ 2) / 2 - c)
    (h1 : F x → LevelSatisfied L0 x) (h2 : ∀ y, LevelSatisfied L0 y → S y → F y) (hx : F x) (hmin : ∀ y, F y → f x ≤ f y) :
    Optimal L0 ts nv reg S x := by
  refine ⟨h1 hx, fun y hy hs => ?_⟩
  have := hmin y (h2 y hy hs)
  rw [hf, hf] at this
  linarith

/-- With QuadProg++, a solution with the status `OK` satisfies all tasks of the first level, and there is no better point
for the regularised second level among the points which satisfy the first one. -/
theorem C67_quadprog {P P' : Hierarchy E K} {nv : ℕ} {env : E} {g : Bool} (h : P.form nv env g = .ok P')
    (hr : ∀ L ∈ P.levels, Reachable L) {L0 L1 : Level E K} (hL : P'.levels = [L0, L1])
    (hi : ∀ L ∈ P'.levels, ∀ ti ∈ L.tasks, InRange ti.task.ctr) (hm : ∀ ti ∈ L1.tasks, CanMinimise ti.task.ctr)
    (z : ℕ → ℕ → K) (zc : Junk K) (old : QPObjective K × QPConstraintsABAL K) {reg : K} (hreg : 0 ≤ reg)
    (hpos : 0 < reg ∨ Determined L1.tasks nv) {ext : QuadProgArgs K → QuadProgStatus × List K}
    (hext : TrustedQuadProg ext) (sol : Solution K) :
    ∃ q sol', quadprogInitialize z zc old P' nv = .ok q ∧ quadprogSolve ext reg q sol = .ok sol' ∧
      sol'.structure_ = sol.structure_ ∧ (sol'.status = .ok ∨ sol'.status = .other) ∧
      (sol'.status = .ok → sol'.x.length = nv ∧ Optimal L0 L1.tasks nv reg (fun _ => True) (entries sol'.x)) := by
  obtain ⟨q, k1, k2, k3, k4, k5, k6, k7⟩ := quadprog_init h hr hL hi hm z zc old
  obtain ⟨q', a, k1', k8, k9, k10, k11, k12⟩ := C50_translation h hr hL hi hm z zc old hreg
  rw [k1] at k1'
  cases k1'
  refine ⟨q, _, k1, k8 ext sol, rfl, ?_, fun hs => ?_⟩
  · by_cases e : (ext a).1 = .ok
    · exact Or.inl (by simp [e])
    · exact Or.inr (by simp [e])
  · have e : (ext a).1 = .ok := by
      by_contra e
      simp [e] at hs
    have hquad : ∀ x, quadratic a.G x = (L1.tasks.map fun ti => ∑ i ∈ range (rows ti.task.ctr),
        lhs ti.task.ctr x i ^ 2).sum + reg * ∑ i ∈ range nv, x i ^ 2 := by
      intro x
      have e1 := k12 x
      have e2 := k12 (fun i => - x i)
      have e3 := k2.full rfl x
      have e4 := k2.full rfl (fun i => - x i)
      have q1 : quadratic a.G (fun i => - x i) = quadratic a.G x := by
        have := quadratic_scale a.G (-1) x
        simpa using this
      have q2 : quadratic q.1.H (fun i => - x i) = quadratic q.1.H x := by
        have := quadratic_scale q.1.H (-1) x
        simpa using this
      have q3 : linear a.g0 (fun i => - x i) = - linear a.g0 x := by
        have := linear_scale a.g0 (-1) x
        simpa using this
      have q4 : linear q.1.g (fun i => - x i) = - linear q.1.g x := by
        have := linear_scale q.1.g (-1) x
        simpa using this
      have q5 : ∑ i ∈ range nv, (- x i) ^ 2 = ∑ i ∈ range nv, x i ^ 2 := by simp
      rw [← quadratic_of_minimises k2 x]
      rw [q1, q3, q5] at e2
      rw [q2, q4] at e4
      linarith
    have hpd : PositiveDefinite a.G := by
      refine ⟨by rw [k9.grows, k9.gcols], k10, fun x hx => ?_⟩
      rw [hquad]
      exact squares_pos hreg hpos x (by rw [← k9.gcols]; exact hx)
    obtain ⟨m1, m2, m3⟩ := hext a nv k9 hpd e
    exact ⟨m1, optimal_of (F := QuadProgFeasible a) (f := fun x => quadratic a.G x / 2 + linear a.g0 x) k12
      (fun hx => (k11 _).mp hx) (fun y hy _ => (k11 y).mpr hy) m2 m3⟩

/-- What is known about the problem given to qpmad and qpOASES. -/
theorem ilualu_init {P P' : Hierarchy E K} {nv : ℕ} {env : E} {g : Bool} (h : P.form nv env g = .ok P')
    (hr : ∀ L ∈ P.levels, Reachable L) {L0 L1 : Level E K} (hL : P'.levels = [L0, L1])
    (hi : ∀ L ∈ P'.levels, ∀ ti ∈ L.tasks, InRange ti.task.ctr) (hm : ∀ ti ∈ L1.tasks, CanMinimise ti.task.ctr)
    (hI : ∀ ti ∈ L0.tasks, ti.task.ctr.ctype.isSimple = true → ti.task.ctr.ctype.hasILUCopy = true)
    (z : ℕ → ℕ → K) (zc : Junk K) (old : QPObjective K) (oldc : QPConstraintsILUALU K) (upper : Bool) :
    (∃ q, P'.getQPProblem z (fun L => QPConstraintsILUALU.initialize zc L nv) old oldc upper = .ok q ∧
      Minimises q.1 L1.tasks nv upper ∧ q.2.general.A.cols = nv ∧ q.2.general.lb.n = q.2.general.A.rows ∧
      q.2.general.ub.n = q.2.general.A.rows ∧ (q.2.lb.n = 0 ∨ q.2.lb.n = nv) ∧ q.2.ub.n = q.2.lb.n ∧
      (q.2.bounds.idx.n > 0 → q.2.lb.n = nv) ∧ (q.2.bounds.idx.n = 0 → q.2.lb.n = 0) ∧
      (∀ x, ALUHolds q.2.general x → (∀ v, v < q.2.lb.n → q.2.lb.e v ≤ x v ∧ x v ≤ q.2.ub.e v) → LevelSatisfied L0 x) ∧
      (∀ x, LevelSatisfied L0 x → Moderate L0 nv x →
        ALUHolds q.2.general x ∧ ∀ v, v < q.2.lb.n → q.2.lb.e v ≤ x v ∧ x v ≤ q.2.ub.e v)) ∨
    (P'.getQPProblem z (fun L => QPConstraintsILUALU.initialize zc L nv) old oldc upper = .error .thrown ∧
      ∀ x, (∀ v, v < nv → -10 ^ 20 ≤ x v ∧ x v ≤ 10 ^ 20) → ¬ LevelSatisfied L0 x) := by
  rcases C12_twoLevels_ILUALU h hr hL hi hm hI z zc old oldc upper with ⟨q, c, k1, k2, k3, k4, k5, k6, k7⟩ | hbad
  · obtain ⟨M0, hr0, h0⟩ := hierarchy_level h hr (L' := L0) (by simp [hL])
    have hi0 := hi L0 (by simp [hL])
    have hc := init_constraints hL k1
    have hb := boundsOf hr0 h0 hi0 hI hc
    unfold QPConstraintsILUALU.initialize at hc
    obtain ⟨ka, a1, hc⟩ := bind_eq_ok.mp hc
    obtain ⟨kb, b1, hc⟩ := bind_eq_ok.mp hc
    obtain ⟨p, p1, hc⟩ := bind_eq_ok.mp hc
    cases hc
    obtain ⟨g1, g2, g3, g4, _⟩ := generalRows hr0 h0 hi0 a1
    refine Or.inl ⟨_, k1, k2, k3, ?_, ?_, k4, k5, fun hn => ?_, fun hn => ?_, k6, fun x hx hmod => k7 x hx hmod.1 hmod.2⟩
    · show ka.lb.n = ka.A.rows
      rw [g3, g1]
    · show ka.ub.n = ka.A.rows
      rw [g4, g1]
    · exact (hb.size (by rw [← hb.nS]; exact hn)).1
    · have hn : kb.idx.n = 0 := hn
      unfold ContainerILU.solutionBounds at p1
      rw [if_pos hn] at p1
      cases p1
      rfl
  · exact Or.inr hbad

/-- With qpmad: as with QuadProg++, but points whose variables or one-sided rows exceed the library infinity are not
considered; an exception comes when the bounds of the first level contradict each other. -/
theorem C67_qpmad {P P' : Hierarchy E K} {nv : ℕ} {env : E} {g : Bool} (h : P.form nv env g = .ok P')
    (hr : ∀ L ∈ P.levels, Reachable L) {L0 L1 : Level E K} (hL : P'.levels = [L0, L1])
    (hi : ∀ L ∈ P'.levels, ∀ ti ∈ L.tasks, InRange ti.task.ctr) (hm : ∀ ti ∈ L1.tasks, CanMinimise ti.task.ctr)
    (hI : ∀ ti ∈ L0.tasks, ti.task.ctr.ctype.isSimple = true → ti.task.ctr.ctype.hasILUCopy = true)
    (z : ℕ → ℕ → K) (zc : Junk K) (old : QPObjective K × QPConstraintsILUALU K) {reg : K} (hreg : 0 ≤ reg)
    (hpos : 0 < reg ∨ Determined L1.tasks nv) {ext : QpmadArgs K → QpmadStatus × List K}
    (hext : TrustedQpmad ext) (sol : Solution K) :
    (∃ q sol', qpmadInitialize z zc old P' nv = .ok q ∧ qpmadSolve ext reg q sol = .ok sol' ∧
      sol'.structure_ = sol.structure_ ∧
      (sol'.status = .ok → sol'.x.length = nv ∧ Optimal L0 L1.tasks nv reg (Moderate L0 nv) (entries sol'.x))) ∨
    (qpmadInitialize z zc old P' nv = .error .thrown ∧
      ∀ x, (∀ v, v < nv → -10 ^ 20 ≤ x v ∧ x v ≤ 10 ^ 20) → ¬ LevelSatisfied L0 x) := by
  rcases ilualu_init h hr hL hi hm hI z zc old.1 old.2 false with
    ⟨q, k1, k2, k3, k4, k5, k6, k7, k8, k9, k10, k11⟩ | hbad
  · left
    obtain ⟨o, o1, o2, o3, o4, o5⟩ := regularizeIf_ok hreg k2.rows k2.cols
    have hsolve : qpmadSolve ext reg q sol = .ok { sol with
        x := (ext (qpmadArgs o q.2)).2, status := qpmadStatus (ext (qpmadArgs o q.2)).1 } := by
      unfold qpmadSolve
      rw [o1]; rfl
    refine ⟨q, _, k1, hsolve, rfl, fun hs => ?_⟩
    have e : (ext (qpmadArgs o q.2)).1 = .ok := by
      cases e : (ext (qpmadArgs o q.2)).1
      · rfl
      all_goals
        simp only [e, qpmadStatus] at hs
        cases hs
    have hn : o.g.n = nv := by rw [o4, k2.n]
    obtain ⟨m1, m2, m3⟩ := hext (qpmadArgs o q.2) nv ⟨o2, o3, hn, k6, k7, k3, k4, k5⟩
      (fun x hx => by
        show 0 < lowerQuadratic o.H x
        rw [lowerQuadratic_reg k2.rows k2.cols o2 o3 o5, lower_of_minimises k2]
        exact squares_pos hreg hpos x hx) e
    refine ⟨m1, optimal_of (F := QpmadFeasible (qpmadArgs o q.2))
      (f := fun x => lowerQuadratic o.H x / 2 + linear o.g x) (c := leastSquares L1.tasks (fun _ => 0) / 2)
      (fun x => ?_) (fun hx => ?_) (fun y hy hmod => ?_) m2 m3⟩
    · rw [lowerQuadratic_reg k2.rows k2.cols o2 o3 o5, o4]
      linear_combination k2.value x
    · obtain ⟨x1, x2, x3⟩ := hx
      exact k10 _ x3 (fun v hv => ⟨x1 v hv, x2 v (show v < q.2.ub.n by rw [k7]; exact hv)⟩)
    · obtain ⟨y1, y2⟩ := k11 y hy hmod
      exact ⟨fun v hv => (y2 v hv).1, fun v hv => (y2 v (by rw [← k7]; exact hv)).2, y1⟩
  · exact Or.inr hbad

theorem qpoases_quadratic {H : Mat K} {nv : ℕ} (hr : H.rows = nv) (hc : H.cols = nv)
    (hs : ∀ i j, i < nv → j < nv → H.e i j = H.e j i) :
    (∀ i j, i < nv → j < nv → colMajor H (i * nv + j) = H.e i j) ∧
    ∀ x, ∑ i ∈ range nv, ∑ j ∈ range nv, colMajor H (i * nv + j) * x i * x j = quadratic H x := by
  have key : ∀ i j, i < nv → j < nv → colMajor H (i * nv + j) = H.e i j := fun i j hi hj => by
    unfold colMajor
    rw [hr, hs i j hi hj, Nat.mul_comm i nv, Nat.mul_add_mod, Nat.mod_eq_of_lt hj, Nat.mul_add_div (by omega),
      Nat.div_eq_of_lt hj, Nat.add_zero]
  refine ⟨key, fun x => ?_⟩
  unfold quadratic
  rw [hr, hc]
  exact Finset.sum_congr rfl fun i hi => Finset.sum_congr rfl fun j hj => by
    rw [key i j (by simpa using hi) (by simpa using hj)]

theorem rowMajor_sum {A : Mat K} {nv : ℕ} (hc : A.cols = nv) (k : ℕ) (x : ℕ → K) :
    ∑ j ∈ range nv, rowMajor A (k * nv + j) * x j = ∑ j ∈ range A.cols, A.e k j * x j := by
  rw [hc]
  refine Finset.sum_congr rfl fun j hj => ?_
  have hj : j < nv := by simpa using hj
  unfold rowMajor
  rw [hc, Nat.mul_comm k nv, Nat.mul_add_mod, Nat.mod_eq_of_lt hj, Nat.mul_add_div (by omega), Nat.div_eq_of_lt hj,
    Nat.add_zero]

theorem entries_map (n : ℕ) (f : ℕ → K) (v : ℕ) (hv : v < n) : entries ((List.range n).map f) v = f v := by
  unfold entries
  rw [List.getD_eq_getElem?_getD, List.getElem?_map, List.getElem?_range hv]
  rfl

theorem qp_congr (n : ℕ) (f : ℕ → ℕ → K) (g : ℕ → K) {x y : ℕ → K} (h : ∀ v, v < n → x v = y v) :
    (∑ i ∈ range n, ∑ j ∈ range n, f i j * x i * x j) / 2 + ∑ i ∈ range n, g i * x i =
      (∑ i ∈ range n, ∑ j ∈ range n, f i j * y i * y j) / 2 + ∑ i ∈ range n, g i * y i := by
  have h1 : ∑ i ∈ range n, ∑ j ∈ range n, f i j * x i * x j = ∑ i ∈ range n, ∑ j ∈ range n, f i j * y i * y j :=
    Finset.sum_congr rfl fun i hi => Finset.sum_congr rfl fun j hj => by
      rw [h i (by simpa using hi), h j (by simpa using hj)]
  have h2 : ∑ i ∈ range n, g i * x i = ∑ i ∈ range n, g i * y i :=
    Finset.sum_congr rfl fun i hi => by rw [h i (by simpa using hi)]
  rw [h1, h2]

/-- What `ilualu_init` says about the problem which is given to qpOASES. -/
theorem qpoases_args {L1 : Level E K} {nv : ℕ} {q : QPObjective K × QPConstraintsILUALU K} (k2 : Minimises q.1 L1.tasks nv true)
    (k3 : q.2.general.A.cols = nv) (k8 : q.2.bounds.idx.n > 0 → q.2.lb.n = nv) (k9 : q.2.bounds.idx.n = 0 → q.2.lb.n = 0) :
    QpoasesAccepts (qpoasesArgs nv q) ∧
    (∀ x, qpoasesObjective (qpoasesArgs nv q) x = quadratic q.1.H x / 2 + linear q.1.g x) ∧
    ∀ x, QpoasesFeasible (qpoasesArgs nv q) x ↔
      ALUHolds q.2.general x ∧ ∀ v, v < q.2.lb.n → q.2.lb.e v ≤ x v ∧ x v ≤ q.2.ub.e v := by
  obtain ⟨hH, hQ⟩ := qpoases_quadratic k2.rows k2.cols (k2.symmetric rfl)
  have hobj : ∀ x, qpoasesObjective (qpoasesArgs nv q) x = quadratic q.1.H x / 2 + linear q.1.g x := fun x => by
    show (∑ i ∈ range nv, ∑ j ∈ range nv, colMajor q.1.H (i * nv + j) * x i * x j) / 2 + _ = _
    rw [hQ, linear, k2.n]; rfl
  have hfeas : ∀ x, QpoasesFeasible (qpoasesArgs nv q) x ↔
      ALUHolds q.2.general x ∧ ∀ v, v < q.2.lb.n → q.2.lb.e v ≤ x v ∧ x v ≤ q.2.ub.e v := fun x => by
    have hbounds : ((∀ lb, (qpoasesArgs nv q).lb = some lb → ∀ v, v < nv → lb v ≤ x v) ∧
        (∀ ub, (qpoasesArgs nv q).ub = some ub → ∀ v, v < nv → x v ≤ ub v)) ↔
        ∀ v, v < q.2.lb.n → q.2.lb.e v ≤ x v ∧ x v ≤ q.2.ub.e v := by
      simp only [qpoasesArgs]
      by_cases h0 : q.2.bounds.idx.n > 0
      · rw [if_pos h0, if_pos h0, k8 h0]
        simp only [Option.some.injEq, forall_eq']
        exact ⟨fun ⟨h1, h2⟩ v hv => ⟨h1 v hv, h2 v hv⟩, fun h => ⟨fun v hv => (h v hv).1, fun v hv => (h v hv).2⟩⟩
      · rw [if_neg h0, if_neg h0, k9 (by omega)]
        simp
    have hgen : (∀ A, (qpoasesArgs nv q).A = some A →
        (∀ lbA, (qpoasesArgs nv q).lbA = some lbA → ∀ k, k < (qpoasesArgs nv q).nC →
          lbA k ≤ ∑ j ∈ Finset.range nv, A (k * nv + j) * x j) ∧
        ∀ ubA, (qpoasesArgs nv q).ubA = some ubA → ∀ k, k < (qpoasesArgs nv q).nC →
          ∑ j ∈ Finset.range nv, A (k * nv + j) * x j ≤ ubA k) ↔ ALUHolds q.2.general x := by
      simp only [qpoasesArgs]
      by_cases h0 : q.2.general.A.rows > 0
      · rw [if_pos h0, if_pos h0, if_pos h0]
        simp only [Option.some.injEq, forall_eq', rowMajor_sum k3]
        exact ⟨fun ⟨h1, h2⟩ v hv => ⟨h1 v hv, h2 v hv⟩, fun h => ⟨fun v hv => (h v hv).1, fun v hv => (h v hv).2⟩⟩
      · rw [if_neg h0, if_neg h0, if_neg h0]
        unfold ALUHolds
        simp only [reduceCtorEq, false_implies, implies_true, true_iff]
        exact fun i hi => absurd hi (by omega)
    show (_ ∧ _ ∧ _) ↔ _
    rw [← hgen, ← hbounds]
    exact ⟨fun ⟨a, b, c⟩ => ⟨c, a, b⟩, fun ⟨c, a, b⟩ => ⟨a, b, c⟩⟩
  refine ⟨⟨fun i j hi hj => ?_, fun x => ?_, fun h0 => ?_⟩, hobj, hfeas⟩
  · show colMajor q.1.H (i * nv + j) = colMajor q.1.H (j * nv + i)
    rw [hH i j hi hj, hH j i hj hi, k2.symmetric rfl i j hi hj]
  · show 0 ≤ ∑ i ∈ range nv, ∑ j ∈ range nv, colMajor q.1.H (i * nv + j) * x i * x j
    rw [hQ]; exact (minimises_psd k2).2.2 x
  · have h0 : q.2.general.A.rows > 0 := h0
    simp [qpoasesArgs, h0]

/-- With qpOASES: no regularization. The vector of the solution must have room for all variables. -/
theorem C67_qpoases {P P' : Hierarchy E K} {nv : ℕ} {env : E} {g : Bool} (h : P.form nv env g = .ok P')
    (hr : ∀ L ∈ P.levels, Reachable L) {L0 L1 : Level E K} (hL : P'.levels = [L0, L1])
    (hi : ∀ L ∈ P'.levels, ∀ ti ∈ L.tasks, InRange ti.task.ctr) (hm : ∀ ti ∈ L1.tasks, CanMinimise ti.task.ctr)
    (hI : ∀ ti ∈ L0.tasks, ti.task.ctr.ctype.isSimple = true → ti.task.ctr.ctype.hasILUCopy = true)
    (z : ℕ → ℕ → K) (zc : Junk K) (old : QPObjective K × QPConstraintsILUALU K)
    {ext : QpoasesArgs K → QpoasesStatus × (ℕ → K)} (hext : TrustedQpoases ext) (sol : Solution K)
    (hn : sol.structure_.nvars = nv) (hx : sol.x.length = nv) :
    (∃ q sol', qpoasesInitialize z zc old P' nv = .ok q ∧ qpoasesSolve ext q sol = .ok sol' ∧
      sol'.structure_ = sol.structure_ ∧ sol'.x.length = nv ∧
      (sol'.status = .ok → Optimal L0 L1.tasks nv 0 (Moderate L0 nv) (entries sol'.x))) ∨
    (qpoasesInitialize z zc old P' nv = .error .thrown ∧
      ∀ x, (∀ v, v < nv → -10 ^ 20 ≤ x v ∧ x v ≤ 10 ^ 20) → ¬ LevelSatisfied L0 x) := by
  rcases ilualu_init h hr hL hi hm hI z zc old.1 old.2 true with
    ⟨q, k1, k2, k3, k4, k5, k6, k7, k8, k9, k10, k11⟩ | hbad
  · left
    have hsolve : qpoasesSolve ext q sol = .ok { sol with
        x := (List.range nv).map (ext (qpoasesArgs nv q)).2
        status := qpoasesStatus (ext (qpoasesArgs nv q)).1 } := by
      unfold qpoasesSolve
      simp only [hn]
      rw [require_true (by omega), ok_bind, List.drop_eq_nil_of_le (by omega), List.append_nil]
      rfl
    refine ⟨q, _, k1, hsolve, rfl, by simp, fun hs => ?_⟩
    have e : (ext (qpoasesArgs nv q)).1 = .successfulReturn := by
      cases e : (ext (qpoasesArgs nv q)).1
      · rfl
      all_goals
        simp only [e, qpoasesStatus] at hs
        cases hs
    obtain ⟨hacc, hobj, hfeas⟩ := qpoases_args k2 k3 k8 k9
    obtain ⟨m2, m3⟩ := hext (qpoasesArgs nv q) hacc.symmetric hacc.semidefinite hacc.pointers e
    -- values out of range do not matter
    have hex : ∀ v, v < nv → entries ((List.range nv).map (ext (qpoasesArgs nv q)).2) v = (ext (qpoasesArgs nv q)).2 v :=
      fun v hv => entries_map nv _ v hv
    have hcongrF : ALUHolds q.2.general (entries ((List.range nv).map (ext (qpoasesArgs nv q)).2)) ∧
        ∀ v, v < q.2.lb.n → q.2.lb.e v ≤ entries ((List.range nv).map (ext (qpoasesArgs nv q)).2) v ∧
          entries ((List.range nv).map (ext (qpoasesArgs nv q)).2) v ≤ q.2.ub.e v := by
      obtain ⟨f1, f2⟩ := (hfeas _).mp m2
      refine ⟨fun i hi => ?_, fun v hv => ?_⟩
      · have e : ∑ j ∈ range q.2.general.A.cols, q.2.general.A.e i j *
            entries ((List.range nv).map (ext (qpoasesArgs nv q)).2) j =
            ∑ j ∈ range q.2.general.A.cols, q.2.general.A.e i j * (ext (qpoasesArgs nv q)).2 j := by
          rw [k3]
          exact Finset.sum_congr rfl fun j hj => by rw [hex j (by simpa using hj)]
        rw [e]
        exact f1 i hi
      · rw [hex v (by rcases k6 with h | h <;> omega)]
        exact f2 v hv
    have hcongrO : quadratic q.1.H (entries ((List.range nv).map (ext (qpoasesArgs nv q)).2)) / 2 +
        linear q.1.g (entries ((List.range nv).map (ext (qpoasesArgs nv q)).2)) =
        quadratic q.1.H (ext (qpoasesArgs nv q)).2 / 2 + linear q.1.g (ext (qpoasesArgs nv q)).2 := by
      unfold quadratic linear
      rw [k2.rows, k2.cols, k2.n]
      exact qp_congr nv q.1.H.e q.1.g.e hex
    refine optimal_of (F := fun x => ALUHolds q.2.general x ∧ ∀ v, v < q.2.lb.n → q.2.lb.e v ≤ x v ∧ x v ≤ q.2.ub.e v)
      (f := fun x => quadratic q.1.H x / 2 + linear q.1.g x) (c := leastSquares L1.tasks (fun _ => 0) / 2)
      (fun x => ?_) (fun hx => k10 _ hx.1 hx.2) (fun y hy hmod => k11 y hy hmod) hcongrF (fun y hy => ?_)
    · rw [k2.full rfl x]; ring
    · show _ ≤ _
      rw [hcongrO]
      have := m3 y ((hfeas y).mpr hy)
      rwa [hobj, hobj] at this
  · exact Or.inr hbad

/-- One level and a new solver object: the returned point is the best one. -/
theorem C67_qpoases_oneLevel {P P' : Hierarchy E K} {nv : ℕ} {env : E} {g : Bool} (h : P.form nv env g = .ok P')
    (hr : ∀ L ∈ P.levels, Reachable L) {L : Level E K} (hL : P'.levels = [L])
    (hi : ∀ ti ∈ L.tasks, InRange ti.task.ctr) (hm : ∀ ti ∈ L.tasks, CanMinimise ti.task.ctr)
    (z : ℕ → ℕ → K) (zc : Junk K) (old : QPObjective K × QPConstraintsILUALU K)
    (hnew : old.2.general.A.rows = 0 ∧ old.2.bounds.idx.n = 0)
    {ext : QpoasesArgs K → QpoasesStatus × (ℕ → K)} (hext : TrustedQpoases ext) (sol : Solution K)
    (hn : sol.structure_.nvars = nv) (hx : sol.x.length = nv) :
    ∃ q sol', qpoasesInitialize z zc old P' nv = .ok q ∧ qpoasesSolve ext q sol = .ok sol' ∧
      sol'.structure_ = sol.structure_ ∧ sol'.x.length = nv ∧
      (sol'.status = .ok → ∀ y, leastSquares L.tasks (entries sol'.x) ≤ leastSquares L.tasks y) := by
  obtain ⟨o, k2, k1⟩ := C66_oneLevel (C := QPConstraintsILUALU K) h hr hL hi hm z true
  obtain ⟨c0, c1⟩ := hnew
  have k1 : qpoasesInitialize z zc old P' nv = .ok (o, old.2) := k1 _ _ _
  set a := qpoasesArgs nv (o, old.2) with ha
  have hsolve : qpoasesSolve ext (o, old.2) sol = .ok { sol with
      x := (List.range nv).map (ext a).2, status := qpoasesStatus (ext a).1 } := by
    unfold qpoasesSolve
    simp only [hn]
    rw [require_true (by omega), ok_bind, List.drop_eq_nil_of_le (by omega), List.append_nil]
    rfl
  refine ⟨_, _, k1, hsolve, rfl, by simp, fun hs y => ?_⟩
  have e : (ext a).1 = .successfulReturn := by
    cases e : (ext a).1
    · rfl
    all_goals
      simp only [e, qpoasesStatus] at hs
      cases hs
  obtain ⟨hH, hQ⟩ := qpoases_quadratic k2.rows k2.cols (k2.symmetric rfl)
  have hobj : ∀ x, qpoasesObjective a x = quadratic o.H x / 2 + linear o.g x := fun x => by
    show (∑ i ∈ range nv, ∑ j ∈ range nv, colMajor o.H (i * nv + j) * x i * x j) / 2 + _ = _
    rw [hQ, linear, k2.n]; rfl
  obtain ⟨_, m3⟩ := hext a
    (fun i j hi hj => by
      show colMajor o.H (i * nv + j) = colMajor o.H (j * nv + i)
      rw [hH i j hi hj, hH j i hj hi, k2.symmetric rfl i j hi hj])
    (fun x => by
      show 0 ≤ ∑ i ∈ range nv, ∑ j ∈ range nv, colMajor o.H (i * nv + j) * x i * x j
      rw [hQ]; exact (minimises_psd k2).2.2 x)
    (fun h0 => absurd h0 (show ¬ old.2.general.A.rows > 0 by omega)) e
  have hfeas : ∀ x, QpoasesFeasible a x := fun x => by
    refine ⟨fun lb hlb => ?_, fun ub hub => ?_, fun A hA => ?_⟩
    · have : (if old.2.bounds.idx.n > 0 then some old.2.lb.e else none) = some lb := hlb
      rw [if_neg (by omega)] at this; cases this
    · have : (if old.2.bounds.idx.n > 0 then some old.2.ub.e else none) = some ub := hub
      rw [if_neg (by omega)] at this; cases this
    · have : (if old.2.general.A.rows > 0 then some (rowMajor old.2.general.A) else none) = some A := hA
      rw [if_neg (by omega)] at this; cases this
  have hcongr : qpoasesObjective a (entries ((List.range nv).map (ext a).2)) = qpoasesObjective a (ext a).2 := by
    have hex : ∀ v, v < nv → entries ((List.range nv).map (ext a).2) v = (ext a).2 v := fun v hv => entries_map nv _ v hv
    show (∑ i ∈ range nv, ∑ j ∈ range nv, colMajor o.H (i * nv + j) * _ * _) / 2 + ∑ i ∈ range nv, o.g.e i * _ =
      (∑ i ∈ range nv, ∑ j ∈ range nv, colMajor o.H (i * nv + j) * _ * _) / 2 + ∑ i ∈ range nv, o.g.e i * _
    exact qp_congr nv (fun i j => colMajor o.H (i * nv + j)) o.g.e hex
  have h1 := m3 y (hfeas y)
  rw [← hcongr, hobj, hobj, k2.full rfl, k2.full rfl] at h1
  show leastSquares L.tasks (entries ((List.range nv).map (ext a).2)) ≤ _
  linarith

/-! ### The hypotheses are met -/

section Trust

open Classical in
/-- There is a trusted solver which succeeds whenever there is a minimiser. -/
theorem exists_quadprog : ∃ ext : QuadProgArgs ℚ → QuadProgStatus × List ℚ, TrustedQuadProg ext ∧
    ∀ a l, QuadProgSizes a l.length → QuadProgFeasible a (entries l) →
      (∀ y, QuadProgFeasible a y → quadratic a.G (entries l) / 2 + linear a.g0 (entries l) ≤
        quadratic a.G y / 2 + linear a.g0 y) → (ext a).1 = .ok := by
  let Good := fun (a : QuadProgArgs ℚ) (l : List ℚ) => QuadProgSizes a l.length ∧ QuadProgFeasible a (entries l) ∧
    ∀ y, QuadProgFeasible a y → quadratic a.G (entries l) / 2 + linear a.g0 (entries l) ≤
        quadratic a.G y / 2 + linear a.g0 y
  refine ⟨fun a => if h : ∃ l, Good a l then (.ok, choose h) else (.failure, []), ?_, ?_⟩
  · intro a nv hsz _ hok
    simp only at hok ⊢
    by_cases h : ∃ l, Good a l
    · simp only [dif_pos h]
      obtain ⟨h1, h2, h3⟩ := choose_spec h
      exact ⟨h1.grows.symm.trans hsz.grows, h2, h3⟩
    · rw [dif_neg h] at hok
      cases hok
  · intro a l h1 h2 h3
    show (if h : ∃ l, Good a l then (QuadProgStatus.ok, choose h) else (.failure, [])).1 = .ok
    rw [dif_pos ⟨l, h1, h2, h3⟩]

open Classical in
theorem exists_qpmad : ∃ ext : QpmadArgs ℚ → QpmadStatus × List ℚ, TrustedQpmad ext ∧
    ∀ a l, QpmadSizes a l.length → QpmadFeasible a (entries l) →
      (∀ y, QpmadFeasible a y → lowerQuadratic a.H (entries l) / 2 + linear a.h (entries l) ≤
        lowerQuadratic a.H y / 2 + linear a.h y) → (ext a).1 = .ok := by
  let Good := fun (a : QpmadArgs ℚ) (l : List ℚ) => QpmadSizes a l.length ∧ QpmadFeasible a (entries l) ∧
    ∀ y, QpmadFeasible a y → lowerQuadratic a.H (entries l) / 2 + linear a.h (entries l) ≤
        lowerQuadratic a.H y / 2 + linear a.h y
  refine ⟨fun a => if h : ∃ l, Good a l then (.ok, choose h) else (.other, []), ?_, ?_⟩
  · intro a nv hsz _ hok
    simp only at hok ⊢
    by_cases h : ∃ l, Good a l
    · simp only [dif_pos h]
      obtain ⟨h1, h2, h3⟩ := choose_spec h
      exact ⟨h1.hrows.symm.trans hsz.hrows, h2, h3⟩
    · rw [dif_neg h] at hok
      cases hok
  · intro a l h1 h2 h3
    show (if h : ∃ l, Good a l then (QpmadStatus.ok, choose h) else (.other, [])).1 = .ok
    rw [dif_pos ⟨l, h1, h2, h3⟩]

open Classical in
theorem exists_qpoases : ∃ ext : QpoasesArgs ℚ → QpoasesStatus × (ℕ → ℚ), TrustedQpoases ext ∧
    ∀ a x, QpoasesFeasible a x → (∀ y, QpoasesFeasible a y → qpoasesObjective a x ≤ qpoasesObjective a y) →
      (ext a).1 = .successfulReturn := by
  let Good := fun (a : QpoasesArgs ℚ) (x : ℕ → ℚ) => QpoasesFeasible a x ∧
    ∀ y, QpoasesFeasible a y → qpoasesObjective a x ≤ qpoasesObjective a y
  refine ⟨fun a => if h : ∃ l, Good a l then (.successfulReturn, choose h) else (.other, fun _ => 0), ?_, ?_⟩
  · intro a _ _ _ hok
    simp only at hok ⊢
    by_cases h : ∃ l, Good a l
    · simp only [dif_pos h]
      exact choose_spec h
    · rw [dif_neg h] at hok
      cases hok
  · intro a l h1 h2
    show (if h : ∃ l, Good a l then (QpoasesStatus.successfulReturn, choose h) else (.other, fun _ => 0)).1 =
      .successfulReturn
    rw [dif_pos ⟨l, h1, h2⟩]

end Trust

/-- `(2*x0 - 1)^2 + (3*x1 + 1)^2`. -/
theorem leastSquares_example (x : ℕ → ℚ) :
    leastSquares exampleLevelGIB.tasks x = (2 * x 0 - 1) ^ 2 + (3 * x 1 + 1) ^ 2 := by
  simp [leastSquares, exampleLevelGIB, residualSq, exampleTask, exampleGIB, Spec.rows, lhs, target, Vec.ofList,
    Finset.sum_range_succ]

/-- `x0 + 2*x1 = 3`. -/
theorem satisfied_example (x : ℕ → ℚ) : LevelSatisfied exampleLevelAB x ↔ x 0 + 2 * x 1 = 3 := by
  have hl : ∀ i, i < 1 → lhs exampleAB x i = x 0 + 2 * x 1 := fun i hi => by
    have : i = 0 := by omega
    subst this
    simp [lhs, exampleAB, Mat.ofRows, Finset.sum_range_succ]
  constructor
  · intro h
    obtain ⟨h1, h2⟩ := h _ (List.mem_singleton.mpr rfl) 0 (by show 0 < 1; omega)
    have h1 : (3 : ℚ) ≤ lhs exampleAB x 0 := h1 3 rfl
    have h2 : lhs exampleAB x 0 ≤ (3 : ℚ) := h2 3 rfl
    rw [hl 0 (by omega)] at h1 h2
    linarith
  · intro h ti hti i hi
    simp only [exampleLevelAB, List.mem_singleton] at hti
    subst hti
    have hi : i < 1 := hi
    have h0 : i = 0 := by omega
    subst h0
    have key : lhs exampleAB x 0 = 3 := by rw [hl 0 hi, h]
    refine ⟨fun l hl => ?_, fun u hu => ?_⟩
    · have hl : some (3 : ℚ) = some l := hl
      cases hl
      exact ge_of_eq key
    · have hu : some (3 : ℚ) = some u := hu
      cases hu
      exact le_of_eq key

theorem determined_example : Determined exampleLevelGIB.tasks 2 := by
  intro d hd j hj
  have h := hd _ (List.mem_singleton.mpr rfl)
  have h0 : (2 : ℚ) * d 0 = 0 := h 0 (by show 0 < 2; omega)
  have h1 : (3 : ℚ) * d 1 = 0 := h 1 (by show 1 < 2; omega)
  have : j = 0 ∨ j = 1 := by omega
  rcases this with rfl | rfl <;> linarith

def exampleZ : ℕ → ℕ → ℚ := fun _ _ => 7
def exampleZC : Junk ℚ := ⟨fun _ _ => 7, fun _ => 7, fun _ => 7, fun _ => 7⟩
def exampleOldABAL : QPObjective ℚ × QPConstraintsABAL ℚ :=
  (⟨Mat.const 0 0 0, Vec.const 0 0, .undefined⟩, ⟨⟨0, Mat.const 0 0 0, Vec.const 0 0⟩, ⟨0, Mat.const 0 0 0, Vec.const 0 0⟩⟩)

/-- The best point of the line is `(41/25, 17/25)`; a trusted solver finds it. -/
example : ∃ ext, TrustedQuadProg ext ∧ ∀ sol : Solution ℚ, ∃ q sol',
    quadprogInitialize exampleZ exampleZC exampleOldABAL ⟨[exampleLevelAB, exampleLevelGIB], [1, 2]⟩ 2 = .ok q ∧
    quadprogSolve ext 0 q sol = .ok sol' ∧ sol'.status = .ok := by
  obtain ⟨ext, h1, h2⟩ := exists_quadprog
  refine ⟨ext, h1, fun sol => ?_⟩
  obtain ⟨q, a, k1, k2, k3, k4, k5, k6⟩ := C50_translation exampleTwoLevels_form exampleTwoLevels_reachable rfl
    exampleLevels_inRange exampleLevelGIB_minimise exampleZ exampleZC exampleOldABAL (le_refl 0)
  refine ⟨q, _, k1, k2 ext sol, ?_⟩
  have : (ext a).1 = .ok := by
    refine h2 a [41 / 25, 17 / 25] k3 ?_ ?_
    · rw [k5, satisfied_example]
      norm_num [entries]
    · intro y hy
      rw [k5, satisfied_example] at hy
      rw [k6, k6, leastSquares_example, leastSquares_example y]
      norm_num [entries]
      have : y 0 = 3 - 2 * y 1 := by linarith
      rw [this]
      nlinarith [sq_nonneg (25 * y 1 - 17)]
  simp [this]

/-- After a problem with two levels, a problem with one level is solved, with success, with the constraints of the first
problem: the returned point is not the best one. -/
theorem C66_oneLevel_refuted : ∃ ext, TrustedQuadProg ext ∧ ∀ sol : Solution ℚ, ∃ q1 q2 sol' y,
    quadprogInitialize exampleZ exampleZC exampleOldABAL ⟨[exampleLevelAB, exampleLevelGIB], [1, 2]⟩ 2 = .ok q1 ∧
    quadprogInitialize exampleZ exampleZC q1 ⟨[exampleLevelGIB], [2]⟩ 2 = .ok q2 ∧
    quadprogSolve ext 0 q2 sol = .ok sol' ∧ sol'.status = .ok ∧
    leastSquares exampleLevelGIB.tasks y < leastSquares exampleLevelGIB.tasks (entries sol'.x) := by
  obtain ⟨ext, h1, h2⟩ := exists_quadprog
  refine ⟨ext, h1, fun sol => ?_⟩
  obtain ⟨q1, k1, k2, k3, k4, k5, k6, k7⟩ := quadprog_init exampleTwoLevels_form exampleTwoLevels_reachable rfl
    exampleLevels_inRange exampleLevelGIB_minimise exampleZ exampleZC exampleOldABAL
  obtain ⟨o, m2, m1⟩ := C66_oneLevel (C := QPConstraintsABAL ℚ) exampleOneLevel_form
    (by intro L hL
        simp only [exampleOneLevel, List.mem_cons, List.not_mem_nil, or_false] at hL
        subst hL; exact .push _ .empty)
    rfl (exampleLevels_inRange exampleLevelGIB (by simp)) exampleLevelGIB_minimise exampleZ true
  have hq2 : quadprogInitialize exampleZ exampleZC q1 ⟨[exampleLevelGIB], [2]⟩ 2 = .ok (o, q1.2) := m1 _ _ _
  obtain ⟨o', o1, o2, o3, o4, o5⟩ := regularizeIf_ok (le_refl (0 : ℚ)) m2.rows m2.cols
  have hsolve : quadprogSolve ext 0 (o, q1.2) sol = .ok { sol with
      x := (ext (quadprogArgs o' q1.2)).2, status := if (ext (quadprogArgs o' q1.2)).1 = .ok then .ok else .other } := by
    unfold quadprogSolve
    rw [o1]; rfl
  have hsz : QuadProgSizes (quadprogArgs o' q1.2) 2 :=
    ⟨o2, o3, show o'.g.n = 2 by rw [o4, m2.n], k3, k4, k5, k6⟩
  have hobj : ∀ x, quadratic o'.H x / 2 + linear o'.g x =
      leastSquares exampleLevelGIB.tasks x / 2 - leastSquares exampleLevelGIB.tasks (fun _ => 0) / 2 := fun x => by
    rw [quadratic_reg m2.rows m2.cols o2 o3 o5, o4]
    linear_combination m2.full rfl x
  have hpd : PositiveDefinite (quadprogArgs o' q1.2).G := by
    refine ⟨o2.trans o3.symm, fun i j hi hj => ?_, fun x hx => ?_⟩
    · have hi : i < 2 := o2 ▸ hi
      have hj : j < 2 := o2 ▸ hj
      show o'.H.e i j = o'.H.e j i
      rw [o5 i j hi, o5 j i hj, m2.symmetric rfl i j hi hj]
      simp
    · show 0 < quadratic o'.H x
      rw [quadratic_reg m2.rows m2.cols o2 o3 o5, quadratic_of_minimises m2]
      obtain ⟨j, hj, hx⟩ := hx
      exact squares_pos (le_refl 0) (Or.inr determined_example) x ⟨j, o3 ▸ hj, hx⟩
  have hok : (ext (quadprogArgs o' q1.2)).1 = .ok := by
    refine h2 _ [41 / 25, 17 / 25] hsz ?_ ?_
    · rw [quadprogFeasible_iff, k7, satisfied_example]
      norm_num [entries]
    · intro y hy
      rw [quadprogFeasible_iff, k7, satisfied_example] at hy
      show quadratic o'.H _ / 2 + linear o'.g _ ≤ quadratic o'.H y / 2 + linear o'.g y
      rw [hobj, hobj, leastSquares_example, leastSquares_example y]
      norm_num [entries]
      have : y 0 = 3 - 2 * y 1 := by linarith
      rw [this]
      nlinarith [sq_nonneg (25 * y 1 - 17)]
  obtain ⟨_, n2, _⟩ := h1 _ 2 hsz hpd hok
  rw [quadprogFeasible_iff, k7, satisfied_example] at n2
  refine ⟨q1, _, _, fun i => if i = 0 then 1 / 2 else - 1 / 3, k1, hq2, hsolve, by simp [hok], ?_⟩
  rw [leastSquares_example, leastSquares_example]
  norm_num
  set x := entries (ext (quadprogArgs o' q1.2)).2
  by_contra hcon
  have e1 : (2 * x 0 - 1) ^ 2 = 0 := by nlinarith [sq_nonneg (2 * x 0 - 1), sq_nonneg (3 * x 1 + 1)]
  have e2 : (3 * x 1 + 1) ^ 2 = 0 := by nlinarith [sq_nonneg (2 * x 0 - 1), sq_nonneg (3 * x 1 + 1)]
  have := pow_eq_zero_iff two_ne_zero |>.mp e1
  have := pow_eq_zero_iff two_ne_zero |>.mp e2
  linarith

end Humoto.Bridge
