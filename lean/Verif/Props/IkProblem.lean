import Verif.Lemmas.IkProblem
import Verif.Props.QpoasesSolver
import Verif.Props.Kkt
import Verif.Props.PepperProblem

/-!
# Pepper IK: what the optimization problem means (C95)
-/

namespace Humoto

namespace Ik

open Spec Spec.Ik Spec.Rbdl Bridge

variable {root : Root}

/-- **C95.** A hierarchy with any tasks on its levels is set up without failure, whatever was there before. -/
theorem C95_setup (levels : List (List IkTask)) (p : IkProblem root) : ∃ p', p.setup levels = .ok p' := by
  obtain ⟨p', e, -⟩ := ikShaped_setup (unloaded root) levels p
  exact ⟨p', e⟩

/-- **C95.** The hierarchies of the tests. -/
theorem C95_hierarchies (junk : Fin 15 → ℝ) (p : IkProblem root) :
    setupHierarchy_v0 junk p = p.setup [[.baseCoM 1 1, .bodyCoM 1 1 7#32, .baseOrientation 1 1],
      [.jointsReference 1 1 (defaultReference root junk)]] ∧
    setupHierarchy_v1 junk p = p.setup [[.bodyCoM 1 1 7#32],
      [.baseCoM 1 1, .baseOrientation 1 1, .jointsReference 1 1 (defaultReference root junk)]] := ⟨rfl, rfl⟩

section
variable {r0 r : Robot root} {levels : List (List IkTask)} {p p' : IkProblem root}

/-- **C95.** After any history of forming, for any coordinates of the robot and any references, and of processing of active sets, the
problem can be formed; its levels consist of constraints which mean what the tasks mean for the current coordinates and
references. -/
theorem C95_form (h0 : Ready r0) (hp : IkProblemAfter r0 levels p) (hs : SameIkRobot r0 r) (w : Wbc) (q : MotionParameters)
    (ha : ∀ l ∈ levels, ∀ k ∈ l, Applicable r (w.update root q) k) (hne : levels ≠ []) (hln : ∀ l ∈ levels, l ≠ [])
    (junkA : ℕ → ℕ → ℕ → ℝ) (junkB : ℕ → ℕ → ℝ) :
    ∃ p', p.form junkA junkB r (w.update root q) = .ok p' ∧
      List.Forall₂ (LevelMeans r (w.update root q)) p'.hierarchy.levels levels := by
  have hk := ikProblem_after h0 hp
  obtain ⟨p', e⟩ := ikProblem_form h0 hs hk w q ha hne hln junkA junkB
  exact ⟨p', e, ikShaped_means (ikProblem_formed h0 hs hk e).1 ha⟩

theorem levelMeans_mem {E : Type} {w : Wbc} {L : Level E ℝ} {ks : List IkTask} (h : LevelMeans r w L ks) :
    (∀ ti ∈ L.tasks, ∃ k ∈ ks, IkMeans r w ti.task.ctr k) ∧ ∀ k ∈ ks, ∃ ti ∈ L.tasks, IkMeans r w ti.task.ctr k := by
  obtain ⟨cs, h1, h2⟩ := h
  refine ⟨fun ti hti => ?_, fun k hk => ?_⟩
  · obtain ⟨i, hi⟩ := List.getElem?_of_mem (h1.mem_iff.1 (List.mem_map_of_mem (f := fun ti => ti.task.ctr) hti))
    obtain ⟨k, h3, h4⟩ := forall2_getElem h2.flip hi
    exact ⟨k, List.mem_of_getElem? h3, h4⟩
  · obtain ⟨i, hi⟩ := List.getElem?_of_mem hk
    obtain ⟨c, h3, h4⟩ := forall2_getElem h2 hi
    obtain ⟨ti, hti, rfl⟩ := List.mem_map.1 (h1.mem_iff.2 (List.mem_of_getElem? h3))
    exact ⟨ti, hti, h4⟩

/-- **C95.** All constraints of a level are satisfied exactly by the displacements which do what its tasks ask for. -/
theorem C95_level {E : Type} {w : Wbc} {L : Level E ℝ} {ks : List IkTask} (h : LevelMeans r w L ks) (hw : ∀ k ∈ ks, Weighted k)
    (x : ℕ → ℝ) :
    (LevelSatisfied L x → ∀ k ∈ ks, Achieves r w x k) ∧
    ((∀ k ∈ ks, Exact k) → (∀ k ∈ ks, Achieves r w x k) → LevelSatisfied L x) := by
  obtain ⟨h1, h2⟩ := levelMeans_mem h
  refine ⟨fun hs k hk => ?_, fun he hs ti hti => ?_⟩
  · obtain ⟨ti, hti, hm⟩ := h2 k hk
    exact (means_achieves hm (hw k hk) x).1 (hs ti hti)
  · obtain ⟨k, hk, hm⟩ := h1 ti hti
    exact (means_achieves hm (hw k hk) x).2 (he k hk) (hs k hk)

/-- What the theorems on solvers need. -/
theorem ik_solvable (h0 : Ready r0) (hp : IkProblemAfter r0 levels p) (hs : SameIkRobot r0 r) {w : Wbc} {q : MotionParameters}
    (ha : ∀ l ∈ levels, ∀ k ∈ l, Applicable r (w.update root q) k) {junkA : ℕ → ℕ → ℕ → ℝ} {junkB : ℕ → ℕ → ℝ}
    (e : p.form junkA junkB r (w.update root q) = .ok p') :
    (∀ L ∈ p.hierarchy.levels, Reachable L) ∧
    p.hierarchy.form (root.dof + 15) ⟨ikEnv r (w.update root q), p.members, junkA, junkB⟩ false = .ok p'.hierarchy ∧
    List.Forall₂ (LevelMeans r (w.update root q)) p'.hierarchy.levels levels ∧
    ∀ L ∈ p'.hierarchy.levels, ∀ ti ∈ L.tasks, InRange ti.task.ctr := by
  have hk := ikProblem_after h0 hp
  obtain ⟨h1, h2⟩ := ikProblem_formed h0 hs hk e
  have hm := ikShaped_means h1 ha
  obtain ⟨kinds, hk', -⟩ := hk.shape
  refine ⟨hk'.reach, h2, hm, fun L hL ti hti => ?_⟩
  obtain ⟨i, hi⟩ := List.getElem?_of_mem hL
  obtain ⟨l, -, hl⟩ := forall2_getElem hm.flip hi
  obtain ⟨k, -, hk⟩ := (levelMeans_mem hl).1 ti hti
  exact Pepper.pepper_inRange (means_wellFormed hk)

theorem means_equality {w : Wbc} {c : Ctr ℝ} {k : IkTask} (h : IkMeans r w c k) (hk : CanBePreferred k) : CanMinimise c := by
  have ht := means_ctype h
  refine ⟨?_, ?_⟩ <;> rw [ht] <;> cases k <;> first | exact hk.elim | rfl | (intro h; cases h)

theorem means_simple {w : Wbc} {c : Ctr ℝ} {k : IkTask} (h : IkMeans r w c k) (hk : CanConstrain k) :
    c.ctype.isSimple = true → c.ctype.hasILUCopy = true := by
  rw [means_ctype h]
  cases k <;> first | exact hk.elim | exact fun _ => rfl | (intro h; cases h)

theorem means_within {w : Wbc} {c : Ctr ℝ} {k : IkTask} (h : IkMeans r w c k) (x : ℕ → ℝ) : WithinInfinity c x := by
  have ht := means_ctype h
  obtain ⟨t, nv, d⟩ := c
  obtain rfl : t = _ := ht
  intro i _
  cases k <;> exact ⟨fun e => (by cases e), fun e => (by cases e)⟩

theorem moderate_below {E : Type} {w : Wbc} {L : Level E ℝ} {ks : List IkTask} (h : LevelMeans r w L ks) (x : ℕ → ℝ) :
    Moderate L (root.dof + 15) x ↔ BelowInfinity root x := by
  refine ⟨fun h => h.2, fun hx => ⟨fun ti hti => ?_, hx⟩⟩
  obtain ⟨k, -, hm⟩ := (levelMeans_mem h).1 ti hti
  exact means_within hm x

theorem two_levels {ks0 ks1 : List IkTask} {w : Wbc} (ha : ∀ k ∈ ks0 ++ ks1, Applicable r w k) : ∀ l ∈ [ks0, ks1], ∀ k ∈ l, Applicable r w k := by
  intro l hl k hk
  simp only [List.mem_cons, List.not_mem_nil, or_false] at hl
  rcases hl with rfl | rfl
  · exact ha k (List.mem_append_left _ hk)
  · exact ha k (List.mem_append_right _ hk)

/-- **C95.** With qpOASES: if limits, positions, orientations and velocities are on the first level, and equalities on the second one, then
either the answer does what the tasks of the first level ask for, and is the best one with respect to the second level; or there
is an exception, for one of two reasons: nothing below the infinity of the library does what the first level asks for, or qpOASES was given a
correct description of the problem and has not reported success. -/
theorem C95_qpoases {ks0 ks1 : List IkTask} (h0 : Ready r0) (hp : IkProblemAfter r0 [ks0, ks1] p) (hs : SameIkRobot r0 r) {w : Wbc}
    {q : MotionParameters} (ha : ∀ k ∈ ks0 ++ ks1, Applicable r (w.update root q) k) (hw : ∀ k ∈ ks0, Weighted k ∧ Exact k ∧ CanConstrain k)
    (hm : ∀ k ∈ ks1, CanBePreferred k) {junkA : ℕ → ℕ → ℕ → ℝ} {junkB : ℕ → ℕ → ℝ}
    (e : p.form junkA junkB r (w.update root q) = .ok p') {ext : Qpoases ℝ} (hext : TrustedSolver ext) (z : ℕ → ℕ → ℝ) (zc : Junk ℝ)
    {sol : Solution ℝ} (hn : sol.structure_ = Wbc.solutionStructure root) (hx : sol.x.length = root.dof + 15)
    {s : SolverState (QpoasesMem ℝ)} (hpar : s.params = SolverParameters.default) :
    ∃ L0 L1, p'.hierarchy.levels = [L0, L1] ∧ LevelMeans r (w.update root q) L0 ks0 ∧ LevelMeans r (w.update root q) L1 ks1 ∧
    ((∃ sol' a s', (qpoasesBackend ext z zc).solve sol p'.hierarchy .plain s = (.ok (sol', a), s') ∧ s'.params = SolverParameters.default ∧
        sol'.structure_ = sol.structure_ ∧ sol'.x.length = root.dof + 15 ∧ sol'.status = .ok ∧
        BestDisplacement r (w.update root q) ks0 (leastSquares L1.tasks) (BelowInfinity root) (entries sol'.x)) ∨
      (∃ s', (qpoasesBackend ext z zc).solve sol p'.hierarchy .plain s = (.error .thrown, s') ∧
        ((∀ y, BelowInfinity root y → ∃ k ∈ ks0, ¬ Achieves r (w.update root q) y k) ∨
          ∃ a gs, QpoasesDescribes a (root.dof + 15) (LevelSatisfied L0) (Moderate L0 (root.dof + 15)) (fun x c => c = leastSquares L1.tasks x)
            (BoundsVariables L0) ∧ (ext a none gs).status ≠ .successfulReturn))) := by
  obtain ⟨hr, hf, hl, hi⟩ := ik_solvable h0 hp hs (two_levels ha) e
  obtain ⟨L0, L1, hL, hm0, hm1⟩ := Wpg.forall2_split hl
  refine ⟨L0, L1, hL, hm0, hm1, ?_⟩
  have hlev := fun x => C95_level hm0 (fun k hk => (hw k hk).1) x
  have hlev' : ∀ x, LevelSatisfied L0 x ↔ ∀ k ∈ ks0, Achieves r (w.update root q) x k := fun x =>
    ⟨(hlev x).1, (hlev x).2 fun k hk => (hw k hk).2.1⟩
  rcases C83_solve hf hr hL hi
    (fun ti hti => by
      obtain ⟨k, hk, h⟩ := (levelMeans_mem hm1).1 ti hti
      exact means_equality h (hm k hk))
    (fun ti hti => by
      obtain ⟨k, hk, h⟩ := (levelMeans_mem hm0).1 ti hti
      exact means_simple h (hw k hk).2.2)
    hext z zc (sol := sol) (by rw [hn, structure_nvars]) hx (e := .plain)
    ⟨fun g hg => (by cases hg), fun a ha => (by cases ha)⟩ (s := s) (by exact hpar) with ⟨sol', a, s', h1, h2, h3⟩ | ⟨s', h1, h2⟩
  · refine .inl ⟨sol', a, s', h1, h2, h3.structure_, h3.size, h3.status, (hlev' _).1 h3.optimal.1, fun y hy hy' => ?_⟩
    have := h3.optimal.2 y ((hlev' y).2 hy') ((moderate_below hm0 y).2 hy)
    simpa using this
  · refine .inr ⟨s', h1, h2.imp (fun h y hy => ?_) fun h => h⟩
    by_contra hno
    push Not at hno
    exact h y ((moderate_below hm0 y).2 hy) ((hlev' y).2 hno)

/-- **C95.** If there are constraints on joints on the first level, if something below the infinity of the library does what the first
level asks for, and if qpOASES solves feasible problems with bounds on the variables, then there is no exception. -/
theorem C95_complete {ks0 ks1 : List IkTask} (h0 : Ready r0) (hp : IkProblemAfter r0 [ks0, ks1] p) (hs : SameIkRobot r0 r) {w : Wbc}
    {q : MotionParameters} (ha : ∀ k ∈ ks0 ++ ks1, Applicable r (w.update root q) k) (hw : ∀ k ∈ ks0, Weighted k ∧ Exact k ∧ CanConstrain k)
    (hm : ∀ k ∈ ks1, CanBePreferred k) {junkA : ℕ → ℕ → ℕ → ℝ} {junkB : ℕ → ℕ → ℝ}
    (e : p.form junkA junkB r (w.update root q) = .ok p') {ext : Qpoases ℝ} (hext : TrustedSolver ext) (hc : CompleteSolver ext)
    (z : ℕ → ℕ → ℝ) (zc : Junk ℝ) {sol : Solution ℝ} (hn : sol.structure_ = Wbc.solutionStructure root) (hx : sol.x.length = root.dof + 15)
    {s : SolverState (QpoasesMem ℝ)} (hpar : s.params = SolverParameters.default)
    (hj : IkTask.jointsBounds ∈ ks0 ∨ IkTask.fixArms ∈ ks0 ∨ IkTask.fixHead ∈ ks0) {y : ℕ → ℝ} (hy : BelowInfinity root y)
    (hya : ∀ k ∈ ks0, Achieves r (w.update root q) y k) :
    ∃ L1 sol' a s', p'.hierarchy.levels[1]? = some L1 ∧ LevelMeans r (w.update root q) L1 ks1 ∧
      (qpoasesBackend ext z zc).solve sol p'.hierarchy .plain s = (.ok (sol', a), s') ∧ s'.params = SolverParameters.default ∧
      sol'.structure_ = sol.structure_ ∧ sol'.x.length = root.dof + 15 ∧ sol'.status = .ok ∧
      BestDisplacement r (w.update root q) ks0 (leastSquares L1.tasks) (BelowInfinity root) (entries sol'.x) := by
  obtain ⟨L0, L1, hL, hm0, hm1, h⟩ := C95_qpoases h0 hp hs ha hw hm e hext z zc hn hx hpar
  rcases h with ⟨sol', a, s', h⟩ | ⟨s', -, hno | ⟨a, gs, hd, hst⟩⟩
  · exact ⟨L1, sol', a, s', by rw [hL]; rfl, hm1, h⟩
  · obtain ⟨k, hk, hka⟩ := hno y hy
    exact absurd (hya k hk) hka
  · exfalso
    have hsat : LevelSatisfied L0 y := (C95_level hm0 (fun k hk => (hw k hk).1) y).2 (fun k hk => (hw k hk).2.1) hya
    have hB : BoundsVariables L0 := by
      have key : ∀ k ∈ ks0, k.ctype.isSimple = true → BoundsVariables L0 := by
        intro k hk hsimple
        obtain ⟨ti, hti, hi⟩ := (levelMeans_mem hm0).2 k hk
        refine ⟨ti, hti, by rw [means_ctype hi]; exact hsimple, ?_⟩
        have hpos := ikShaped_rows (ikProblem_rows h0 hs (ikProblem_after h0 hp) (two_levels ha) e) (two_levels ha) L0 (by rw [hL]; simp) ti hti
        omega
      rcases hj with hj | hj | hj
      · exact key _ hj rfl
      · exact key _ hj rfl
      · exact key _ hj rfl
    exact hst (hc a none gs hd.accepted (hd.bounds hB).1 (hd.bounds hB).2 ⟨y, hd.complete y hsat ((moderate_below hm0 y).2 hy)⟩)

/-- **C95.** With the solver of equality constrained problems: if there are no limits in the tasks, the rows of the first level are
independent, and the tasks determine the displacement, then the answer does what the tasks of the first level ask for, and is the
best one with respect to the second level. -/
theorem C95_kkt {ks0 ks1 : List IkTask} (h0 : Ready r0) (hp : IkProblemAfter r0 [ks0, ks1] p) (hs : SameIkRobot r0 r) {w : Wbc}
    {q : MotionParameters} (ha : ∀ k ∈ ks0 ++ ks1, Applicable r (w.update root q) k) (hw : ∀ k ∈ ks0, Weighted k ∧ Exact k)
    (hm : ∀ k ∈ ks0 ++ ks1, CanBePreferred k) {junkA : ℕ → ℕ → ℕ → ℝ} {junkB : ℕ → ℕ → ℝ}
    (e : p.form junkA junkB r (w.update root q) = .ok p') {D : Decompositions ℝ} (ht : Trusted D) {par : KktParameters ℝ}
    (hmeth : par.method = .lu ∨ par.method = .qr) (junk : ℕ → ℝ) (z : ℕ → ℕ → ℝ) (zc : Junk ℝ) (old : KktProblem ℝ) {sol : Solution ℝ}
    (hn : sol.structure_ = Wbc.solutionStructure root) :
    ∃ L0 L1 qp, p'.hierarchy.levels = [L0, L1] ∧ LevelMeans r (w.update root q) L0 ks0 ∧ LevelMeans r (w.update root q) L1 ks1 ∧
      kktInitialize z zc old p'.hierarchy (root.dof + 15) = .ok qp ∧
      (∀ x, Feasible qp.equalities.A qp.equalities.b x ↔ ∀ k ∈ ks0, Achieves r (w.update root q) x k) ∧
      (IndependentRows qp.equalities.A →
        (∀ d : ℕ → ℝ, (∀ k, k < qp.equalities.A.rows → ∑ j ∈ Finset.range qp.equalities.A.cols, qp.equalities.A.e k j * d j = 0) →
          (∀ ti ∈ L1.tasks, ∀ i, i < rows ti.task.ctr → lhs ti.task.ctr d i = 0) → ∀ j, j < root.dof + 15 → d j = 0) →
        ∃ sol', kktSolveHierarchy D par junk qp sol = .ok sol' ∧ sol'.status = .ok ∧ sol'.x.length = root.dof + 15 ∧
          BestDisplacement r (w.update root q) ks0 (leastSquares L1.tasks) (fun _ => True) (entries sol'.x)) := by
  obtain ⟨hr, hf, hl, hi⟩ := ik_solvable h0 hp hs (two_levels ha) e
  obtain ⟨L0, L1, hL, hm0, hm1⟩ := Wpg.forall2_split hl
  have hlev : ∀ x, LevelSatisfied L0 x ↔ ∀ k ∈ ks0, Achieves r (w.update root q) x k := fun x =>
    ⟨(C95_level hm0 (fun k hk => (hw k hk).1) x).1, (C95_level hm0 (fun k hk => (hw k hk).1) x).2 fun k hk => (hw k hk).2⟩
  obtain ⟨qp, q1, -, q2, q3⟩ := C43_hierarchy ht hmeth junk hf hr hL hi
    (fun ti hti => by
      obtain ⟨k, hk, h⟩ := (levelMeans_mem hm0).1 ti hti
      exact (means_equality h (hm k (List.mem_append_left _ hk))).1)
    (fun ti hti => by
      obtain ⟨k, hk, h⟩ := (levelMeans_mem hm1).1 ti hti
      exact means_equality h (hm k (List.mem_append_right _ hk)))
    z zc old sol (by rw [hn, structure_nvars])
  refine ⟨L0, L1, qp, hL, hm0, hm1, q1, fun x => (q2 x).trans (hlev x), fun h1 h2 => ?_⟩
  obtain ⟨sol', k1, k2, k3, k4, k5⟩ := q3 h1 h2
  exact ⟨sol', k1, k2, k3, (hlev _).1 k4, fun y _ hy => k5 y ((hlev y).2 hy)⟩

/-- **C95.** The next coordinates, which are computed from an answer as above: with limits on the first level the angles of the joints are
within the limits; with fixed arms or a fixed head the angles of these joints stay as they are. -/
theorem C95_next {ks0 : List IkTask} {w : Wbc} {q : MotionParameters} {cost : (ℕ → ℝ) → ℝ} {S : (ℕ → ℝ) → Prop} {x : List ℝ}
    (hx : x.length = root.dof + 15) (hb : BestDisplacement r (w.update root q) ks0 cost S (entries x)) (st : SolverStatus) :
    ∃ w' g, (w.update root q).getNextGeneralizedCoordinates ⟨Wbc.solutionStructure root, x, st⟩ r = .ok (w', g) ∧
      g = displaced r.state (entries x) 1 ∧
      (.jointsBounds ∈ ks0 → ∀ j, r.constraints.joint_position_bounds_min j ≤ g.joint_angles j ∧
        g.joint_angles j ≤ r.constraints.joint_position_bounds_max j) ∧
      (.fixArms ∈ ks0 → ∀ j, IsArmJoint j = true → g.joint_angles (jointId root j) = r.state.joint_angles (jointId root j)) ∧
      (.fixHead ∈ ks0 → ∀ j, IsHeadJoint j = true → g.joint_angles (jointId root j) = r.state.joint_angles (jointId root j)) := by
  obtain ⟨w', h1, -⟩ := C94_next w q r x st hx
  exact ⟨w', _, h1, rfl, fun h => hb.achieves _ h, fun h => hb.achieves _ h, fun h => hb.achieves _ h⟩

/-- **C95.** The third hierarchy of the tests does not fix the joints it is meant to fix: numbers of joints are used as numbers of
variables, without the offset of the joints. The wrist of the right arm can move. -/
theorem C95_v2_refuted (junk : Fin 15 → ℝ) (p : IkProblem root) (r : Robot root) (w : Wbc) :
    ∃ ks0 ks1 gain, setupHierarchy_v2 junk p = p.setup [ks0, ks1] ∧ .zeroSelected gain (fixedIndices_v2 root) ∈ ks0 ∧
      Joint.RWristYaw ∈ fixedJoints_v2 ∧ ∃ x, Achieves r w x (.zeroSelected gain (fixedIndices_v2 root)) ∧
        (displaced r.state x 1).joint_angles (jointId root .RWristYaw) ≠ r.state.joint_angles (jointId root .RWristYaw) := by
  refine ⟨[.baseCoM 1 1, .baseOrientation 1 1, .zeroSelected 2 (fixedIndices_v2 root)],
    [.bodyCoM (223606797749979 / 10 ^ 16) (1 / 10) (axisFlag 0), .bodyCoM (707106781186548 / 10 ^ 15) (1 / 10) (axisFlag 1 ||| axisFlag 2),
      .jointsReference (223606797749979 / 10 ^ 18) (1 / 10) (defaultReference root junk),
      .tagOrientation (223606797749979 / 10 ^ 15) 1 "Head" ![0, -(15 / 100), 0]], 2, rfl, by simp, by simp [fixedJoints_v2],
    fun i => if i = root.dof + 14 then 1 else 0, fun i hi => ?_, ?_⟩
  · have hd : 0 < root.dof := by cases root <;> decide
    have h1 : (fixedIndices_v2 root).e i < 15 := Fin.is_lt _
    exact if_neg (by omega)
  · have hid : (jointId root .RWristYaw : ℕ) = 14 := by cases root <;> rfl
    show _ + 1 * (if root.dof + (jointId root .RWristYaw : ℕ) = root.dof + 14 then (1 : ℝ) else 0) ≠ _
    rw [hid, if_pos rfl]
    simp

end

/-! ### Examples -/

/-- A hierarchy with fixed arms and a fixed head, where the second level moves the body, turns a link and keeps the joints where they are. -/
noncomputable def exampleLevels : List (List IkTask) :=
  [[.fixArms, .fixHead], [.bodyCoM 1 1 7#32, .tagOrientation 1 1 "CameraTop_frame" 0, .zeroVariables (1 / 100) "joints_vel"]]

/-- The hypotheses of the theorems are met, also by a problem which was formed before. -/
example (root : Root) (p : IkProblem root) (w : Wbc) (q q' : MotionParameters) (junkA : ℕ → ℕ → ℕ → ℝ) (junkB : ℕ → ℕ → ℝ) :
    ∃ (r : Robot root) (p1 p2 p3 : IkProblem root) (ext : Qpoases ℝ), Ready r ∧ IkProblemAfter r exampleLevels p1 ∧
      p1.form junkA junkB r (w.update root q) = .ok p2 ∧ IkProblemAfter r exampleLevels p2 ∧
      p2.form junkA junkB r (w.update root q') = .ok p3 ∧ TrustedSolver ext ∧ CompleteSolver ext ∧
      (∀ l ∈ exampleLevels, ∀ k ∈ l, Applicable r (w.update root q') k) ∧
      BelowInfinity root (fun _ => 0) ∧ ∀ k ∈ [IkTask.fixArms, .fixHead], Achieves r (w.update root q') (fun _ => 0) k := by
  obtain ⟨r, h1, h2, -⟩ := ready_exists root
  obtain ⟨ext, h3, h4⟩ := exists_solver
  have ha : ∀ q, ∀ l ∈ exampleLevels, ∀ k ∈ l, Applicable r (w.update root q) k := by
    intro q l hl k hk
    simp only [exampleLevels, List.mem_cons, List.not_mem_nil, or_false] at hl
    rcases hl with rfl | rfl
    · simp only [List.mem_cons, List.not_mem_nil, or_false] at hk
      rcases hk with rfl | rfl <;> trivial
    · simp only [List.mem_cons, List.not_mem_nil, or_false] at hk
      rcases hk with rfl | rfl | rfl
      · refine ⟨by decide, fun i hi => ?_⟩
        rw [BitVec.getLsbD, Nat.testBit_lt_two_pow]
        calc (7#32).toNat < 2 ^ 3 := by decide
          _ ≤ 2 ^ i := Nat.pow_le_pow_right (by omega) hi
      · exact h2
      · exact .inr (.inl rfl)
  have hne : exampleLevels ≠ [] := by simp [exampleLevels]
  have hln : ∀ l ∈ exampleLevels, l ≠ [] := by simp [exampleLevels]
  have hr : SameIkRobot r r := .same
  obtain ⟨p1, e1⟩ := C95_setup exampleLevels p
  have i1 : IkProblemAfter r exampleLevels p1 := .setup e1
  obtain ⟨p2, e2, -⟩ := C95_form h1 i1 hr w q (ha q) hne hln junkA junkB
  have i2 : IkProblemAfter r exampleLevels p2 := .form i1 hr e2
  obtain ⟨p3, e3, -⟩ := C95_form h1 i2 hr w q' (ha q') hne hln junkA junkB
  refine ⟨r, p1, p2, p3, ext, h1, i1, e2, i2, e3, h3, h4, ha q', fun v _ => by constructor <;> norm_num, fun k hk => ?_⟩
  simp only [List.mem_cons, List.not_mem_nil, or_false] at hk
  rcases hk with rfl | rfl <;>
  · intro j _
    show _ + 1 * 0 = _
    simp

end Ik

end Humoto
