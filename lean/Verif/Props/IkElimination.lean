import Verif.Spec.IkElimination
import Verif.Props.IkProgram

/-!
# C96: the method of elimination in the inverse kinematics

The programs test_002.cpp and regression_test_001.cpp use `CONSTRAINT_ELIMINATION_LLT`.
-/

namespace Humoto

namespace Ik

open Spec Spec.Ik Spec.Rbdl Bridge
open scoped Matrix

set_option linter.unusedSectionVars false

variable {root : Root}

/-- The method of elimination does not fail, even if the rows are not independent. -/
theorem kktElimination_sizes {D : Decompositions ℝ} (hD : ∀ M v, (D.llt M v).n = M.cols) {p : KktParameters ℝ} (hm : p.method = .eliminationLlt)
    (junk : ℕ → ℝ) {q : KktProblem ℝ} {n : ℕ} (hf : SizesFit q n) (hd : q.objective.hessianType = .diagonal) (sol : Solution ℝ)
    (hn : sol.structure_.nvars = n) :
    ∃ x : ℕ → ℝ, kktSolveHierarchy D p junk q sol = .ok { sol with x := (List.range n).map x, status := .ok } := by
  obtain ⟨v, hv, hvn, -⟩ := kktInvertDiagonal_ok junk hf.hrows hf.hcols p.regularization
  simp only [kktSolveHierarchy, hm, hd, if_true]
  unfold kktSolveWithElimination
  simp only [hn, hv, ok_bind, Vec.diagMulVec, Vec.diagMul]
  rw [require_true (by rw [hvn, hf.g]), ok_bind, pure_eq_ok, ok_bind]
  rw [require_true (by rw [hvn]; exact hf.acols.symm), ok_bind, pure_eq_ok, ok_bind]
  obtain ⟨S, hS, hSr, hSc⟩ : ∃ S : Mat ℝ, q.equalities.A.mul ⟨q.equalities.A.transpose.rows, q.equalities.A.transpose.cols,
      fun i j => v.e i * q.equalities.A.transpose.e i j⟩ = .ok S ∧ S.rows = q.equalities.A.rows ∧ S.cols = q.equalities.A.rows := by
    unfold Mat.mul
    rw [if_pos (by rfl)]
    exact ⟨_, rfl, rfl, rfl⟩
  obtain ⟨r, hr, hrn⟩ : ∃ r : Vec ℝ, q.equalities.A.mulVec ⟨q.objective.g.n, fun i => v.e i * q.objective.g.e i⟩ = .ok r ∧ r.n = q.equalities.A.rows := by
    unfold Mat.mulVec
    rw [if_pos (by rw [hf.acols, hf.g])]
    exact ⟨_, rfl, rfl⟩
  rw [hS, ok_bind, hr, ok_bind]
  unfold Vec.plus
  rw [require_true (by rw [hrn, hf.b]), ok_bind, pure_eq_ok, ok_bind]
  obtain ⟨y, hy, hyn⟩ : ∃ y : Vec ℝ, (⟨q.equalities.A.transpose.rows, q.equalities.A.transpose.cols, fun i j => v.e i * q.equalities.A.transpose.e i j⟩ : Mat ℝ).mulVec
      (D.llt S ⟨q.equalities.b.n, fun i => r.e i + q.equalities.b.e i⟩) = .ok y ∧ y.n = n := by
    unfold Mat.mulVec
    rw [if_pos (by rw [hD, hSc]; rfl)]
    exact ⟨_, rfl, hf.acols⟩
  rw [hy, ok_bind]
  unfold Vec.minus
  rw [require_true (by rw [hyn]; exact hf.g.symm), ok_bind, pure_eq_ok, ok_bind, pure_eq_ok]
  exact ⟨fun i => y.e i - v.e i * q.objective.g.e i, by rw [hf.g]⟩

theorem means_onVariables {r : Robot root} {w : Wbc} {c : Ctr ℝ} {k : IkTask} (h : IkMeans r w c k) (hk : OnVariables k) : c.ctype.isSimple = true := by
  cases k <;> first | (cases hk; done) | (rw [h.1]; rfl)

theorem means_onLinks {r : Robot root} {w : Wbc} {c : Ctr ℝ} {k : IkTask} (h : IkMeans r w c k) (hk : OnLinks root k) :
    c.ctype.isSimple = false ∧ 0 < rows c := by
  have key : ∀ n, 0 < n → LinearTask c root n → c.ctype.isSimple = false ∧ 0 < rows c := fun n hn hl => by
    rw [hl.ctype, hl.rows]
    exact ⟨rfl, hn⟩
  cases k
  all_goals first | (cases hk; done) | skip
  all_goals first | exact key _ (List.length_pos_of_ne_nil hk) h.1 | exact key _ (by decide) h.1

theorem objective_type {E : Type} {old o : QPObjective ℝ} {z : ℕ → ℕ → ℝ} {L : Level E ℝ} {upper : Bool}
    (h : QPObjective.initialize old z L upper = .ok o) : o.hessianType = .diagonal ↔ L.isSimple = true := by
  unfold QPObjective.initialize at h
  rcases e1 : assertThat (L.isEquality = true) with er | _
  · rw [e1] at h
    cases h
  rcases e2 : assertThat (L.nConstraints > 0) with er | _
  · rw [e1, e2] at h
    cases h
  rw [e1, ok_bind, e2, ok_bind] at h
  rcases e3 : L.getObjective z old.H old.g with er | Hg
  · rw [e3] at h
    cases h
  rw [e3, ok_bind] at h
  have key : ∀ t, (do
      let H ← convertLLTtoSymmetric Hg.1
      pure (⟨H, Hg.2.neg, t⟩ : QPObjective ℝ)) = .ok o → o.hessianType = t := by
    intro t h
    rcases e4 : convertLLTtoSymmetric Hg.1 with er | H
    · rw [e4] at h
      cases h
    · rw [e4, ok_bind] at h
      cases h
      rfl
  by_cases hs : L.isSimple = true
  · refine iff_of_true ?_ hs
    cases upper
    · simp only [hs, if_true, Bool.false_eq_true, if_false] at h
      cases h
      rfl
    · simp only [hs, if_true] at h
      exact key _ h
  · refine iff_of_false ?_ hs
    cases upper
    · simp only [hs, Bool.false_eq_true, if_false] at h
      cases h
      simp
    · simp only [hs, if_true, Bool.false_eq_true, if_false] at h
      rw [key _ h]
      simp

theorem initialize_objective {E : Type} {z : ℕ → ℕ → ℝ} {zc : Junk ℝ} {old qp : KktProblem ℝ} {P : Hierarchy E ℝ} {nv : ℕ} {L0 L1 : Level E ℝ}
    (hL : P.levels = [L0, L1]) (h : kktInitialize z zc old P nv = .ok qp) : QPObjective.initialize old.objective z L1 true = .ok qp.objective := by
  unfold kktInitialize Hierarchy.getQPProblem at h
  rw [hL, assertThat_true (by simp), ok_bind] at h
  simp only at h
  rcases e1 : QPObjective.initialize old.objective z L1 true with er | o
  · rw [e1] at h
    cases h
  · simp only [e1, ok_bind] at h
    rcases e2 : QPConstraintsAB.initialize zc L0 nv with er | c
    · rw [e2] at h
      cases h
    · rw [e2] at h
      cases h
      rfl

theorem level_simple {E : Type} {L L' : Level E ℝ} (hr : Reachable L) {nv : ℕ} {env : E} {g : Bool} (h : L.form nv env g = .ok L') :
    (L'.isSimple = true ↔ ∀ ti ∈ L'.tasks, ti.task.ctr.ctype.isSimple = true ∨ rows ti.task.ctr = 0) := by
  obtain ⟨-, -, -, -, -, -, c1, -⟩ := C07_layout hr h
  have h1 : L'.isSimple = true ↔ L'.nGeneral = 0 := by
    unfold Level.isSimple Level.nConstraints
    simp
  rw [h1, c1]
  unfold totalRows
  rw [List.sum_eq_zero_iff]
  constructor
  · intro h ti hti
    by_cases hs : ti.task.ctr.ctype.isSimple = true
    · exact .inl hs
    · exact .inr (h _ (List.mem_map.2 ⟨ti, List.mem_filter.2 ⟨hti, by simp [hs]⟩, rfl⟩))
  · intro h n hn
    obtain ⟨ti, hti, rfl⟩ := List.mem_map.1 hn
    obtain ⟨h1, h2⟩ := List.mem_filter.1 hti
    rcases h ti h1 with h | h
    · rw [h] at h2
      cases h2
    · exact h

section
variable {r0 : Robot root} {ks0 ks1 : List IkTask}

/-- **C96.** Elimination, when all tasks of the second level are on single variables, as in the hierarchies 00, 03, 04 of the configuration file: it never fails.
Where the tasks of the first level are independent, the displacement does what they ask for, and it is the best one with respect to the second level and the
regularisation of the solver; elsewhere nothing is known about it. -/
theorem C96_elimination (h0 : Ready r0) (hw : ∀ k ∈ ks0, Weighted k ∧ Exact k ∧ CanBePreferred k) (hm : ∀ k ∈ ks1, OnVariables k)
    {D : Decompositions ℝ} (ht : Trusted D) (hD : ∀ M v, (D.llt M v).n = M.cols) {par : KktParameters ℝ} (hmeth : par.method = .eliminationLlt)
    (hreg : 0 < par.regularization) :
    SolvesIk (kktIk D par) (fun s => s.params = SolverParameters.default) r0 [ks0, ks1]
      (fun r w x => IndependentAt r0 ks0 ks1 r w → BestShortStep par.regularization ks0 ks1 r w x) (fun _ _ => False) := by
  intro p p' r w q u sol s hp hs ha e hn hx hpar
  obtain ⟨hr, hf, hl, hi⟩ := ik_solvable h0 hp hs ha e
  obtain ⟨L0, L1, hL, hm0, hm1⟩ := Wpg.forall2_split hl
  have hnv : sol.structure_.nvars = root.dof + 15 := by rw [hn, structure_nvars]
  have hpref0 : ∀ ti ∈ L0.tasks, CanMinimise ti.task.ctr := fun ti hti => by
    obtain ⟨k, hk, h⟩ := (levelMeans_mem hm0).1 ti hti
    exact means_equality h (hw k hk).2.2
  have hpref1 : ∀ ti ∈ L1.tasks, CanMinimise ti.task.ctr := fun ti hti => by
    obtain ⟨k, hk, h⟩ := (levelMeans_mem hm1).1 ti hti
    refine means_equality h ?_
    have := hm k hk
    cases k <;> first | trivial | cases this
  obtain ⟨qp, q1, q2, q3, q4⟩ := C43_hierarchy_elimination_partial ht hmeth hreg u.diagonal hf hr hL hi (fun ti hti => (hpref0 ti hti).1) hpref1
    u.objective u.constraints s.mem sol hnv
  have hdiag : qp.objective.hessianType = .diagonal := by
    obtain ⟨M1, hr1, h1⟩ := hierarchy_level hf hr (L' := L1) (by simp [hL])
    refine (objective_type (initialize_objective hL q1)).2 ((level_simple hr1 h1).2 fun ti hti => .inl ?_)
    obtain ⟨k, hk, h⟩ := (levelMeans_mem hm1).1 ti hti
    exact means_onVariables h (hm k hk)
  obtain ⟨x, hx'⟩ := kktElimination_sizes hD hmeth u.diagonal q2 hdiag sol hnv
  have hc : qpCheckInputs s.params p'.hierarchy = .ok () := by
    refine ((C18_checkInputs hf hr _).1).2 ⟨by rw [hpar]; rfl, .inr (by rw [hL]; rfl), fun L hl ti hti _ => ?_⟩
    rw [hL] at hl
    cases hl
    exact (hpref1 ti hti).1
  refine .inl ⟨{ sol with x := (List.range (root.dof + 15)).map x, status := .ok }, none, { s with mem := qp }, ?_, hpar, rfl, by simp, fun hreg => ?_⟩
  · have e1 : (kktIk (root := root) D par u).checkInputs p'.hierarchy s = (.ok (), s) := by
      show (qpCheckInputs s.params p'.hierarchy, s) = _
      rw [hc]
    have e2 : (kktIk (root := root) D par u).init p'.hierarchy sol.structure_ s = (.ok (), { s with mem := qp }) := by
      simp only [kktIk, changing, hnv, q1, ok_bind, pure_eq_ok]
    have e3 : (kktIk (root := root) D par u).solveHierarchy sol p'.hierarchy { s with mem := qp } =
        (.ok { sol with x := (List.range (root.dof + 15)).map x, status := .ok }, { s with mem := qp }) := by
      simp only [kktIk, changing, hx', ok_bind, pure_eq_ok]
    simp only [Backend.solve, SM.bind_apply, e1, e2, e3, Backend.checkResults]
    simp
    rfl
  · obtain ⟨sol', g1, -, -, g2, g3⟩ := q4 hdiag (hreg p p' u s.mem qp L0 L1 hp e hL q1)
    obtain rfl := Except.ok.inj (hx'.symm.trans g1)
    have hlev : ∀ x, LevelSatisfied L0 x ↔ ∀ k ∈ ks0, Achieves r (w.update root q) x k := fun x =>
      ⟨(C95_level hm0 (fun k hk => (hw k hk).1) x).1, (C95_level hm0 (fun k hk => (hw k hk).1) x).2 fun k hk => (hw k hk).2.1⟩
    exact ⟨L1, hm1, (hlev _).1 g2, fun y _ hy => g3 y ((hlev y).2 hy)⟩

/-- **C96.** Elimination, when the second level contains a task on the motion of a link or of a centre of mass, as in the hierarchy 02 of the configuration file: there
is always an exception. -/
theorem C96_elimination_refused (h0 : Ready r0) (hw : ∀ k ∈ ks0 ++ ks1, CanBePreferred k) {k : IkTask} (hk : k ∈ ks1) (hl : OnLinks root k)
    (D : Decompositions ℝ) {par : KktParameters ℝ} (hmeth : par.method = .eliminationLlt) :
    SolvesIk (kktIk D par) (fun s => s.params = SolverParameters.default) r0 [ks0, ks1] (fun _ _ _ => False) (fun _ _ => True) := by
  intro p p' r w q u sol s hp hs ha e hn hx hpar
  obtain ⟨hr, hf, hl', hi⟩ := ik_solvable h0 hp hs ha e
  obtain ⟨L0, L1, hL, hm0, hm1⟩ := Wpg.forall2_split hl'
  have hnv : sol.structure_.nvars = root.dof + 15 := by rw [hn, structure_nvars]
  have hpref0 : ∀ ti ∈ L0.tasks, CanMinimise ti.task.ctr := fun ti hti => by
    obtain ⟨k, hk, h⟩ := (levelMeans_mem hm0).1 ti hti
    exact means_equality h (hw k (List.mem_append_left _ hk))
  have hpref1 : ∀ ti ∈ L1.tasks, CanMinimise ti.task.ctr := fun ti hti => by
    obtain ⟨k, hk, h⟩ := (levelMeans_mem hm1).1 ti hti
    exact means_equality h (hw k (List.mem_append_right _ hk))
  obtain ⟨D', hD'⟩ := exists_trusted (K := ℝ)
  obtain ⟨qp, q1, -⟩ := C43_hierarchy hD' (p := ⟨.lu, 0⟩) (.inl rfl) u.diagonal hf hr hL hi (fun ti hti => (hpref0 ti hti).1) hpref1
    u.objective u.constraints s.mem sol hnv
  have hdiag : qp.objective.hessianType ≠ .diagonal := by
    obtain ⟨M1, hr1, h1⟩ := hierarchy_level hf hr (L' := L1) (by simp [hL])
    intro hd
    obtain ⟨ti, hti, h⟩ := (levelMeans_mem hm1).2 k hk
    obtain ⟨a, b⟩ := means_onLinks h hl
    rcases (level_simple hr1 h1).1 ((objective_type (initialize_objective hL q1)).1 hd) ti hti with h | h
    · rw [a] at h
      cases h
    · omega
  have hc : qpCheckInputs s.params p'.hierarchy = .ok () := by
    refine ((C18_checkInputs hf hr _).1).2 ⟨by rw [hpar]; rfl, .inr (by rw [hL]; rfl), fun L hl ti hti _ => ?_⟩
    rw [hL] at hl
    cases hl
    exact (hpref1 ti hti).1
  refine .inr ⟨{ s with mem := qp }, ?_, hpar, trivial⟩
  have e1 : (kktIk (root := root) D par u).checkInputs p'.hierarchy s = (.ok (), s) := by
    show (qpCheckInputs s.params p'.hierarchy, s) = _
    rw [hc]
  have e2 : (kktIk (root := root) D par u).init p'.hierarchy sol.structure_ s = (.ok (), { s with mem := qp }) := by
    simp only [kktIk, changing, hnv, q1, ok_bind, pure_eq_ok]
  have e3 : (kktIk (root := root) D par u).solveHierarchy sol p'.hierarchy { s with mem := qp } = (.error .thrown, { s with mem := qp }) := by
    simp only [kktIk, changing, kktSolveHierarchy, hmeth, hdiag, if_false]
    rfl
  simp only [Backend.solve, SM.bind_apply, e1, e2, e3]

/-- **C96.** How far such a displacement is from the best one: what it loses is at most the regularisation multiplied by the squared length of the other displacement. -/
theorem C96_elimination_close {f : ℝ} (hf : 0 ≤ f) {r : Robot root} {w : Wbc} {x : ℕ → ℝ} (h : BestShortStep f ks0 ks1 r w x) :
    ∃ L : Level (ProblemEnv root) ℝ, LevelMeans r w L ks1 ∧ (∀ k ∈ ks0, Achieves r w x k) ∧
      ∀ y, (∀ k ∈ ks0, Achieves r w y k) → leastSquares L.tasks x ≤ leastSquares L.tasks y + f * ∑ i ∈ Finset.range (root.dof + 15), y i ^ 2 := by
  obtain ⟨L, h1, h2⟩ := h
  refine ⟨L, h1, h2.achieves, fun y hy => ?_⟩
  have h3 := h2.best y trivial hy
  have h4 : 0 ≤ f * ∑ i ∈ Finset.range (root.dof + 15), x i ^ 2 := mul_nonneg hf (Finset.sum_nonneg fun i _ => sq_nonneg _)
  linarith

end

/-! ### Examples -/

theorem exists_trusted_llt : ∃ D : Decompositions ℝ, Trusted D ∧ ∀ M v, (D.llt M v).n = M.cols := by
  classical
  obtain ⟨D, hD⟩ := exists_trusted (K := ℝ)
  refine ⟨⟨D.lu, D.qr, fun M v => if (D.llt M v).n = M.cols then D.llt M v else ⟨M.cols, fun _ => 0⟩⟩, ⟨hD.lu, hD.qr, fun M v h1 h2 => ?_⟩, fun M v => ?_⟩
  · simp only [if_pos (hD.llt M v h1 h2).1]
    exact hD.llt M v h1 h2
  · dsimp only
    split_ifs with h
    · exact h
    · rfl

/-- The parameters of test_002.cpp. -/
noncomputable def eliminationParameters : KktParameters ℝ := { (KktParameters.default : KktParameters ℝ) with method := .eliminationLlt }

/-- The default hierarchy of the configuration file. -/
example {r0 : Robot root} (h0 : Ready r0) (reference : Fin 15 → ℝ) : ∃ D : Decompositions ℝ,
    SolvesIk (kktIk D eliminationParameters) (fun s => s.params = SolverParameters.default) r0
      [[.baseCoM 1 1, .bodyCoM 1 1 7#32, .baseOrientation 1 1], [.jointsReference 1 (3 / 10) reference]]
      (fun r w x => IndependentAt r0 [.baseCoM 1 1, .bodyCoM 1 1 7#32, .baseOrientation 1 1] [.jointsReference 1 (3 / 10) reference] r w →
        BestShortStep (1 / 10 ^ 8) [.baseCoM 1 1, .bodyCoM 1 1 7#32, .baseOrientation 1 1] [.jointsReference 1 (3 / 10) reference] r w x)
      (fun _ _ => False) := by
  obtain ⟨D, h1, h2⟩ := exists_trusted_llt
  refine ⟨D, C96_elimination h0 (fun k hk => ?_) (fun k hk => ?_) h1 h2 (par := eliminationParameters) rfl (by norm_num [eliminationParameters, KktParameters.default])⟩
  · simp only [List.mem_cons, List.not_mem_nil, or_false] at hk
    rcases hk with rfl | rfl | rfl <;> exact ⟨one_ne_zero, trivial, trivial⟩
  · simp only [List.mem_cons, List.not_mem_nil, or_false] at hk
    subst hk
    trivial

/-- Tasks which are independent in all coordinates. -/
example {r0 r : Robot root} (h0 : Ready r0) (hs : SameIkRobot r0 r) (w : Wbc) (q : MotionParameters) :
    IndependentAt r0 [.zeroSelected 1 ⟨1, fun _ => 0⟩] [.zeroVariables 1 ""] r (w.update root q) ∧ OnVariables (.zeroVariables 1 "") :=
  ⟨fun p p' u old qp L0 L1 a b c d => (regular_example h0 hs w q p p' u old qp L0 L1 a b c d).1, trivial⟩

/-- The hierarchy 02 of the configuration file cannot be solved by elimination. -/
example {r0 : Robot root} (h0 : Ready r0) (D : Decompositions ℝ) (reference : Fin 15 → ℝ) :
    SolvesIk (kktIk D eliminationParameters) (fun s => s.params = SolverParameters.default) r0
      [[.bodyCoM 1 1 7#32], [.baseCoM 1 1, .baseOrientation 1 1, .jointsReference 1 (3 / 10) reference]] (fun _ _ _ => False) (fun _ _ => True) := by
  refine C96_elimination_refused h0 (fun k hk => ?_) (k := .baseCoM 1 1) (by simp) ?_ D rfl
  · simp only [List.cons_append, List.nil_append, List.mem_cons, List.not_mem_nil, or_false] at hk
    rcases hk with rfl | rfl | rfl | rfl <;> trivial
  · cases root <;> simp [OnLinks, baseAxes]

end Ik

end Humoto
