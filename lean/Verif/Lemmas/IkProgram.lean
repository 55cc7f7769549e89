import Verif.Spec.IkProgram
import Verif.Props.IkProblem
import Verif.Props.PepperIk

/-!
# Lemmas for the programs of Pepper IK
-/

namespace Humoto

namespace Ik

open Spec Spec.Ik Spec.Rbdl Bridge
open scoped Matrix

variable {root : Root} {σ : Type}

/-! ### Norms -/

theorem foldl_max_lt (l : List ℝ) (m t : ℝ) : l.foldl (fun m a => max m |a|) m < t ↔ m < t ∧ ∀ a ∈ l, |a| < t := by
  induction l generalizing m with
  | nil => simp
  | cons a l ih => simp [ih, max_lt_iff, and_assoc]

theorem normInf_lt {x : List ℝ} (hx : x.length = root.dof + 15) (t : ℝ) : normInf x < t ↔ SmallDisplacement root t (entries x) := by
  unfold normInf SmallDisplacement
  rw [foldl_max_lt, ← hx]
  constructor
  · rintro ⟨-, h⟩ v hv
    have : entries x v = x[v] := by simp [entries, List.getD_eq_getElem?_getD, hv]
    rw [this]
    exact h _ (List.getElem_mem hv)
  · intro h
    have key : ∀ a ∈ x, |a| < t := by
      intro a ha
      obtain ⟨v, hv, rfl⟩ := List.getElem_of_mem ha
      have : entries x v = x[v] := by simp [entries, List.getD_eq_getElem?_getD, hv]
      rw [← this]
      exact h v hv
    have h0 : 0 < x.length := by omega
    exact ⟨lt_of_le_of_lt (abs_nonneg _) (key _ (List.getElem_mem h0)), key⟩

theorem norm3_eq (v : Fin 3 → ℝ) : norm3 v = len3 v := by
  unfold norm3 len3
  rw [Fin.sum_univ_three]

theorem rotationError_unique {e e' : Fin 3 → ℝ} {R Rref : Mat3 ℝ} (h : RotationError e R Rref) (h' : RotationError e' R Rref) : e = e' := by
  have key : ∀ p, vectorProduct e p = vectorProduct e' p := by
    intro p
    have h1 := (h p).symm.trans (h' p)
    have h2 := congrArg (fun v => (1 / 2 : ℝ) • v) h1
    simpa [smul_smul] using h2
  have k0 := key ![1, 0, 0]
  have k1 := key ![0, 1, 0]
  funext i
  have a1 := congrFun k0 1
  have a2 := congrFun k0 2
  have a3 := congrFun k1 2
  simp [vectorProduct] at a1 a2 a3
  fin_cases i
  · simpa using a3
  · simpa using a2
  · simpa using a1

/-! ### Steps -/

theorem initSolution_ok (sol : Solution ℝ) (junk : ℕ → ℝ) : ∃ sol', initSolutionStructure (Wbc.solutionStructure root) sol junk = .ok sol' ∧
    sol'.structure_ = Wbc.solutionStructure root ∧ sol'.x.length = root.dof + 15 := by
  refine ⟨sol.resize (Wbc.solutionStructure root) junk, ?_, rfl, ?_⟩
  · unfold initSolutionStructure
    have : (Wbc.solutionStructure root).isNonEmpty = true := by cases root <;> rfl
    rw [this]
    rfl
  · show (if sol.x.length = (Wbc.solutionStructure root).nvars then sol.x else (List.range (Wbc.solutionStructure root).nvars).map junk).length = _
    rw [structure_nvars]
    split
    · assumption
    · simp

theorem next_wbc {w w' : Wbc} {sol : Solution ℝ} {r : Robot root} {g : State root} (h : w.getNextGeneralizedCoordinates sol r = .ok (w', g)) :
    w' = { w with solution_is_parsed := true } := by
  unfold Wbc.getNextGeneralizedCoordinates at h
  cases h0 : assertThat (w.solution_is_parsed = false) with
  | error e => rw [h0] at h; cases h
  | ok _ =>
    rw [h0] at h
    cases h1 : sol.getPart rootVelId with
    | error e => rw [h1] at h; cases h
    | ok a =>
      rw [h1] at h
      simp only [ok_bind] at h
      cases h2 : require (a.length = root.dof) with
      | error e => rw [h2] at h; cases h
      | ok _ =>
        rw [h2] at h
        cases h3 : sol.getPart jointsVelId with
        | error e => rw [h3] at h; cases h
        | ok b =>
          rw [h3] at h
          simp only [ok_bind] at h
          cases h4 : require (b.length = jointsDof) with
          | error e => rw [h4] at h; cases h
          | ok _ =>
            rw [h4] at h
            cases h
            rfl

section
variable {r0 : Robot root} {levels : List (List IkTask)} {Inv : SolverState σ → Prop} {s : IkProgram root σ}

theorem prepare_ok (h0 : Ready r0) (hne : levels ≠ []) (hln : ∀ l ∈ levels, l ≠ []) (hs : IkProgramReady r0 levels Inv s) (u : IkMemory)
    (q : MotionParameters) : ∃ p sol, s.prepare u q = .ok { s with wbc := s.wbc.update root q, problem := p, solution := sol } ∧
      s.problem.form u.tasks u.vectors s.robot (s.wbc.update root q) = .ok p ∧ sol.structure_ = Wbc.solutionStructure root ∧
      sol.x.length = root.dof + 15 := by
  obtain ⟨sol, e1, h1, h2⟩ := initSolution_ok (root := root) s.solution u.solution
  obtain ⟨p, e2, -⟩ := C95_form h0 hs.problem hs.robot s.wbc q (hs.tasks s.robot q hs.robot) hne hln u.tasks u.vectors
  refine ⟨p, sol, ?_, e2, h1, h2⟩
  unfold IkProgram.prepare
  show (initSolutionStructure (Wbc.solutionStructure root) s.solution u.solution >>= _) = _
  rw [e1, ok_bind, e2, ok_bind]
  rfl

theorem stateError_close {r : Robot root} (h : Ready r) (q : MotionParameters) (tol : ℝ) :
    ∃ e, r.getStateError q = .ok e ∧ (errorSize e < tol ↔ CloseTo r q tol) := by
  obtain ⟨e, base, body, R, Rref, h1, h2, h3, h4, h5, h6, h7, h8⟩ := C94_stateError h q
  refine ⟨e, h1, ?_⟩
  have e1 : e.base_com_position = fun i => q.base_com_position i - base i := funext h6
  have e2 : e.body_com_position = fun i => q.body_com_position i - body i := funext h7
  unfold errorSize
  simp only [norm3_eq]
  rw [e1, e2]
  constructor
  · exact fun hh => ⟨base, body, R, Rref, e.base_orientation_rpy, h2, h3, h4, h5, h8, hh⟩
  · rintro ⟨base', body', R', Rref', e', g2, g3, g4, g5, g8, hh⟩
    obtain rfl := Except.ok.inj (h2.symm.trans g2)
    obtain rfl := Except.ok.inj (h3.symm.trans g3)
    obtain rfl := Except.ok.inj (h4.symm.trans g4)
    obtain rfl := describesRpy_unique h5 g5
    rw [rotationError_unique h8 g8]
    exact hh

theorem stop_ok (h : Ready s.robot) (hx : s.solution.x.length = root.dof + 15) (k : StopKind) (par : WbcParameters) (q : MotionParameters) :
    ∃ b, s.stop k par q = .ok b ∧ (b = true ↔ Stops k par q s.robot (entries s.solution.x)) := by
  cases k with
  | displacement =>
    refine ⟨_, rfl, ?_⟩
    rw [decide_eq_true_iff, normInf_lt hx]
    exact ⟨.inl, fun h => h.elim id fun h => by cases h.1⟩
  | displacementOrError =>
    obtain ⟨e, h1, hclose⟩ := stateError_close h q par.motion_parameters_tolerance
    by_cases hc : errorSize e < par.motion_parameters_tolerance
    · refine ⟨true, ?_, fun _ => .inr ⟨rfl, hclose.1 hc⟩, fun _ => rfl⟩
      unfold IkProgram.stop
      simp only [h1, ok_bind, if_pos hc]
      rfl
    · refine ⟨decide (normInf s.solution.x < par.joint_angle_error_tolerance), ?_, ?_⟩
      · unfold IkProgram.stop
        simp only [h1, ok_bind, if_neg hc]
        rfl
      · rw [decide_eq_true_iff, normInf_lt hx]
        exact ⟨.inl, fun h => h.elim id fun h => absurd (hclose.2 h.2) hc⟩

theorem update_update (w : Wbc) (q q' : MotionParameters) : (w.update root q).update root q' = w.update root q' := rfl

/-- An iteration. -/
theorem iteration_ok {B : IkSolver root σ} {good : Robot root → Wbc → (ℕ → ℝ) → Prop} {hopeless : Robot root → Wbc → Prop}
    (h0 : Ready r0) (hne : levels ≠ []) (hln : ∀ l ∈ levels, l ≠ []) (hB : SolvesIk B Inv r0 levels good hopeless)
    (hs : IkProgramReady r0 levels Inv s) (u : IkMemory) (q : MotionParameters) :
    ∃ s1, s.prepare u q = .ok s1 ∧
      ((∃ s2 x, s1.move B u = .ok (s2, none) ∧ good s.robot (s.wbc.update root q) x ∧ s2.robot = movedBy s.robot x 1 ∧
          s2.solution.x.length = root.dof + 15 ∧ x = entries s2.solution.x ∧ IkProgramReady r0 levels Inv s2 ∧
          ∀ q', s2.wbc.update root q' = s.wbc.update root q') ∨
        ∃ s2, s1.move B u = .ok (s2, some .thrown) ∧ hopeless s.robot (s.wbc.update root q) ∧ s2.robot = s.robot ∧
          IkProgramReady r0 levels Inv s2 ∧ ∀ q', s2.wbc.update root q' = s.wbc.update root q') := by
  obtain ⟨p, sol, e1, e2, h1, h2⟩ := prepare_ok h0 hne hln hs u q
  have hp : IkProblemAfter r0 levels p := .form hs.problem hs.robot e2
  refine ⟨_, e1, ?_⟩
  rcases hB s.problem p s.robot s.wbc q u sol s.solver hs.problem hs.robot (hs.tasks s.robot q hs.robot) e2 h1 h2 hs.solver with
    ⟨sol', a, m', k1, k2, k3, k4, k5⟩ | ⟨m', k1, k2, k3⟩
  · obtain ⟨w', n1, n2, -⟩ := C94_next s.wbc q s.robot sol'.x sol'.status k4
    have hsol : (⟨(s.wbc.update root q).sol_structure, sol'.x, sol'.status⟩ : Solution ℝ) = sol' := by
      cases sol' with
      | mk a b c =>
        obtain rfl : a = Wbc.solutionStructure root := k3.trans h1
        rfl
    rw [hsol] at n1
    have hw := next_wbc n1
    refine .inl ⟨⟨s.robot.updateState (displaced s.robot.state (entries sol'.x) 1), w', p, m', sol'⟩, _, ?_, k5, rfl, k4, rfl, ⟨.update _ hs.robot, hp, k2, fun r q' hr => ?_⟩, fun q' => by rw [hw]; rfl⟩
    · unfold IkProgram.move
      simp only [k1, n1, ok_bind]
      rfl
    · rw [hw]
      exact hs.tasks r q' hr
  · refine .inr ⟨⟨s.robot, s.wbc.update root q, p, m', sol⟩, ?_, k3, rfl,
      ⟨hs.robot, hp, k2, hs.tasks⟩, fun q' => rfl⟩
    unfold IkProgram.move
    simp only [k1]
    rfl

/-- The inner loop. -/
theorem loop_ok {B : IkSolver root σ} {good : Robot root → Wbc → (ℕ → ℝ) → Prop} {hopeless : Robot root → Wbc → Prop}
    (h0 : Ready r0) (hne : levels ≠ []) (hln : ∀ l ∈ levels, l ≠ []) (hB : SolvesIk B Inv r0 levels good hopeless)
    (k : StopKind) (par : WbcParameters) (q : MotionParameters) (left : ℕ) (hs : IkProgramReady r0 levels Inv s) (u : ℕ → IkMemory) :
    ∃ s' n o, s.loop B k par q u left = .ok (s', n, o) ∧ IkProgramReady r0 levels Inv s' ∧
      (∀ q', s'.wbc.update root q' = s.wbc.update root q') ∧
      (o = .done ∧ n ≤ left ∧ Run (good · (s.wbc.update root q)) (Stops k par q) s.robot n s'.robot true ∨
       o = .exhausted ∧ n = left ∧ Run (good · (s.wbc.update root q)) (Stops k par q) s.robot n s'.robot false ∨
       o = .failed .thrown ∧ n < left ∧ Run (good · (s.wbc.update root q)) (Stops k par q) s.robot n s'.robot false ∧
        hopeless s'.robot (s.wbc.update root q)) := by
  induction left generalizing s u with
  | zero => exact ⟨s, 0, .exhausted, rfl, hs, fun _ => rfl, .inr (.inl ⟨rfl, rfl, .start _⟩)⟩
  | succ left ih =>
    obtain ⟨s1, e1, h⟩ := iteration_ok h0 hne hln hB hs (u 0) q
    rcases h with ⟨s2, x, e2, hg, hr, hx, hxe, hs2, hw⟩ | ⟨s2, e2, hh, hr, hs2, hw⟩
    · obtain ⟨b, e3, hb⟩ := stop_ok (sameRobot_ready h0 hs2.robot) hx k par q
      rw [← hxe, hr] at hb
      cases b with
      | true =>
        refine ⟨s2, 1, .done, ?_, hs2, hw, .inl ⟨rfl, by omega, ?_⟩⟩
        · unfold IkProgram.loop
          simp only [e1, e2, e3, ok_bind, if_true]
          rfl
        · rw [hr]
          exact .stop hg (hb.1 rfl)
      | false =>
        have hns : ¬ Stops k par q (movedBy s.robot x 1) x := fun hc => by cases hb.2 hc
        obtain ⟨s', n, o, e4, hs', hw', h⟩ := ih hs2 (fun i => u (i + 1))
        rw [hw, hr] at h
        refine ⟨s', n + 1, o, ?_, hs', fun q' => (hw' q').trans (hw q'), ?_⟩
        · unfold IkProgram.loop
          simp only [e1, e2, e3, e4, ok_bind]
          rfl
        · rcases h with ⟨h1, h2, h3⟩ | ⟨h1, h2, h3⟩ | ⟨h1, h2, h3, h4⟩
          · exact .inl ⟨h1, by omega, .go hg hns h3⟩
          · exact .inr (.inl ⟨h1, by omega, .go hg hns h3⟩)
          · exact .inr (.inr ⟨h1, by omega, .go hg hns h3, h4⟩)
    · refine ⟨s2, 0, .failed .thrown, ?_, hs2, hw, .inr (.inr ⟨rfl, by omega, ?_, ?_⟩)⟩
      · unfold IkProgram.loop
        simp only [e1, e2, ok_bind]
        rfl
      · rw [hr]
        exact .start _
      · rw [hr]
        exact hh

end

/-! ### Solvers -/

theorem changing_params {α : Type} (f : σ → Res (α × σ)) (s : SolverState σ) : (changing f s).2.params = s.params := by
  unfold changing
  rcases f s.mem with e | ⟨a, m⟩ <;> rfl

theorem bind_params {α β : Type} {m : SM (SolverState σ) α} {f : α → SM (SolverState σ) β} (h1 : ∀ s, (m s).2.params = s.params)
    (h2 : ∀ a s, (f a s).2.params = s.params) (s : SolverState σ) : ((m >>= f) s).2.params = s.params := by
  rw [SM.bind_apply, ← h1 s]
  rcases m s with ⟨e | a, s'⟩
  · rfl
  · exact h2 a s'

theorem qpoases_params (ext : Qpoases ℝ) (z : ℕ → ℕ → ℝ) (zc : Junk ℝ) (sol : Solution ℝ) {E : Type} (P : Hierarchy E ℝ)
    (s : SolverState (QpoasesMem ℝ)) : ((qpoasesBackend ext z zc).solve sol P .plain s).2.params = s.params := by
  refine bind_params (fun _ => rfl) (fun _ => ?_) s
  refine bind_params (fun s => changing_params _ s) (fun _ => ?_)
  refine bind_params (fun s => changing_params _ s) (fun _ => ?_)
  refine bind_params (fun s => ?_) (fun _ _ => rfl)
  unfold Backend.checkResults
  split_ifs <;> rfl

/-- The direct methods do not fail, even if the matrix is singular. -/
theorem kktDirect_sizes {D : Decompositions ℝ} (hD : RightSizes D) {p : KktParameters ℝ} (hm : p.method = .lu ∨ p.method = .qr)
    (junk : ℕ → ℝ) {q : KktProblem ℝ} {n : ℕ} (hf : SizesFit q n) (sol : Solution ℝ) (hn : sol.structure_.nvars = n) :
    ∃ x : ℕ → ℝ, kktSolveHierarchy D p junk q sol = .ok { sol with x := (List.range n).map x, status := .ok } := by
  have hv : kktVector n q.equalities.A.rows q.objective.g q.equalities.b =
      .ok ⟨n + q.equalities.A.rows, fun i => if i < q.objective.g.n then q.objective.g.neg.e i
        else q.equalities.b.e (i - q.objective.g.n)⟩ := by
    unfold kktVector
    rw [require_true (by rw [hf.g, hf.b])]; rfl
  have key : ∃ y : Vec ℝ, kktDecompose D p (kktEntry q n) ⟨n + q.equalities.A.rows, fun i => if i < q.objective.g.n then q.objective.g.neg.e i
        else q.equalities.b.e (i - q.objective.g.n)⟩ = .ok y ∧ y.n = n + q.equalities.A.rows := by
    rcases hm with h | h
    · exact ⟨_, by simp only [kktDecompose, h]; rfl, (hD _ _).1⟩
    · exact ⟨_, by simp only [kktDecompose, h]; rfl, (hD _ _).2⟩
  obtain ⟨y, hy, hyn⟩ := key
  have : kktSolveDirect D p q sol = .ok { sol with x := (List.range n).map y.e, status := .ok } := by
    unfold kktSolveDirect
    simp only [hn, kktMatrix_ok hf, ok_bind, hv, hy, Vec.segment]
    rw [require_true (by omega), ok_bind]
    simp [pure_eq_ok, ok_bind]
  refine ⟨y.e, ?_⟩
  rcases hm with h | h <;> simp only [kktSolveHierarchy, h, this]

/-! ### Commands -/

theorem base_pose {r : Robot root} (h : Ready r) : ∃ p R, r.getBasePosition = .ok p ∧ r.getBaseOrientation = .ok R := by
  have hid : IsLink r.rbdl_model.rbdl_model r.base_orientation_tag := by
    rw [h.orientation]
    exact h.parts.base_link
  have hid' : IsLink r.rbdl_model.rbdl_model r.base_position_tag := by
    rw [h.position]
    exact h.parts.base_link
  obtain ⟨R, -, h1, -⟩ := link_frame h hid
  obtain ⟨p, -, h2, -⟩ := link_point h hid'
  exact ⟨p, R, h2, h1⟩

theorem saveCurrentState_ok {r : Robot root} {p : Fin 3 → ℝ} {R : Mat3 ℝ} (hp : r.getBasePosition = .ok p) (hR : r.getBaseOrientation = .ok R) :
    r.saveCurrentState = .ok ⟨fun i => .fin (p i), R.map .fin, r.state.coords⟩ := by
  unfold Robot.saveCurrentState
  rw [hR, ok_bind, hp, ok_bind]
  rfl

theorem command_ok {r r' : Robot root} (h : Ready r) (h' : Ready r') (wheels : Mat3 ℝ) {t : ℝ} (ht : 0 < t) {saved : SavedState ℝ root}
    (hsaved : r.saveCurrentState = .ok saved) (command : RobotCommand ℝ) :
    (∃ c, r'.getRobotCommand wheels saved command t = .ok c ∧ CommandFor wheels t r r' c) ∨
      r'.getRobotCommand wheels saved command t = .error .thrown ∧ ∀ c, ¬ CommandFor wheels t r r' c := by
  obtain ⟨p, R, hp, hR⟩ := base_pose h
  obtain ⟨p', R', hp', hR'⟩ := base_pose h'
  obtain rfl := Except.ok.inj ((saveCurrentState_ok hp hR).symm.trans hsaved)
  obtain ⟨v, w, hv, hw, c1, c2⟩ := C88_command
    (m := { kinematics := ⟨fun _ i => .fin (p' i), fun _ => R'.map .fin⟩, root_motion_to_wheels := wheels,
            saved_state := some ⟨fun i => .fin (p i), R.map .fin, r.state.coords⟩, generalized_coordinates := r'.state.coords,
            constraints := r'.constraints, rbdl_model := r'.state.coords })
    (s := ⟨fun i => .fin (p i), R.map .fin, r.state.coords⟩) (p := p) (p' := p') (R := R) (R' := R') (a := r.state.joint_angles)
    (b := r'.state.joint_angles) rfl rfl rfl rfl rfl rfl rfl ht command
  by_cases hc : AnglesAllowed r'.constraints (fun i => .fin (r'.state.joint_angles i)) ∧
      SlowEnough r'.constraints r.state.joint_angles r'.state.joint_angles t ∧ WheelsAllowed r'.constraints (fun i => .fin (w i))
  · refine .inl ⟨_, ?_, p, p', R, R', v, w, hp, hp', hR, hR', hv, hw, hc.1, hc.2.1, hc.2.2, rfl⟩
    unfold Robot.getRobotCommand
    simp only [hR', hp', ok_bind, c1 hc]
    rfl
  · refine .inr ⟨?_, ?_⟩
    · have h2 := c2 hc
      unfold Robot.getRobotCommand
      simp only [hR', hp', ok_bind]
      revert h2
      generalize IkModel.getRobotCommand _ command (.fin t) = z
      obtain ⟨z1, z2⟩ := z
      rintro (rfl : z2 = _)
      rfl
    · rintro c ⟨p1, p1', R1, R1', v', w', g1, g2, g3, g4, g5, g6, g7, g8, g9, -⟩
      obtain rfl := Except.ok.inj (hp.symm.trans g1)
      obtain rfl := Except.ok.inj (hp'.symm.trans g2)
      obtain rfl := Except.ok.inj (hR.symm.trans g3)
      obtain rfl := Except.ok.inj (hR'.symm.trans g4)
      have : v' = v := by
        have a0 := mul_left_cancel₀ ht.ne' (add_left_cancel (hv.x.symm.trans g5.x))
        have a1 := mul_left_cancel₀ ht.ne' (add_left_cancel (hv.y.symm.trans g5.y))
        have a2 := mul_left_cancel₀ ht.ne' (hv.yaw.symm.trans g5.yaw)
        funext i
        fin_cases i
        · exact a0.symm
        · exact a1.symm
        · exact a2.symm
      subst this
      rw [g6, ← hw] at g9
      exact hc ⟨g7, g8, g9⟩

end Ik

end Humoto
