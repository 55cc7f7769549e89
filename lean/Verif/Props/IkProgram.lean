import Verif.Lemmas.IkProgram

/-!
# The programs of Pepper IK (C96)
-/

namespace Humoto

namespace Ik

open Spec Spec.Ik Spec.Rbdl Bridge

variable {root : Root} {σ : Type}

/-! ### Solvers -/

section
variable {r0 : Robot root} {ks0 ks1 : List IkTask}

theorem applicable_append {r : Robot root} {w : Wbc} (ha : ∀ l ∈ [ks0, ks1], ∀ k ∈ l, Applicable r w k) : ∀ k ∈ ks0 ++ ks1, Applicable r w k := by
  intro k hk
  rcases List.mem_append.1 hk with h | h
  · exact ha ks0 (by simp) k h
  · exact ha ks1 (by simp) k h

/-- **C96.** qpOASES is a solver for two levels. If it is also complete and there are constraints on joints on the first level, then an exception means
that the first level is contradictory. -/
theorem C96_qpoases (h0 : Ready r0) (hw : ∀ k ∈ ks0, Weighted k ∧ Exact k ∧ CanConstrain k) (hm : ∀ k ∈ ks1, CanBePreferred k)
    {ext : Qpoases ℝ} (hext : TrustedSolver ext) :
    SolvesIk (qpoasesIk ext) (fun s => s.params = SolverParameters.default) r0 [ks0, ks1] (BestStep ks0 ks1 (BelowInfinity root))
      (fun r w => CompleteSolver ext → (IkTask.jointsBounds ∈ ks0 ∨ IkTask.fixArms ∈ ks0 ∨ IkTask.fixHead ∈ ks0) →
        ∀ y, BelowInfinity root y → ∃ k ∈ ks0, ¬ Achieves r w y k) := by
  intro p p' r w q u sol s hp hs ha e hn hx hpar
  have ha' := applicable_append ha
  obtain ⟨L0, L1, -, hm0, hm1, h⟩ := C95_qpoases h0 hp hs ha' hw hm e hext u.objective u.constraints hn hx hpar
  rcases h with ⟨sol', a, s', k1, k2, k3, k4, k5, k6⟩ | ⟨s', k1, -⟩
  · exact .inl ⟨sol', a, s', k1, k2, k3, k4, L1, hm1, k6⟩
  · refine .inr ⟨s', k1, ?_, fun hc hj y hy => ?_⟩
    · have := qpoases_params ext u.objective u.constraints sol p'.hierarchy s
      rw [k1] at this
      exact this.trans hpar
    · by_contra hno
      push Not at hno
      obtain ⟨_, sol', a, s'', -, -, k2, -⟩ := C95_complete h0 hp hs ha' hw hm e hext hc u.objective u.constraints hn hx hpar hj hy hno
      cases k1.symm.trans k2

/-- **C96.** The direct methods of the KKT solver never fail. Where the coordinates are regular, the displacement is the best one; elsewhere
nothing is known about it. -/
theorem C96_kkt (h0 : Ready r0) (hw : ∀ k ∈ ks0, Weighted k ∧ Exact k) (hm : ∀ k ∈ ks0 ++ ks1, CanBePreferred k)
    {D : Decompositions ℝ} (ht : Trusted D) (hD : RightSizes D) {par : KktParameters ℝ} (hmeth : par.method = .lu ∨ par.method = .qr) :
    SolvesIk (kktIk D par) (fun s => s.params = SolverParameters.default) r0 [ks0, ks1]
      (fun r w x => RegularAt r0 ks0 ks1 r w → BestStep ks0 ks1 (fun _ => True) r w x) (fun _ _ => False) := by
  intro p p' r w q u sol s hp hs ha e hn hx hpar
  have ha' := applicable_append ha
  obtain ⟨hr, hf, hl, hi⟩ := ik_solvable h0 hp hs ha e
  obtain ⟨L0, L1, hL, hm0, hm1⟩ := Wpg.forall2_split hl
  have hnv : sol.structure_.nvars = root.dof + 15 := by rw [hn, structure_nvars]
  have hpref0 : ∀ ti ∈ L0.tasks, CanMinimise ti.task.ctr := fun ti hti => by
    obtain ⟨k, hk, h⟩ := (levelMeans_mem hm0).1 ti hti
    exact means_equality h (hm k (List.mem_append_left _ hk))
  have hpref1 : ∀ ti ∈ L1.tasks, CanMinimise ti.task.ctr := fun ti hti => by
    obtain ⟨k, hk, h⟩ := (levelMeans_mem hm1).1 ti hti
    exact means_equality h (hm k (List.mem_append_right _ hk))
  obtain ⟨qp, q1, q2, q3, q4⟩ := C43_hierarchy ht hmeth u.diagonal hf hr hL hi (fun ti hti => (hpref0 ti hti).1) hpref1
    u.objective u.constraints s.mem sol hnv
  obtain ⟨x, hx'⟩ := kktDirect_sizes hD hmeth u.diagonal q2 sol hnv
  have hc : qpCheckInputs s.params p'.hierarchy = .ok () := by
    refine ((C18_checkInputs hf hr _).1).2 ⟨by rw [hpar]; rfl, .inr (by rw [hL]; rfl), fun L hl ti hti _ => ?_⟩
    rw [hL] at hl
    cases hl
    exact (hpref1 ti hti).1
  refine .inl ⟨{ sol with x := (List.range (root.dof + 15)).map x, status := .ok }, none, { s with mem := qp }, ?_, hpar, rfl, by simp, fun hreg => ?_⟩
  · have e1 : (kktIk (root := root) D par u).checkInputs p'.hierarchy s = (.ok (), s) := by
      show (qpCheckInputs s.params p'.hierarchy, s) = _
      rw [hc]
    have e2 : (kktIk (root := root) D par u).init p'.hierarchy sol.structure_ s = (.ok (), { s with mem := qp }) := by
      simp only [kktIk, changing, hnv, q1, ok_bind, pure_eq_ok]
    have e3 : (kktIk (root := root) D par u).solveHierarchy sol p'.hierarchy { s with mem := qp } =
        (.ok { sol with x := (List.range (root.dof + 15)).map x, status := .ok }, { s with mem := qp }) := by
      simp only [kktIk, changing, hx', ok_bind, pure_eq_ok]
    simp only [Backend.solve, SM.bind_apply, e1, e2, e3, Backend.checkResults]
    simp
    rfl
  · obtain ⟨i1, i2⟩ := hreg p p' u s.mem qp L0 L1 hp e hL q1
    obtain ⟨sol', g1, -, -, g2, g3⟩ := q4 i1 i2
    obtain rfl := Except.ok.inj (hx'.symm.trans g1)
    have hlev : ∀ x, LevelSatisfied L0 x ↔ ∀ k ∈ ks0, Achieves r (w.update root q) x k := fun x =>
      ⟨(C95_level hm0 (fun k hk => (hw k hk).1) x).1, (C95_level hm0 (fun k hk => (hw k hk).1) x).2 fun k hk => (hw k hk).2⟩
    exact ⟨L1, hm1, (hlev _).1 g2, fun y _ hy => g3 y ((hlev y).2 hy)⟩

end

/-! ### The loops -/

section
variable {r0 : Robot root} {levels : List (List IkTask)} {Inv : SolverState σ → Prop} {s : IkProgram root σ} {B : IkSolver root σ}
  {good : Robot root → Wbc → (ℕ → ℝ) → Prop} {hopeless : Robot root → Wbc → Prop}

/-- **C96.** The inner loop: either it ends with a robot which was moved by good displacements, of which the last one is the first after which there is
a reason to stop, and there are not more of them than it is allowed; or there is an exception, since after the maximal number of good displacements
there was no reason to stop, or since the solver has failed. There is no other failure. -/
theorem C96_solve (h0 : Ready r0) (hne : levels ≠ []) (hln : ∀ l ∈ levels, l ≠ []) (hB : SolvesIk B Inv r0 levels good hopeless)
    (k : StopKind) (par : WbcParameters) (q : MotionParameters) (hs : IkProgramReady r0 levels Inv s) (u : ℕ → IkMemory) :
    (∃ s' n, s.solveIk B k par u q = .ok s' ∧ IkProgramReady r0 levels Inv s' ∧ (∀ q', s'.wbc.update root q' = s.wbc.update root q') ∧
      n ≤ par.maximal_number_of_iterations ∧ Run (good · (s.wbc.update root q)) (Stops k par q) s.robot n s'.robot true) ∨
    (s.solveIk B k par u q = .error .thrown ∧
      ((∃ r', Run (good · (s.wbc.update root q)) (Stops k par q) s.robot par.maximal_number_of_iterations r' false) ∨
        ∃ n r', n < par.maximal_number_of_iterations ∧ Run (good · (s.wbc.update root q)) (Stops k par q) s.robot n r' false ∧
          hopeless r' (s.wbc.update root q))) := by
  obtain ⟨s', n, o, e, h1, h2, h⟩ := loop_ok h0 hne hln hB k par q par.maximal_number_of_iterations hs u
  rcases h with ⟨rfl, h3, h4⟩ | ⟨rfl, rfl, h4⟩ | ⟨rfl, h3, h4, h5⟩
  · refine .inl ⟨s', n, ?_, h1, h2, h3, h4⟩
    unfold IkProgram.solveIk
    rw [e, ok_bind]
    rfl
  · refine .inr ⟨?_, .inl ⟨s'.robot, h4⟩⟩
    unfold IkProgram.solveIk
    rw [e, ok_bind]
  · refine .inr ⟨?_, .inr ⟨n, s'.robot, h3, h4, h5⟩⟩
    unfold IkProgram.solveIk
    rw [e, ok_bind]

/-- **C96.** An iteration of the control loop: either there is a command, which brings the robot from its state before to its state after, within
limits; or there is an exception, since the reference cannot be approached. -/
theorem C96_control (h0 : Ready r0) (hne : levels ≠ []) (hln : ∀ l ∈ levels, l ≠ []) (hB : SolvesIk B Inv r0 levels good hopeless)
    (k : StopKind) (par : WbcParameters) (wheels : Mat3 ℝ) {dt : ℝ} (hdt : 0 < dt) (q : MotionParameters) (hs : IkProgramReady r0 levels Inv s)
    (u : ℕ → IkMemory) (command : RobotCommand ℝ) :
    (∃ s' c n, s.control B k par wheels dt u q command = .ok (s', c) ∧ IkProgramReady r0 levels Inv s' ∧
      (∀ q', s'.wbc.update root q' = s.wbc.update root q') ∧ n ≤ par.maximal_number_of_iterations ∧
      Run (good · (s.wbc.update root q)) (Stops k par q) s.robot n s'.robot true ∧ CommandFor wheels dt s.robot s'.robot c) ∨
    (s.control B k par wheels dt u q command = .error .thrown ∧
      CannotApproach (good · (s.wbc.update root q)) (Stops k par q) (hopeless · (s.wbc.update root q)) par.maximal_number_of_iterations wheels dt
        s.robot) := by
  have hr := sameRobot_ready h0 hs.robot
  obtain ⟨p, R, hp, hR⟩ := base_pose hr
  have hsave := saveCurrentState_ok hp hR
  rcases C96_solve h0 hne hln hB k par q hs u with ⟨s', n, e1, h1, h2, h3, h4⟩ | ⟨e1, h⟩
  · rcases command_ok hr (sameRobot_ready h0 h1.robot) wheels hdt hsave command with ⟨c, e2, hc⟩ | ⟨e2, hc⟩
    · refine .inl ⟨s', c, n, ?_, h1, h2, h3, h4, hc⟩
      unfold IkProgram.control
      rw [hsave, ok_bind, e1, ok_bind, e2, ok_bind]
      rfl
    · refine .inr ⟨?_, .inr (.inr ⟨n, s'.robot, h3, h4, hc⟩)⟩
      unfold IkProgram.control
      rw [hsave, ok_bind, e1, ok_bind, e2]
      rfl
  · refine .inr ⟨?_, h.elim .inl fun h => .inr (.inl h)⟩
    unfold IkProgram.control
    rw [hsave, ok_bind, e1]
    rfl

/-- **C96.** The control loop for any list of references: either there is a command for each of them, or there is an exception at the first
reference which cannot be approached from the state where the previous ones have brought the robot. -/
theorem C96_run (h0 : Ready r0) (hne : levels ≠ []) (hln : ∀ l ∈ levels, l ≠ []) (hB : SolvesIk B Inv r0 levels good hopeless)
    (k : StopKind) (par : WbcParameters) (wheels : Mat3 ℝ) {dt : ℝ} (hdt : 0 < dt) (qs : List MotionParameters)
    (hs : IkProgramReady r0 levels Inv s) (u : ℕ → ℕ → IkMemory) (command : RobotCommand ℝ) :
    (∃ s' cs, s.run B k par wheels dt u qs command = .ok (s', cs) ∧ IkProgramReady r0 levels Inv s' ∧
      Controlled (fun q r => good r (s.wbc.update root q)) (Stops k par) par.maximal_number_of_iterations wheels dt s.robot qs cs s'.robot) ∨
    (s.run B k par wheels dt u qs command = .error .thrown ∧ ∃ qs1 q qs2 cs r, qs = qs1 ++ q :: qs2 ∧
      Controlled (fun q r => good r (s.wbc.update root q)) (Stops k par) par.maximal_number_of_iterations wheels dt s.robot qs1 cs r ∧
      CannotApproach (good · (s.wbc.update root q)) (Stops k par q) (hopeless · (s.wbc.update root q)) par.maximal_number_of_iterations wheels dt r) := by
  induction qs generalizing s u command with
  | nil => exact .inl ⟨s, [], rfl, hs, .nil _⟩
  | cons q qs ih =>
    rcases C96_control h0 hne hln hB k par wheels hdt q hs (u 0) command with ⟨s1, c, n, e1, h1, hw, h2, h3, h4⟩ | ⟨e1, h⟩
    · rcases ih h1 (fun i => u (i + 1)) c with ⟨s', cs, e2, k1, k2⟩ | ⟨e2, qs1, q', qs2, cs, r, k1, k2, k3⟩
      · simp only [hw] at k2
        refine .inl ⟨s', c :: cs, ?_, k1, .cons h3 h2 h4 k2⟩
        unfold IkProgram.run
        simp only [e1, e2, ok_bind]
        rfl
      · simp only [hw] at k2 k3
        refine .inr ⟨?_, q :: qs1, q', qs2, c :: cs, r, by rw [k1]; rfl, .cons h3 h2 h4 k2, k3⟩
        unfold IkProgram.run
        simp only [e1, e2, ok_bind]
        rfl
    · refine .inr ⟨?_, [], q, qs, [], s.robot, rfl, .nil _, h⟩
      unfold IkProgram.run
      rw [e1]
      rfl

end

/-- **C96.** The references of the first test: each of them is 0.5 mm ahead of the previous one. -/
theorem C96_references (n : ℕ) (q : MotionParameters) : (references n q).length = n ∧ ∀ (i : ℕ) q', (references n q)[i]? = some q' →
    q'.base_com_position 0 = q.base_com_position 0 + (i + 1) * (5 / 10000) ∧
    q'.body_com_position 0 = q.body_com_position 0 + (i + 1) * (5 / 10000) ∧
    (∀ a, a ≠ 0 → q'.base_com_position a = q.base_com_position a ∧ q'.body_com_position a = q.body_com_position a) ∧
    q'.base_orientation_rpy = q.base_orientation_rpy := by
  induction n generalizing q with
  | zero => exact ⟨rfl, fun i q' h => by cases h⟩
  | succ n ih =>
    obtain ⟨h1, h2⟩ := ih (advanceReferences q)
    have hz : ∀ a : Fin 3, a ≠ 0 → (advanceReferences q).base_com_position a = q.base_com_position a ∧
        (advanceReferences q).body_com_position a = q.body_com_position a := by
      intro a ha
      fin_cases a
      · exact absurd rfl ha
      · exact ⟨rfl, rfl⟩
      · exact ⟨rfl, rfl⟩
    refine ⟨by simp [references, h1], fun i q' h => ?_⟩
    cases i with
    | zero =>
      obtain rfl := Option.some.inj (h : some (advanceReferences q) = some q')
      refine ⟨?_, ?_, hz, rfl⟩
      · show q.base_com_position 0 + 5 / 10000 = _
        push_cast
        ring
      · show q.body_com_position 0 + 5 / 10000 = _
        push_cast
        ring
    | succ i =>
      obtain ⟨g1, g2, g3, g4⟩ := h2 i q' h
      refine ⟨?_, ?_, fun a ha => ⟨(g3 a ha).1.trans (hz a ha).1, (g3 a ha).2.trans (hz a ha).2⟩, g4⟩
      · rw [g1]
        show q.base_com_position 0 + 5 / 10000 + _ = _
        push_cast
        ring
      · rw [g2]
        show q.body_com_position 0 + 5 / 10000 + _ = _
        push_cast
        ring

theorem controlled_length {good : MotionParameters → Robot root → (ℕ → ℝ) → Prop} {stops : MotionParameters → Robot root → (ℕ → ℝ) → Prop} {max : ℕ}
    {wheels : Mat3 ℝ} {t : ℝ} {r r' : Robot root} {qs : List MotionParameters} {cs : List (RobotCommand ℝ)}
    (h : Controlled good stops max wheels t r qs cs r') : cs.length = qs.length := by
  induction h with
  | nil => rfl
  | cons _ _ _ _ ih => simp [ih]

/-- **C96.** The first test, if it ends without an exception, makes 100 commands for 100 references, each of which is approached from the state where the previous
one has brought the robot. -/
theorem C96_test_001 {r0 : Robot root} {levels : List (List IkTask)} {Inv : SolverState σ → Prop} {s : IkProgram root σ} {B : IkSolver root σ}
    {good : Robot root → Wbc → (ℕ → ℝ) → Prop} {hopeless : Robot root → Wbc → Prop} (h0 : Ready r0) (hne : levels ≠ [])
    (hln : ∀ l ∈ levels, l ≠ []) (hB : SolvesIk B Inv r0 levels good hopeless) (par : WbcParameters) (wheels : Mat3 ℝ) {dt : ℝ}
    (hdt : 0 < dt) (q : MotionParameters) (hs : IkProgramReady r0 levels Inv s) (u : ℕ → ℕ → IkMemory) (command : RobotCommand ℝ)
    {s' : IkProgram root σ} {cs : List (RobotCommand ℝ)} (h : test_001 B par wheels dt u q s command = .ok (s', cs)) :
    cs.length = 100 ∧ Controlled (fun q r => good r (s.wbc.update root q)) (Stops .displacement par) par.maximal_number_of_iterations wheels dt s.robot
      (references 100 q) cs s'.robot := by
  rcases C96_run h0 hne hln hB .displacement par wheels hdt (references 100 q) hs u command with ⟨s1, cs1, e, -, h1⟩ | ⟨e, -⟩
  · obtain ⟨rfl, rfl⟩ := Prod.mk.inj (Except.ok.inj (e.symm.trans h))
    exact ⟨(controlled_length h1).trans (C96_references 100 q).1, h1⟩
  · cases e.symm.trans h

/-! ### What runs mean -/

section
variable {good : Robot root → (ℕ → ℝ) → Prop} {stops : Robot root → (ℕ → ℝ) → Prop} {r r' : Robot root} {n : ℕ} {b : Bool}

theorem run_same (h : Run good stops r n r' b) : SameIkRobot r r' := by
  induction h with
  | start r => exact .same
  | stop _ _ => exact .update _ .same
  | go _ _ _ ih =>
    clear * - ih
    induction ih with
    | same => exact .update _ .same
    | update g _ ih => exact .update g ih

theorem run_constraints (h : Run good stops r n r' b) : r'.constraints = r.constraints := by
  induction h with
  | start r => rfl
  | stop _ _ => rfl
  | go _ _ _ ih => exact ih

/-- **C96.** A run which has stopped: there is a last displacement, it is a good one, it gives a reason to stop. -/
theorem C96_last (h : Run good stops r n r' true) : ∃ r1 x m, n = m + 1 ∧ Run good stops r m r1 false ∧ good r1 x ∧ r' = movedBy r1 x 1 ∧ stops r' x := by
  generalize hb : true = b at h
  induction h with
  | start r => cases hb
  | @stop r x hg hs => exact ⟨r, x, 0, rfl, .start _, hg, rfl, hs⟩
  | go hg hs _ ih =>
    obtain ⟨r1, y, m, h1, h2, h3, h4, h5⟩ := ih hb
    exact ⟨r1, y, m + 1, by omega, .go hg hs h2, h3, h4, h5⟩

/-- **C96.** With limits on the first level the angles of the joints are within the limits after any displacement. -/
theorem C96_limits {ks0 ks1 : List IkTask} {S : (ℕ → ℝ) → Prop} {w : Wbc} (hk : .jointsBounds ∈ ks0)
    (h : Run (BestStep ks0 ks1 S · w) stops r n r' b) (hn : n ≠ 0) (j : Fin 15) :
    r.constraints.joint_position_bounds_min j ≤ r'.state.joint_angles j ∧ r'.state.joint_angles j ≤ r.constraints.joint_position_bounds_max j := by
  induction h with
  | start r => exact absurd rfl hn
  | stop hg _ =>
    obtain ⟨L, -, hb⟩ := hg
    exact hb.achieves _ hk j
  | @go r r' x m b hg _ h ih =>
    rcases Nat.eq_zero_or_pos m with rfl | hm
    · cases h
      obtain ⟨L, -, hb⟩ := hg
      exact hb.achieves _ hk j
    · exact ih (by omega)

/-- **C96.** With fixed arms or a fixed head on the first level these joints do not move in any number of displacements. -/
theorem C96_fixed {ks0 ks1 : List IkTask} {S : (ℕ → ℝ) → Prop} {w : Wbc} (h : Run (BestStep ks0 ks1 S · w) stops r n r' b) (j : Joint)
    (hj : .fixArms ∈ ks0 ∧ IsArmJoint j = true ∨ .fixHead ∈ ks0 ∧ IsHeadJoint j = true) :
    r'.state.joint_angles (jointId root j) = r.state.joint_angles (jointId root j) := by
  have step : ∀ {r : Robot root} {x}, BestStep ks0 ks1 S r w x →
      (movedBy r x 1).state.joint_angles (jointId root j) = r.state.joint_angles (jointId root j) := by
    rintro r x ⟨L, -, hb⟩
    rcases hj with ⟨h1, h2⟩ | ⟨h1, h2⟩
    · exact hb.achieves _ h1 j h2
    · exact hb.achieves _ h1 j h2
  induction h with
  | start r => rfl
  | stop hg _ => exact step hg
  | go hg _ _ ih => exact ih.trans (step hg)

end

/-- **C96.** The same for the control loop: all commands keep the angles of the fixed joints. -/
theorem C96_fixed_commands {ks0 ks1 : List IkTask} {S : (ℕ → ℝ) → Prop} {w : MotionParameters → Wbc}
    {stops : MotionParameters → Robot root → (ℕ → ℝ) → Prop} {max : ℕ} {wheels : Mat3 ℝ} {t : ℝ} {r r' : Robot root} {qs : List MotionParameters}
    {cs : List (RobotCommand ℝ)} (h : Controlled (fun q r => BestStep ks0 ks1 S r (w q)) stops max wheels t r qs cs r') (j : Joint)
    (hj : .fixArms ∈ ks0 ∧ IsArmJoint j = true ∨ .fixHead ∈ ks0 ∧ IsHeadJoint j = true) :
    ∀ c ∈ cs, c.joint_angles (jointId root j) = .fin (r.state.joint_angles (jointId root j)) := by
  induction h with
  | nil => exact fun c hc => by cases hc
  | @cons r r1 r2 q qs c cs n hrun _ hc _ ih =>
    intro c' hc'
    have hfix := C96_fixed hrun j hj
    rcases List.mem_cons.1 hc' with rfl | hc'
    · obtain ⟨p, p', R, R', v, w, -, -, -, -, -, -, -, -, -, rfl⟩ := hc
      exact congrArg Dbl.fin hfix
    · rw [← hfix]
      exact ih c' hc'

/-! ### How close the robot is when it stops -/

theorem rate_bound (J : Mat ℝ) (hc : J.cols = root.dof + 15) {tol : ℝ} {x : ℕ → ℝ} (h : SmallDisplacement root tol x) (a : ℕ) :
    |rate J x a| ≤ (∑ v ∈ Finset.range (root.dof + 15), |J.e a v|) * tol := by
  unfold rate
  rw [hc, Finset.sum_mul]
  refine (Finset.abs_sum_le_sum_abs _ _).trans (Finset.sum_le_sum fun v hv => ?_)
  rw [abs_mul]
  exact mul_le_mul_of_nonneg_left (h v (Finset.mem_range.1 hv)).le (abs_nonneg _)

/-- **C96.** A small displacement which does what a task for the centre of mass of the base asks for means that the base is close to its reference: the
error is bounded by the displacement multiplied by a number which depends only on the state of the robot. -/
theorem C96_close_base {r : Robot root} (h : Ready r) : ∃ P C, r.getBaseCoM = .ok P ∧ ∀ (w : Wbc) (x : ℕ → ℝ) (tol gain k : ℝ),
    SmallDisplacement root tol x → Achieves r w x (.baseCoM gain k) →
    ∀ a ∈ baseAxes root, |k| * |w.motion_parameters.base_com_position a - P a| ≤ C * tol := by
  obtain ⟨P, J, h1, -, -, hc, h2⟩ := base_point h
  refine ⟨P, ∑ i ∈ Finset.range 3, ∑ v ∈ Finset.range (root.dof + 15), |J.e i v|, h1, ?_⟩
  rintro w x tol gain k hx ⟨P', V, hP, hV⟩ a ha
  obtain ⟨rfl, rfl⟩ := pointMoves_same hP (h2 x)
  rw [← abs_mul, ← hV a ha]
  refine (rate_bound J hc hx a).trans (mul_le_mul_of_nonneg_right ?_ ?_)
  · exact Finset.single_le_sum (f := fun i => ∑ v ∈ Finset.range (root.dof + 15), |J.e i v|)
      (fun i _ => Finset.sum_nonneg fun v _ => abs_nonneg _) (Finset.mem_range.2 a.isLt)
  · exact (abs_nonneg _).trans (hx 0 (by omega)).le

/-- **C96.** The same for the body. -/
theorem C96_close_body {r : Robot root} (h : Ready r) : ∃ P C, r.getBodyCoM = .ok P ∧ ∀ (w : Wbc) (x : ℕ → ℝ) (tol gain k : ℝ) (f : BitVec 32),
    SmallDisplacement root tol x → Achieves r w x (.bodyCoM gain k f) →
    ∀ a ∈ flagAxes f, |k| * |w.motion_parameters.body_com_position a - P a| ≤ C * tol := by
  obtain ⟨P, J, h1, -, -, hc, h2⟩ := body_point h
  refine ⟨P, ∑ i ∈ Finset.range 3, ∑ v ∈ Finset.range (root.dof + 15), |J.e i v|, h1, ?_⟩
  rintro w x tol gain k f hx ⟨P', V, hP, hV⟩ a ha
  obtain ⟨rfl, rfl⟩ := pointMoves_same hP (h2 x)
  rw [← abs_mul, ← hV a ha]
  refine (rate_bound J hc hx a).trans (mul_le_mul_of_nonneg_right ?_ ?_)
  · exact Finset.single_le_sum (f := fun i => ∑ v ∈ Finset.range (root.dof + 15), |J.e i v|)
      (fun i _ => Finset.sum_nonneg fun v _ => abs_nonneg _) (Finset.mem_range.2 a.isLt)
  · exact (abs_nonneg _).trans (hx 0 (by omega)).le

/-! ### Feasibility of points -/

section
variable {r0 : Robot root} {levels : List (List IkTask)} {Inv : SolverState σ → Prop} {s : IkProgram root σ} {B : IkSolver root σ}
  {good : Robot root → Wbc → (ℕ → ℝ) → Prop} {hopeless : Robot root → Wbc → Prop}

/-- **C96.** The meaning of feasibility flags, where `r'` is the robot at the end of the loop: -1 if it is close to the references; otherwise 4 if limits are violated;
otherwise 3 if the displacements became small, 1 if the number of iterations is maximal, 2 if the solver has failed. There is no exception. -/
theorem C96_feasibility (h0 : Ready r0) (hne : levels ≠ []) (hln : ∀ l ∈ levels, l ≠ []) (hB : SolvesIk B Inv r0 levels good hopeless)
    (par : WbcParameters) (q : MotionParameters) (hs : IkProgramReady r0 levels Inv s) (u : ℕ → IkMemory) :
    ∃ flag n r' stopped, feasibility B par u q s = .ok flag ∧
      Run (good · (s.wbc.update root q)) (Stops .displacement par q) s.robot n r' stopped ∧ n ≤ par.maximal_number_of_iterations ∧
      (flag = -1 ↔ CloseTo r' q par.motion_parameters_tolerance) ∧
      (flag = 4 ↔ ¬ CloseTo r' q par.motion_parameters_tolerance ∧ ¬ JointsAllowed r') ∧
      (flag = 3 ↔ ¬ CloseTo r' q par.motion_parameters_tolerance ∧ JointsAllowed r' ∧ stopped = true) ∧
      (flag = 1 → stopped = false ∧ n = par.maximal_number_of_iterations) ∧
      (flag = 2 → stopped = false ∧ n < par.maximal_number_of_iterations ∧ hopeless r' (s.wbc.update root q)) ∧
      (flag = -1 ∨ flag = 1 ∨ flag = 2 ∨ flag = 3 ∨ flag = 4) := by
  have hr := sameRobot_ready h0 hs.robot
  obtain ⟨p, R, hp, hR⟩ := base_pose hr
  have hsave := saveCurrentState_ok hp hR
  obtain ⟨s', n, o, e, h1, -, h⟩ := loop_ok h0 hne hln hB .displacement par q par.maximal_number_of_iterations hs u
  obtain ⟨er, e2, hclose⟩ := stateError_close (sameRobot_ready h0 h1.robot) q par.motion_parameters_tolerance
  have hpos := C63_positions s'.robot.constraints (fun i => Dbl.fin (s'.robot.state.joint_angles i))
  have key : ∃ base, (base = 1 ∧ o = .exhausted ∨ base = 2 ∧ o = .failed .thrown ∨ base = 3 ∧ o = .done) ∧
      feasibility B par u q s = .ok (if errorSize er < par.motion_parameters_tolerance then -1 else
        if s'.robot.checkCurrentState = .ok () then base else 4) := by
    have hcur : s'.robot.checkCurrentState = .ok () ∨ s'.robot.checkCurrentState = .error .thrown := ok_or_thrown hpos
    rcases h with ⟨rfl, -⟩ | ⟨rfl, -⟩ | ⟨rfl, -⟩
    · refine ⟨3, .inr (.inr ⟨rfl, rfl⟩), ?_⟩
      unfold feasibility
      rw [hsave, ok_bind, e, ok_bind]
      rcases hcur with hc | hc <;>
      · simp only [hc, e2, pure_eq_ok, ok_bind]
        split_ifs <;> first | rfl | simp_all
    · refine ⟨1, .inl ⟨rfl, rfl⟩, ?_⟩
      unfold feasibility
      rw [hsave, ok_bind, e, ok_bind]
      rcases hcur with hc | hc <;>
      · simp only [hc, e2, pure_eq_ok, ok_bind]
        split_ifs <;> first | rfl | simp_all
    · refine ⟨2, .inr (.inl ⟨rfl, rfl⟩), ?_⟩
      unfold feasibility
      rw [hsave, ok_bind, e, ok_bind]
      rcases hcur with hc | hc <;>
      · simp only [hc, e2, pure_eq_ok, ok_bind]
        split_ifs <;> first | rfl | simp_all
  obtain ⟨base, hbase, hf⟩ := key
  have hcur : s'.robot.checkCurrentState = .ok () ↔ JointsAllowed s'.robot := hpos.1
  by_cases hC : CloseTo s'.robot q par.motion_parameters_tolerance
  · rw [if_pos (hclose.2 hC)] at hf
    rcases h with ⟨-, h3, h4⟩ | ⟨-, h3, h4⟩ | ⟨-, h3, h4, -⟩
    · exact ⟨_, n, s'.robot, true, hf, h4, h3, by simp [hC]⟩
    · exact ⟨_, n, s'.robot, false, hf, h4, h3.le, by simp [hC]⟩
    · exact ⟨_, n, s'.robot, false, hf, h4, h3.le, by simp [hC]⟩
  · rw [if_neg (fun hc => hC (hclose.1 hc))] at hf
    by_cases hJ : JointsAllowed s'.robot
    · rw [if_pos (hcur.2 hJ)] at hf
      rcases h with ⟨rfl, h3, h4⟩ | ⟨rfl, h3, h4⟩ | ⟨rfl, h3, h4, h5⟩
      · obtain rfl : base = 3 := by rcases hbase with ⟨-, h⟩ | ⟨-, h⟩ | ⟨h, -⟩ <;> first | exact h | cases h
        exact ⟨_, n, s'.robot, true, hf, h4, h3, by simp [hC, hJ]⟩
      · obtain rfl : base = 1 := by rcases hbase with ⟨h, -⟩ | ⟨-, h⟩ | ⟨-, h⟩ <;> first | exact h | cases h
        exact ⟨_, n, s'.robot, false, hf, h4, h3.le, by simp [hC, hJ, h3]⟩
      · obtain rfl : base = 2 := by rcases hbase with ⟨-, h⟩ | ⟨h, -⟩ | ⟨-, h⟩ <;> first | exact h | cases h
        exact ⟨_, n, s'.robot, false, hf, h4, h3.le, by simp [hC, hJ, h3, h5]⟩
    · rw [if_neg (fun hc => hJ (hcur.1 hc))] at hf
      rcases h with ⟨-, h3, h4⟩ | ⟨-, h3, h4⟩ | ⟨-, h3, h4, -⟩
      · exact ⟨_, n, s'.robot, true, hf, h4, h3, by simp [hC, hJ]⟩
      · exact ⟨_, n, s'.robot, false, hf, h4, h3.le, by simp [hC, hJ]⟩
      · exact ⟨_, n, s'.robot, false, hf, h4, h3.le, by simp [hC, hJ]⟩

end

/-- The values of the loop. -/
theorem gridValues_eq {last step : ℝ} (n : ℕ) {first : ℝ} (h1 : ∀ i < n, first + i * step ≤ last) (h2 : last < first + n * step) (fuel : ℕ)
    (hf : n ≤ fuel) : gridValues last step (fuel + 1) first = (List.range n).map fun i : ℕ => first + i * step := by
  induction n generalizing first fuel with
  | zero =>
    have : ¬ first ≤ last := by simpa using h2
    simp [gridValues, this]
  | succ n ih =>
    obtain ⟨fuel, rfl⟩ : ∃ f, fuel = f + 1 := ⟨fuel - 1, by omega⟩
    have h0 : first ≤ last := by simpa using h1 0 (by omega)
    rw [gridValues, if_pos h0, ih (first := first + step) (fun i hi => by
      have := h1 (i + 1) (by omega)
      push_cast at this
      linarith) (by push_cast at h2; linarith) fuel (by omega), List.range_succ_eq_map, List.map_cons, List.map_map]
    congr 1
    · simp
    · refine List.map_congr_left fun i _ => ?_
      simp only [Function.comp]
      push_cast
      ring

/-- **C96.** The loops over coordinates of points end; they visit equidistant values up to the last one, and there are never more of them than places in the matrix
of points. -/
theorem C96_grid {first last step : ℝ} (hs : 0 < step) (h : first ≤ last) : ∃ n : ℕ, 0 < n ∧ (n : ℤ) ≤ gridSize first last step ∧
    first + (n - 1) * step ≤ last ∧ last < first + n * step ∧
    ∀ fuel, n ≤ fuel → gridValues last step (fuel + 1) first = (List.range n).map fun i : ℕ => first + i * step := by
  have hq : 0 ≤ (last - first) / step := div_nonneg (by linarith) hs.le
  obtain ⟨m, hm⟩ := Int.eq_ofNat_of_zero_le (Int.floor_nonneg.2 hq)
  have h1 : (m : ℝ) ≤ (last - first) / step := by
    have := Int.floor_le ((last - first) / step)
    rw [hm] at this
    exact_mod_cast this
  have h2 : (last - first) / step < m + 1 := by
    have := Int.lt_floor_add_one ((last - first) / step)
    rw [hm] at this
    exact_mod_cast this
  rw [le_div_iff₀ hs] at h1
  rw [div_lt_iff₀ hs] at h2
  refine ⟨m + 1, by omega, ?_, by push_cast; linarith, by push_cast; linarith, fun fuel hf => gridValues_eq (m + 1) (fun i hi => ?_) (by push_cast; linarith) fuel hf⟩
  · unfold gridSize
    rw [round_eq]
    have : ⌊(last - first) / step⌋ ≤ ⌊(last - first) / step + 1 / 2⌋ := Int.floor_mono (by linarith)
    push_cast
    omega
  · have : (i : ℝ) ≤ m := by exact_mod_cast Nat.lt_succ_iff.1 hi
    nlinarith

/-- **C96.** The grid of the third test has 21 x 21 x 11 points, as many as there are places for them. -/
theorem C96_grid_test_003 (fuel : ℕ) (hf : 21 ≤ fuel) :
    gridSize (-15 / 100) (15 / 100 + 1 / 10 ^ 6) (15 / 1000) = 21 ∧ gridSize (-1 / 10) (1 / 10 + 1 / 10 ^ 6) (1 / 100) = 21 ∧
    gridSize (-1 / 10) (1 / 10 ^ 6) (1 / 100) = 11 ∧
    (gridValues (15 / 100 + 1 / 10 ^ 6) (15 / 1000) (fuel + 1) (-15 / 100)).length = 21 ∧
    (gridValues (1 / 10 + 1 / 10 ^ 6) (1 / 100) (fuel + 1) (-1 / 10)).length = 21 ∧
    (gridValues (1 / 10 ^ 6) (1 / 100) (fuel + 1) (-1 / 10)).length = 11 := by
  have len : ∀ (first last step : ℝ) (n : ℕ), n ≤ fuel → 0 < step → first + (n - 1) * step ≤ last → last < first + n * step →
      (gridValues last step (fuel + 1) first).length = n := by
    intro first last step n hn hs h1 h2
    rw [gridValues_eq n (fun i hi => ?_) h2 fuel hn, List.length_map, List.length_range]
    have : (i : ℝ) + 1 ≤ n := by exact_mod_cast hi
    nlinarith
  refine ⟨?_, ?_, ?_, ?_, ?_, ?_⟩
  · have : ⌊((15 / 100 + 1 / 10 ^ 6 - -15 / 100) / (15 / 1000) + 1 / 2 : ℝ)⌋ = 20 := by
      rw [Int.floor_eq_iff]
      norm_num
    rw [gridSize, round_eq, this]
    rfl
  · have : ⌊((1 / 10 + 1 / 10 ^ 6 - -1 / 10) / (1 / 100) + 1 / 2 : ℝ)⌋ = 20 := by
      rw [Int.floor_eq_iff]
      norm_num
    rw [gridSize, round_eq, this]
    rfl
  · have : ⌊((1 / 10 ^ 6 - -1 / 10) / (1 / 100) + 1 / 2 : ℝ)⌋ = 10 := by
      rw [Int.floor_eq_iff]
      norm_num
    rw [gridSize, round_eq, this]
    rfl
  · exact len _ _ _ 21 hf (by norm_num) (by norm_num) (by norm_num)
  · exact len _ _ _ 21 hf (by norm_num) (by norm_num) (by norm_num)
  · exact len _ _ _ 11 (by omega) (by norm_num) (by norm_num) (by norm_num)

/-- **C96.** The third test, with its hierarchy and qpOASES, from a state within the limits: the limits are never violated, so that the flag is not 4, and a point with
the flag -1 is reached within the limits, with the arms and the head in their places. The flag 2 with a solver which solves all feasible problems means that the
base cannot be kept in its place within the limits. -/
theorem C96_test_003 {r0 : Robot root} {s : IkProgram root (QpoasesMem ℝ)} {ext : Qpoases ℝ} (hext : TrustedSolver ext) (h0 : Ready r0)
    (par : WbcParameters) (q : MotionParameters)
    (hs : IkProgramReady r0 hierarchy01 (fun s => s.params = SolverParameters.default) s) (u : ℕ → IkMemory) (htol : 0 ≤ s.robot.constraints.error_tol)
    (hin : JointsAllowed s.robot) :
    ∃ (flag : ℤ) (r' : Robot root), feasibility (qpoasesIk ext) par u q s = .ok flag ∧ JointsAllowed r' ∧
      (∀ j, IsArmJoint j = true ∨ IsHeadJoint j = true → r'.state.joint_angles (jointId root j) = s.robot.state.joint_angles (jointId root j)) ∧
      (flag = -1 ↔ CloseTo r' q par.motion_parameters_tolerance) ∧ (flag = -1 ∨ flag = 1 ∨ flag = 2 ∨ flag = 3) ∧
      (flag = 2 → CompleteSolver ext → ∀ y, BelowInfinity root y →
        ¬ (Achieves r' (s.wbc.update root q) y (.baseCoM 1 1) ∧ Achieves r' (s.wbc.update root q) y (.baseOrientation 1 1) ∧
          Achieves r' (s.wbc.update root q) y .fixArms ∧ Achieves r' (s.wbc.update root q) y .fixHead ∧ StaysWithinLimits r' y)) := by
  have hB := C96_qpoases (ks0 := [.baseCoM 1 1, .baseOrientation 1 1, .fixArms, .fixHead, .jointsBounds]) (ks1 := [.bodyCoM 1 1 7#32]) h0
    (fun k hk => by
      simp only [List.mem_cons, List.not_mem_nil, or_false] at hk
      rcases hk with rfl | rfl | rfl | rfl | rfl <;> simp [Weighted, Exact, CanConstrain])
    (fun k hk => by
      simp only [List.mem_cons, List.not_mem_nil, or_false] at hk
      subst hk
      trivial) hext
  obtain ⟨flag, n, r', stopped, h1, h2, -, h4, h5, -, -, h6, h7⟩ := C96_feasibility h0 (by simp [hierarchy01]) (by simp [hierarchy01]) hB par q hs u
  have hall : JointsAllowed r' := by
    rcases Nat.eq_zero_or_pos n with rfl | hn
    · cases h2
      exact hin
    · intro i
      have := C96_limits (by simp) h2 (by omega) i
      rw [run_constraints h2]
      exact ⟨by linarith [this.1], by linarith [this.2]⟩
  refine ⟨flag, r', h1, hall, fun j hj => ?_, h4, ?_, fun hf hc y hy => ?_⟩
  · exact C96_fixed h2 j (hj.imp (fun h => ⟨by simp, h⟩) fun h => ⟨by simp, h⟩)
  · rcases h7 with h | h | h | h | h
    · exact .inl h
    · exact .inr (.inl h)
    · exact .inr (.inr (.inl h))
    · exact .inr (.inr (.inr h))
    · exact absurd hall (h5.1 h).2
  · rintro ⟨a1, a2, a3, a4, a5⟩
    obtain ⟨k, hk, hna⟩ := (h6 hf).2.2 hc (.inl (by simp)) y hy
    simp only [List.mem_cons, List.not_mem_nil, or_false] at hk
    rcases hk with rfl | rfl | rfl | rfl | rfl
    · exact hna a1
    · exact hna a2
    · exact hna a3
    · exact hna a4
    · exact hna a5

/-! ### Examples -/

/-- There are programs as in the theorems: with a robot, a hierarchy and qpOASES. -/
theorem program_exists (root : Root) (p : IkProblem root) (w : Wbc) (m : QpoasesMem ℝ) (sol : Solution ℝ) :
    ∃ (r : Robot root) (s : IkProgram root (QpoasesMem ℝ)), Ready r ∧ s.robot = r ∧
      IkProgramReady r hierarchy01 (fun s => s.params = SolverParameters.default) s := by
  obtain ⟨r, h1, -⟩ := ready_exists root
  obtain ⟨p1, e1⟩ := C95_setup hierarchy01 p
  refine ⟨r, ⟨r, w, p1, ⟨.default, m⟩, sol⟩, h1, rfl, ⟨.same, .setup e1, rfl, fun r' q _ l hl k hk => ?_⟩⟩
  simp only [hierarchy01, List.mem_cons, List.not_mem_nil, or_false] at hl
  rcases hl with rfl | rfl
  · simp only [List.mem_cons, List.not_mem_nil, or_false] at hk
    rcases hk with rfl | rfl | rfl | rfl | rfl <;> trivial
  · simp only [List.mem_cons, List.not_mem_nil, or_false] at hk
    subst hk
    refine ⟨by decide, fun i hi => ?_⟩
    rw [BitVec.getLsbD, Nat.testBit_lt_two_pow]
    calc (7#32).toNat < 2 ^ 3 := by decide
      _ ≤ 2 ^ i := Nat.pow_le_pow_right (by omega) hi

/-- The loops of such a program have the results which are described above. -/
example (root : Root) (p : IkProblem root) (w : Wbc) (m : QpoasesMem ℝ) (sol : Solution ℝ) (par : WbcParameters) (q : MotionParameters)
    (u : ℕ → IkMemory) : ∃ (s : IkProgram root (QpoasesMem ℝ)) (ext : Qpoases ℝ) (flag : ℤ), feasibility (qpoasesIk ext) par u q s = .ok flag := by
  obtain ⟨r, s, h1, -, h2⟩ := program_exists root p w m sol
  obtain ⟨ext, h3, -⟩ := exists_solver
  obtain ⟨flag, -, -, -, e, -⟩ := C96_feasibility h1 (by simp [hierarchy01]) (by simp [hierarchy01])
    (C96_qpoases (ks0 := [.baseCoM 1 1, .baseOrientation 1 1, .fixArms, .fixHead, .jointsBounds]) (ks1 := [.bodyCoM 1 1 7#32]) h1
    (fun k hk => by
      simp only [List.mem_cons, List.not_mem_nil, or_false] at hk
      rcases hk with rfl | rfl | rfl | rfl | rfl <;> simp [Weighted, Exact, CanConstrain])
    (fun k hk => by
      simp only [List.mem_cons, List.not_mem_nil, or_false] at hk
      subst hk
      trivial) h3) par q h2 u
  exact ⟨s, ext, flag, e⟩

theorem exists_trusted_sizes : ∃ D : Decompositions ℝ, Trusted D ∧ RightSizes D := by
  classical
  obtain ⟨D, hD⟩ := exists_trusted (K := ℝ)
  refine ⟨⟨fun M v => if (D.lu M v).n = M.cols then D.lu M v else ⟨M.cols, fun _ => 0⟩,
    fun M v => if (D.qr M v).n = M.cols then D.qr M v else ⟨M.cols, fun _ => 0⟩, D.llt⟩, ⟨fun M v h1 h2 h3 => ?_, fun M v h1 h2 h3 => ?_, hD.llt⟩,
    fun M v => ⟨?_, ?_⟩⟩
  · simp only [if_pos (hD.lu M v h1 h2 h3).1]
    exact hD.lu M v h1 h2 h3
  · simp only [if_pos (hD.qr M v h1 h2 h3).1]
    exact hD.qr M v h1 h2 h3
  · dsimp only
    split_ifs with h
    · exact h
    · rfl
  · dsimp only
    split_ifs with h
    · exact h
    · rfl

/-- All coordinates are regular if one variable is fixed by the first level and the second one prefers that nothing moves. -/
theorem regular_example {r0 r : Robot root} (h0 : Ready r0) (hs : SameIkRobot r0 r) (w : Wbc) (q : MotionParameters) :
    RegularAt r0 [.zeroSelected 1 ⟨1, fun _ => 0⟩] [.zeroVariables 1 ""] r (w.update root q) := by
  intro p p' u old qp L0 L1 hp e hL hq
  have ha : ∀ l ∈ [[IkTask.zeroSelected 1 ⟨1, fun _ => 0⟩], [IkTask.zeroVariables 1 ""]], ∀ k ∈ l, Applicable r (w.update root q) k := by
    refine two_levels fun k hk => ?_
    simp only [List.cons_append, List.nil_append, List.mem_cons, List.not_mem_nil, or_false] at hk
    rcases hk with rfl | rfl
    · exact ⟨by simp, fun i _ => by simp⟩
    · exact .inr (.inr rfl)
  obtain ⟨hr, hf, hl, hi⟩ := ik_solvable h0 hp hs ha e
  rw [hL] at hl
  obtain ⟨hm0, hl'⟩ := List.forall₂_cons.1 hl
  obtain ⟨hm1, -⟩ := List.forall₂_cons.1 hl'
  have hpref0 : ∀ ti ∈ L0.tasks, CanMinimise ti.task.ctr := fun ti hti => by
    obtain ⟨k, hk, h⟩ := (levelMeans_mem hm0).1 ti hti
    simp only [List.mem_cons, List.not_mem_nil, or_false] at hk
    subst hk
    exact means_equality h trivial
  have hpref1 : ∀ ti ∈ L1.tasks, CanMinimise ti.task.ctr := fun ti hti => by
    obtain ⟨k, hk, h⟩ := (levelMeans_mem hm1).1 ti hti
    simp only [List.mem_cons, List.not_mem_nil, or_false] at hk
    subst hk
    exact means_equality h trivial
  obtain ⟨D, hD⟩ := exists_trusted (K := ℝ)
  obtain ⟨sol, -, hsol, -⟩ := initSolution_ok (root := root) ⟨Wbc.solutionStructure root, [], .undefined⟩ (fun _ => 0)
  obtain ⟨qp', q1, q2, q3, -⟩ := C43_hierarchy hD (p := ⟨.lu, 0⟩) (.inl rfl) (fun _ => 0) hf hr hL hi (fun ti hti => (hpref0 ti hti).1) hpref1
    u.objective u.constraints old sol (by rw [hsol, structure_nvars])
  obtain rfl := Except.ok.inj (hq.symm.trans q1)
  have hlev := fun x => C95_level hm0 (fun k hk => by
    simp only [List.mem_cons, List.not_mem_nil, or_false] at hk
    subst hk
    exact one_ne_zero) x
  have hfeas : ∀ x, Feasible qp.equalities.A qp.equalities.b x ↔ x 0 = 0 := by
    intro x
    rw [q3 x]
    refine ⟨fun h => (hlev x).1 h (.zeroSelected 1 ⟨1, fun _ => 0⟩) (by simp) 0 (by decide), fun h => (hlev x).2 (fun k hk => ?_) fun k hk => ?_⟩
    · simp only [List.mem_cons, List.not_mem_nil, or_false] at hk
      subst hk
      trivial
    · simp only [List.mem_cons, List.not_mem_nil, or_false] at hk
      subst hk
      exact fun i _ => h
  have hrows : qp.equalities.A.rows = 1 := by
    obtain ⟨M0, hr0, hM0⟩ := hierarchy_level hf hr (L' := L0) (by simp [hL])
    obtain ⟨ke, ki, k1, -, k3, -⟩ := C09_split hr0 hM0 (hi L0 (by simp [hL])) u.constraints
    obtain ⟨-, -, -, -, -, -, -, -, c2, -⟩ := C07_layout hr0 hM0
    have hall : (L0.tasks.filter fun ti => ti.task.ctr.ctype.isEquality) = L0.tasks :=
      List.filter_eq_self.mpr fun ti hti => (hpref0 ti hti).1
    have hke : qp.equalities = ke := by
      unfold kktInitialize Hierarchy.getQPProblem at hq
      rw [hL, assertThat_true (by simp), ok_bind] at hq
      simp only at hq
      rcases e1 : QPObjective.initialize old.objective u.objective L1 true with er | o
      · rw [e1] at hq
        cases hq
      · simp only [e1, ok_bind] at hq
        rcases e2 : QPConstraintsAB.initialize u.constraints L0 (root.dof + 15) with er | c
        · rw [e2] at hq
          cases hq
        · rw [e2] at hq
          obtain rfl := Except.ok.inj (hq : Except.ok ⟨o, c⟩ = Except.ok qp)
          unfold QPConstraintsAB.initialize at e2
          rcases e3 : assertThat (L0.isEquality = true) with er | _
          · rw [e3] at e2
            cases e2
          · rw [e3, ok_bind, k1] at e2
            exact (Except.ok.inj e2).symm
    rw [hke, k3, c2, hall]
    obtain ⟨cs, g1, g2⟩ := hm0
    obtain ⟨c, cs', gc, gn, rfl⟩ := List.forall₂_cons_right_iff.1 g2
    cases gn
    have hm : L0.tasks.map (fun ti => ti.task.ctr) = [c] := List.perm_singleton.1 g1
    have hsum : totalRows L0.tasks = ((L0.tasks.map fun ti => ti.task.ctr).map rows).sum := by
      rw [List.map_map]
      rfl
    rw [hsum, hm]
    simpa using gc.2.2.1
  have hA0 : ∀ d : ℕ → ℝ, (∑ j ∈ Finset.range qp.equalities.A.cols, qp.equalities.A.e 0 j * d j = 0) ↔ d 0 = 0 := by
    intro d
    have hb : qp.equalities.b.e 0 = 0 := by
      have := (hfeas fun _ => 0).2 rfl 0 (by omega)
      simpa using this.symm
    rw [← hfeas d]
    refine ⟨fun h k hk => ?_, fun h => (h 0 (by omega)).trans hb⟩
    obtain rfl : k = 0 := by omega
    exact h.trans hb.symm
  refine ⟨fun l hl k hk => ?_, fun d h1 h2 j hj => ?_⟩
  · obtain rfl : k = 0 := by omega
    rw [hrows] at hl
    by_contra hne
    have : ∀ j < qp.equalities.A.cols, qp.equalities.A.e 0 j = 0 := by
      intro j hj
      have := hl j hj
      simp only [Finset.sum_range_one] at this
      exact (mul_eq_zero.1 this).resolve_right hne
    have h1 := (hA0 fun _ => 1).1 (Finset.sum_eq_zero fun j hj => by rw [this j (Finset.mem_range.1 hj), zero_mul])
    exact one_ne_zero h1
  · obtain ⟨ti, hti, -, -, hpen⟩ := (levelMeans_mem hm1).2 (.zeroVariables 1 "") (by simp)
    obtain ⟨i, hi, hv⟩ := hpen.covers j (.inr (.inr ⟨rfl, hj⟩))
    have ht : target ti.task.ctr i = 0 := by
      have := hv fun _ => 0
      rw [lhs_zero] at this
      linarith
    have := hv d
    rw [h2 ti hti i hi, ht] at this
    linarith

/-- A solver for such tasks. -/
example {r0 : Robot root} (h0 : Ready r0) : ∃ D : Decompositions ℝ,
    SolvesIk (kktIk D KktParameters.default) (fun s => s.params = SolverParameters.default) r0
      [[.zeroSelected 1 ⟨1, fun _ => 0⟩], [.zeroVariables 1 ""]]
      (fun r w x => RegularAt r0 [.zeroSelected 1 ⟨1, fun _ => 0⟩] [.zeroVariables 1 ""] r w →
        BestStep [.zeroSelected 1 ⟨1, fun _ => 0⟩] [.zeroVariables 1 ""] (fun _ => True) r w x) (fun _ _ => False) := by
  obtain ⟨D, h1, h2⟩ := exists_trusted_sizes
  refine ⟨D, C96_kkt h0 (fun k hk => ?_) (fun k hk => ?_) h1 h2 (.inl rfl)⟩
  · simp only [List.mem_cons, List.not_mem_nil, or_false] at hk
    subst hk
    exact ⟨one_ne_zero, trivial⟩
  · simp only [List.cons_append, List.nil_append, List.mem_cons, List.not_mem_nil, or_false] at hk
    rcases hk with rfl | rfl <;> trivial

end Ik

end Humoto
