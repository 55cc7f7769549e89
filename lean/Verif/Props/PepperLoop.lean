import Verif.Spec.PepperLoop
import Verif.Props.IkProgram
import Verif.Props.PepperProgram

/-!
# The closed loop of Pepper (C98)
-/

namespace Humoto

namespace Closed

open Spec Spec.Ik Spec.Rbdl Spec.Closed Ik Bridge
open scoped Matrix

variable {σ : Type}

/-! ### Queues -/

theorem queueAfter_zero {Q : List (Pepper.MotionParameters ℝ)} (h : ∀ m ∈ Q, ProperMotion m) : QueueAfter Q 0 Q := by
  refine ⟨h, fun t _ c => by simp, fun m _ => Iff.rfl, fun hu => ?_⟩
  have : 0 ≤ totalDuration Q := by
    unfold totalDuration
    refine List.sum_nonneg fun x hx => ?_
    obtain ⟨m, hm, rfl⟩ := List.mem_map.1 hx
    exact ((h m hm).resolve_left (hu m hm)).1
  simp [this]

theorem queueAfter_shift {Q q : List (Pepper.MotionParameters ℝ)} {a : ℕ} (h : QueueAfter Q a q) (p : Pepper.MPCParameters) (t : ℕ) :
    QueueAfter Q (a + t) (Pepper.shiftQueue p q (t : ℤ)) := by
  obtain ⟨h1, h2⟩ := Pepper.C56_unlimited p h.proper (some t)
  refine ⟨h2, fun s hs c => ?_, fun m hm => (h1 m hm).trans (h.endless m hm), fun hu => ?_⟩
  · refine (Pepper.C56_removes p h.proper (some t) hs c).trans ((h.commands (s + t) (by omega) c).trans ?_)
    rw [show s + (t : ℤ) + (a : ℤ) = s + ((a + t : ℕ) : ℤ) by push_cast; ring]
  · have hu' : ∀ m ∈ q, ¬ Unlimited m := fun m hm hun => hu m ((h.endless m hun).1 hm) hun
    refine (Pepper.C56_total p h.proper hu' (some t)).trans ?_
    rw [h.total hu]
    show max 0 (max 0 (totalDuration Q - a) - (t : ℤ)) = _
    push_cast
    omega

theorem lasts_queueAfter {Q q : List (Pepper.MotionParameters ℝ)} {a : ℕ} (h : QueueAfter Q a q) {T : ℕ} (hT : 0 < T) :
    LastsUntil q T ↔ (∃ m ∈ Q, Unlimited m) ∨ ((a + T : ℕ) : ℤ) ≤ totalDuration Q := by
  unfold LastsUntil
  by_cases hu : ∃ m ∈ Q, Unlimited m
  · obtain ⟨m, hm, hum⟩ := hu
    exact ⟨fun _ => .inl ⟨m, hm, hum⟩, fun _ => .inl ⟨m, (h.endless m hum).2 hm, hum⟩⟩
  · have hu' : ∀ m ∈ Q, ¬ Unlimited m := fun m hm hum => hu ⟨m, hm, hum⟩
    have hq : ¬ ∃ m ∈ q, Unlimited m := fun ⟨m, hm, hum⟩ => hu ⟨m, (h.endless m hum).1 hm, hum⟩
    rw [h.total hu']
    simp only [hu, hq, false_or]
    push_cast
    omega

/-! ### The robot and its measurement -/

theorem same_kept {r0 r : Robot .planar} (h0 : Ready r0) (h : SameIkRobot r0 r) :
    (r.base_com_tag = r0.base_com_tag ∧ r.body_com_tag = r0.body_com_tag) ∧ r.constraints = r0.constraints := by
  induction h with
  | same => exact ⟨⟨rfl, rfl⟩, rfl⟩
  | update g _ ih => exact ih

theorem same_masses {r0 r : Robot .planar} (h0 : Ready r0) (h : SameIkRobot r0 r) :
    massOf r.rbdl_model.rbdl_model baseLinks = massOf r0.rbdl_model.rbdl_model baseLinks ∧
    massOf r.rbdl_model.rbdl_model bodyLinks = massOf r0.rbdl_model.rbdl_model bodyLinks := by
  have hr := sameRobot_ready h0 h
  obtain ⟨⟨h1, h2⟩, -⟩ := same_kept h0 h
  rw [hr.base, h0.base] at h1
  rw [hr.body, h0.body] at h2
  exact ⟨congrArg (fun t => t.mass) h1, congrArg (fun t => t.mass) h2⟩

theorem base_rotation {r : Robot .planar} (h : Ready r) : ∃ R, r.getBaseOrientation = .ok R ∧ IsRotation R := by
  have hid : IsLink r.rbdl_model.rbdl_model r.base_orientation_tag := by
    rw [h.orientation]
    exact h.parts.base_link
  obtain ⟨R, -, h1, h2, -⟩ := link_frame h hid
  exact ⟨R, h1, h2⟩

/-- **C98.** The robot can always be measured: the controller gets positions of the centres of mass of both parts, their masses, and the yaw angle of one of the
descriptions of the orientation of the base; the velocities and accelerations are those which it had. -/
theorem C98_measured {ea : Mat3 ℝ → Fin 3 → Fin 3 → Fin 3 → (Fin 3 → ℝ)} (hea : ExtractsAngles ea) {r : Robot .planar} (h : Ready r)
    (s : Pepper.ModelState ℝ) : ∃ s', measure ea r s = .ok s' ∧ Measured r s s' := by
  obtain ⟨base, -, e1, -⟩ := base_point h
  obtain ⟨body, -, e2, -⟩ := body_point h
  obtain ⟨R, e3, hR⟩ := base_rotation h
  obtain ⟨e, e4, e5⟩ := C34_extract ea hea R hR .rpy (by simp)
  obtain ⟨R', f1, -, f2⟩ := axisRotation_product e
  obtain rfl := Except.ok.inj (e5.symm.trans f1)
  refine ⟨s.update (getBaseMass r) (getBodyMass r) base body (e 2), ?_, e1, e2, ?_, ?_, ⟨R, e 0, e 1, e3, ?_⟩, ⟨rfl, rfl⟩, ⟨rfl, rfl⟩⟩
  · unfold measure getBaseYaw
    simp only [e1, e2, e3, e4, ok_bind, pure_eq_ok]
  · show r.base_com_tag.mass = _
    rw [h.base]
  · show r.body_com_tag.mass = _
    rw [h.body]
  · have : (![e 0, e 1, (s.update (getBaseMass r) (getBodyMass r) base body (e 2)).base_state.rpy 2] : Fin 3 → ℝ) = e := by
      funext i
      fin_cases i
      · rfl
      · rfl
      · show Function.update s.base_state.rpy 2 (e 2) 2 = e 2
        simp
    rw [this]
    exact f2

/-- **C98.** The feedback moves the base of the robot as if its last command was executed during the delay, and does not move the joints. -/
theorem C98_feedback {r1 r : Robot .planar} {wheels : Mat3 ℝ} {t : ℝ} (ht : 0 < t) {c : RobotCommand ℝ} (hc : CommandFor wheels t r1 r c)
    {d : ℝ} (hd : 0 ≤ d) : ∃ v, c.base_velocities = (fun i => .fin (v i)) ∧ correct r c d = .ok (baseMoved r v d) := by
  obtain ⟨p, p', R, R', v, w, -, -, -, -, -, -, -, -, -, rfl⟩ := hc
  refine ⟨v, rfl, ?_⟩
  unfold correct
  split_ifs with h
  · rw [correctPlanar_eq (g := r.state.coords) (p := r.state.root_pose) (q := r.state.joint_angles) (v := v) (u := r.state.joint_angles) (T := t)
      rfl rfl rfl rfl rfl ht.ne' d, ok_bind]
    unfold toState
    rw [require_true ⟨fun _ => rfl, fun _ => rfl⟩, ok_bind]
    show Except.ok _ = _
    congr 1
    unfold baseMoved
    congr 1
    simp [value]
  · obtain rfl : d = 0 := le_antisymm (not_lt.1 h) hd
    show Except.ok _ = _
    congr 1
    unfold baseMoved
    congr 1
    simp

/-! ### Iterations -/

section
variable {cfg : Settings σ} {q : Pepper.MPCParameters} {o : Pepper.ProblemSetup ℝ} {r0 : Robot .planar} {levels : List (List IkTask)}
  {Inv : SolverState σ → Prop} {good : Robot .planar → Wbc → (ℕ → ℝ) → Prop} {hopeless : Robot .planar → Wbc → Prop}
  {Q : List (Pepper.MotionParameters ℝ)} {n : ℕ} {s s0 : ClosedLoop σ} {u : LoopMemory}

/-- The invariant. -/
structure ClosedInv (cfg : Settings σ) (q : Pepper.MPCParameters) (o : Pepper.ProblemSetup ℝ) (r0 : Robot .planar) (levels : List (List IkTask))
    (Inv : SolverState σ → Prop) (Q : List (Pepper.MotionParameters ℝ)) (n : ℕ) (s : ClosedLoop σ) : Prop where
  ik : IkProgramReady r0 levels Inv s.ik
  masses : massOf r0.rbdl_model.rbdl_model baseLinks + massOf r0.rbdl_model.rbdl_model bodyLinks ≠ 0
  symmetric : ∀ a, s.mpc.model.robot_parameters.body_bounds a 0 = -s.mpc.model.robot_parameters.body_bounds a 1
  queue : QueueAfter Q ((n - 1) * period q cfg) s.queue
  parameters : s.mpc.mpc.parameters = q
  sized : Pepper.SizedFor s.mpc.mpc 0 ∨ Pepper.SizedFor s.mpc.mpc q.preview_horizon_length
  problem : PepperProblemAfter o s.mpc.problem
  solver : s.mpc.solver.params = SolverParameters.default
  command : 0 < n → ∃ r1, CommandFor cfg.wheels cfg.interval r1 s.ik.robot s.command

theorem closed_start (h : ClosedStart q o r0 levels Inv Q s) : ClosedInv cfg q o r0 levels Inv Q 0 s := by
  obtain ⟨P, hP⟩ := h.problem
  refine ⟨h.ik, h.masses, h.symmetric, ?_, by rw [h.controller]; rfl, by rw [h.controller]; exact .inl (Pepper.sizedFor_make q), .setup hP, h.solver,
    fun h => absurd h (lt_irrefl 0)⟩
  rw [h.queue, Nat.zero_sub, Nat.zero_mul]
  exact queueAfter_zero h.proper

/-- The feedback. -/
theorem closed_feedback (hcfg : ClosedSettings cfg q r0 levels Inv good hopeless) (hI : ClosedInv cfg q o r0 levels Inv Q n s) :
    ∃ r queue, (if 0 < n then s.feedback cfg else pure s) = .ok { s with ik := { s.ik with robot := r }, queue := queue } ∧ SameIkRobot r0 r ∧
      (n = 0 → r = s.ik.robot) ∧ (0 < n → ∃ v, s.command.base_velocities = (fun i => .fin (v i)) ∧ r = baseMoved s.ik.robot v cfg.difference) ∧
      QueueAfter Q (n * period q cfg) queue := by
  have hq := hI.queue
  rcases Nat.eq_zero_or_pos n with rfl | hn
  · rw [Nat.zero_sub, Nat.zero_mul] at hq
    exact ⟨s.ik.robot, s.queue, rfl, hI.ik.robot, fun _ => rfl, fun h => absurd h (lt_irrefl 0), by rw [Nat.zero_mul]; exact hq⟩
  · obtain ⟨r1, hc⟩ := hI.command hn
    obtain ⟨v, h1, h2⟩ := C98_feedback hcfg.interval hc hcfg.difference
    refine ⟨_, Pepper.shiftQueue s.mpc.mpc.parameters s.queue (period q cfg : ℤ), ?_, .update _ hI.ik.robot, fun h => absurd h (by omega), fun _ => ⟨v, h1, rfl⟩, ?_⟩
    · rw [if_pos hn]
      unfold ClosedLoop.feedback
      rw [h2, ok_bind, hI.parameters]
      rfl
    · have := queueAfter_shift hq s.mpc.mpc.parameters (period q cfg)
      rw [show (n - 1) * period q cfg + period q cfg = n * period q cfg by
        obtain ⟨m, rfl⟩ : ∃ m, n = m + 1 := ⟨n - 1, by omega⟩
        rw [Nat.add_sub_cancel]
        ring] at this
      exact this

/-- An iteration. -/
theorem closed_step (hcfg : ClosedSettings cfg q r0 levels Inv good hopeless) (hI : ClosedInv cfg q o r0 levels Inv Q n s) (u : LoopMemory) :
    (¬ ClosedContinues cfg q Q n → s.iterate cfg u n = .ok none) ∧
    (ClosedContinues cfg q Q n →
      (∃ s' r model mpc, s.iterate cfg u n = .ok (some s') ∧ ClosedIteration cfg q o Q good n s r model mpc s' ∧
        ClosedInv cfg q o r0 levels Inv Q (n + 1) s' ∧ ∀ q', s'.ik.wbc.update .planar q' = s.ik.wbc.update .planar q') ∨
      (s.iterate cfg u n = .error .thrown ∧ ClosedFails cfg q o Q good hopeless n s)) := by
  have hq := hcfg.parameters
  have hpar := hI.parameters
  have hpos : 0 < q.preview_horizon_length * q.sampling_time_ms := Nat.mul_pos hq.horizon hq.sampling
  have hT' : q.sampling_time_ms < 2 ^ 63 := lt_of_le_of_lt (Nat.le_mul_of_pos_left _ hq.horizon) hq.representable
  obtain ⟨r, queue, ef, hsame, hfirst, hlater, hqueue⟩ := closed_feedback hcfg hI
  have hr := sameRobot_ready hcfg.robot hsame
  obtain ⟨st, em, hmeas⟩ := C98_measured hcfg.angles hr s.mpc.model.state
  obtain ⟨model, hmodel⟩ : ∃ model, model = s.mpc.model.updateState st := ⟨_, rfl⟩
  have hms : model.state = st := by rw [hmodel]; rfl
  have hmp : model.robot_parameters = s.mpc.model.robot_parameters := by rw [hmodel]; rfl
  obtain ⟨mpc, status, eu, hst, h3, h4, h5⟩ := Pepper.C71_queue u.mpc.matrices cfg.tr u.mpc.horizon hqueue.proper model (c := s.mpc.mpc)
    (by rw [hpar]; exact hq.sampling) (by rw [hpar]; exact hT') (by rw [hpar]; exact hq.horizon) (by rw [hpar]; exact hI.sized)
  have hcont : status = .ok ↔ ClosedContinues cfg q Q n := by
    rw [hst, hpar]
    have := lasts_queueAfter hqueue hpos
    push_cast at this ⊢
    rw [this]
    unfold ClosedContinues
    push_cast
    rfl
  have eit : s.iterate cfg u n = ClosedLoop.react cfg u { s with ik := { s.ik with robot := r }, queue := queue } := by
    unfold ClosedLoop.iterate
    rw [ef, ok_bind]
  refine ⟨fun hn => ?_, fun hn => ?_⟩
  · have hne : status ≠ .ok := fun e => hn (hcont.1 e)
    rw [eit]
    unfold ClosedLoop.react
    simp only [em, ok_bind]
    rw [← hmodel, eu, ok_bind]
    show (if status = .ok then _ else _) = _
    rw [if_neg hne]
    rfl
  · have e := hcont.2 hn
    subst e
    obtain ⟨hH, hC⟩ := h5 rfl
    rw [hpar] at h3 h4 hH
    have hl : mpc.intervals.length = q.preview_horizon_length := hH.1
    have hP : Planned cfg q Q n s r model mpc queue := ⟨hfirst, hlater, by rw [hms]; exact hmeas, hmp, hqueue, hH⟩
    have hmass : model.state.base_mass + model.state.body_mass ≠ 0 := by
      obtain ⟨m1, m2⟩ := same_masses hcfg.robot hsame
      rw [hms, hmeas.base_mass, hmeas.body_mass, m1, m2]
      exact hI.masses
    have hsym : ∀ a, model.robot_parameters.body_bounds a 0 = -model.robot_parameters.body_bounds a 1 := by
      rw [hmp]
      exact hI.symmetric
    have hU : PepperUpdated model mpc := by
      obtain ⟨M, hM, hS⟩ : ∃ M, (M = 0 ∨ M = s.mpc.mpc.parameters.preview_horizon_length) ∧ Pepper.SizedFor s.mpc.mpc M := by
        rcases hI.sized with h | h
        · exact ⟨0, .inl rfl, h⟩
        · exact ⟨q.preview_horizon_length, .inr (by rw [hpar]), h⟩
      exact ⟨u.mpc.matrices, cfg.tr, u.mpc.horizon, s.mpc.mpc, M, by rw [hpar]; exact hq.sampling, by rw [hpar]; exact hq.horizon,
        by rw [hpar]; exact hq.representable, hM, hS, hmass, hsym, .inr ⟨queue, hqueue.proper, eu⟩⟩
    have hflag : mpc.solution_is_parsed = false := (Pepper.updateWith_flag eu).1
    -- the problem of the controller
    have hPI : Pepper.PepperInv Humoto.Closed.kind q o ⟨0, 0, 0, -1, .maintainVelocity⟩ 0
        { s.mpc with model := model, motion := ⟨0, 0, 0, -1, .maintainVelocity⟩ } none := by
      refine ⟨hpar, hI.sized, hmass, hsym, .inl rfl, ?_, hI.problem, fun _ h => (by cases h), hI.solver, fun h => (by cases h)⟩
      simp [remainingMotion]
    have hsolve := Pepper.pepper_solve (u := u.mpc) hq hcfg.qp hPI h3 hl hU s.mpc.motion
    have hsame' : Pepper.Program.solveProblem Humoto.Closed.kind cfg.qp u.mpc
        { s.mpc with model := model, motion := ⟨0, 0, 0, -1, .maintainVelocity⟩ } mpc s.mpc.motion =
        Pepper.Program.solveProblem Humoto.Closed.kind cfg.qp u.mpc { s.mpc with model := model } mpc s.mpc.motion := rfl
    rw [hsame'] at hsolve
    have ereact : s.iterate cfg u n = (Pepper.Program.solveProblem Humoto.Closed.kind cfg.qp u.mpc { s.mpc with model := model } mpc s.mpc.motion >>=
        fun p => p.advance Humoto.Closed.kind >>= fun p => IkProgram.control cfg.solver .displacementOrError cfg.par cfg.wheels cfg.interval u.ik
          (referencesOf p.model.state) { s.ik with robot := r } s.command >>= fun z =>
            pure (some { s with queue := queue, ik := z.1, mpc := p, command := z.2 })) := by
      rw [eit]
      unfold ClosedLoop.react
      simp only [em, ok_bind]
      rw [← hmodel, eu, ok_bind]
      rfl
    rcases hsolve with ⟨s1, es, hS⟩ | ⟨es, hF⟩
    · have hTm : ∀ iv ∈ s1.mpc.intervals, iv.T_ms = q.sampling_time_ms ∧ iv.T = (q.sampling_time_ms : ℝ) / 1000 := by
        rw [hS.controller]
        intro iv hiv
        obtain ⟨i, hi⟩ := List.getElem?_of_mem hiv
        obtain ⟨_, _, -, -, h⟩ := hH.2 i iv hi
        exact ⟨h.duration_ms, h.duration⟩
      have hs1m : s1.model = model := hS.model
      obtain ⟨c, st', iv, ea, hiv, hw, -, hcp, hcm⟩ := Pepper.advance_ok hq (by rw [hS.controller, h3]) (by rw [hS.controller, hflag])
        (by rw [hS.controller, hs1m]; exact hC) (by rw [hS.controller, hl]) hTm (by rw [hS.controller]; exact hS.solution)
      rw [hS.controller] at hiv hw hcp hcm
      rw [hs1m] at hw ea
      have hplan : PlanIs q o model mpc s1.solution.x st' := ⟨hS.solution.size, hS.best, iv, hiv, hw⟩
      have href : referencesOf (model.updateState st').state = targetOf st' := by
        show referencesOf st' = _
        unfold referencesOf targetOf
        congr 1
        · funext i
          fin_cases i <;> rfl
        · funext i
          fin_cases i <;> rfl
      have hready : IkProgramReady r0 levels Inv { s.ik with robot := r } := ⟨hsame, hI.ik.problem, hI.ik.solver, hI.ik.tasks⟩
      rcases C96_control hcfg.robot hcfg.some_levels hcfg.tasks hcfg.solver .displacementOrError cfg.par cfg.wheels hcfg.interval (targetOf st') hready u.ik
        s.command with ⟨ik', c', k, ec, k1, k2, k3, k4, k5⟩ | ⟨ec, hno⟩
      · left
        refine ⟨{ s with queue := queue, ik := ik', mpc := { s1 with mpc := c, model := model.updateState st' }, command := c' }, r, model, mpc, ?_,
          ⟨hP, hplan, hmp, ⟨k, k3, k4⟩, k5⟩,
          ⟨k1, hI.masses, hsym, hqueue, hcp.trans h3, ?_, ?_, hS.params, fun _ => ⟨r, k5⟩⟩, k2⟩
        · rw [ereact, es, ok_bind, ea, ok_bind, href, ec, ok_bind]
          rfl
        · unfold Pepper.SizedFor
          simp only
          rw [hcm]
          exact h4
        · exact hS.problem
      · right
        refine ⟨?_, r, model, mpc, queue, hP, .inr ⟨s1.solution.x, st', hplan, hno⟩⟩
        rw [ereact, es, ok_bind, ea, ok_bind, href, ec]
        rfl
    · right
      refine ⟨?_, r, model, mpc, queue, hP, .inl hF⟩
      rw [ereact, es]
      rfl

theorem closed_after (hcfg : ClosedSettings cfg q r0 levels Inv good hopeless) (h0 : ClosedStart q o r0 levels Inv Q s0) (h : ClosedAfter cfg s0 n s) :
    ClosedInv cfg q o r0 levels Inv Q n s ∧ (∀ q', s.ik.wbc.update .planar q' = s0.ik.wbc.update .planar q') ∧
      s.mpc.model.robot_parameters = s0.mpc.model.robot_parameters := by
  induction h with
  | start => exact ⟨closed_start h0, fun _ => rfl, rfl⟩
  | @step n a b u _ hs ih =>
    obtain ⟨hI, hw, hl⟩ := ih
    obtain ⟨P1, P2⟩ := closed_step hcfg hI u
    by_cases hn : ClosedContinues cfg q Q n
    · rcases P2 hn with ⟨s', r, model, mpc, e, hG, hI', hw'⟩ | ⟨e, -⟩
      · cases hs.symm.trans e
        exact ⟨hI', fun q' => (hw' q').trans (hw q'), hG.limits.trans hl⟩
      · cases hs.symm.trans e
    · cases hs.symm.trans (P1 hn)

/-- **C98.** An iteration. The loop is left exactly when what remains of the queue does not cover the horizon. Otherwise the iteration does what it should:
the base is where the last command has brought it during the delay, the controller sees the robot as it is, the plan is the best of
allowed ones, the robot is brought to the planned state by good displacements, the command brings it there within the limits; or there is an exception, since
there is no plan or it cannot be followed. There is no other failure. -/
theorem C98_iteration (hcfg : ClosedSettings cfg q r0 levels Inv good hopeless) (h0 : ClosedStart q o r0 levels Inv Q s0)
    (h : ClosedAfter cfg s0 n s) (u : LoopMemory) :
    (¬ ClosedContinues cfg q Q n → s.iterate cfg u n = .ok none) ∧
    (ClosedContinues cfg q Q n →
      (∃ s' r model mpc, s.iterate cfg u n = .ok (some s') ∧ ClosedIteration cfg q o Q good n s r model mpc s') ∨
      (s.iterate cfg u n = .error .thrown ∧ ClosedFails cfg q o Q good hopeless n s)) := by
  obtain ⟨P1, P2⟩ := closed_step hcfg (closed_after hcfg h0 h).1 u
  refine ⟨P1, fun hn => (P2 hn).imp ?_ id⟩
  rintro ⟨s', r, model, mpc, e, hG, -⟩
  exact ⟨s', r, model, mpc, e, hG⟩

/-- **C98.** The tasks of the inverse kinematics and the limits of the controller are the same in all iterations. -/
theorem C98_constant (hcfg : ClosedSettings cfg q r0 levels Inv good hopeless) (h0 : ClosedStart q o r0 levels Inv Q s0) (h : ClosedAfter cfg s0 n s) :
    SameIkRobot r0 s.ik.robot ∧ s.ik.robot.constraints = r0.constraints ∧ (∀ q', s.ik.wbc.update .planar q' = s0.ik.wbc.update .planar q') ∧
      s.mpc.model.robot_parameters = s0.mpc.model.robot_parameters := by
  obtain ⟨h1, h2, h3⟩ := closed_after hcfg h0 h
  exact ⟨h1.ik.robot, (same_kept hcfg.robot h1.ik.robot).2, h2, h3⟩

/-! ### Runs -/

theorem closed_run_mono {u : ℕ → LoopMemory} : ∀ {l l' : ℕ}, l ≤ l' → ∀ {n : ℕ} {s : ClosedLoop σ} {r : Res (List (RobotCommand ℝ))},
    s.run cfg u l n = some r → s.run cfg u l' n = some r := by
  intro l
  induction l with
  | zero => intro l' _ n s r h; cases h
  | succ l ih =>
    intro l' hl n s r h
    obtain ⟨m, rfl⟩ : ∃ m, l' = m + 1 := ⟨l' - 1, by omega⟩
    unfold ClosedLoop.run at h ⊢
    generalize s.iterate cfg (u n) n = r1 at h ⊢
    rcases r1 with e | _ | s'
    · exact h
    · exact h
    · simp only at h ⊢
      cases hr : s'.run cfg u l (n + 1) with
      | none => rw [hr] at h; cases h
      | some r2 => rw [hr] at h; rw [ih (by omega) hr]; exact h

/-- **C98.** The outcome of the program is unique. -/
theorem C98_unique {u : ℕ → LoopMemory} {r r' : Res (List (RobotCommand ℝ))} (h : ClosedReturns cfg u s r) (h' : ClosedReturns cfg u s r') : r = r' := by
  obtain ⟨l, ha⟩ := h
  obtain ⟨l', hb⟩ := h'
  exact Option.some.inj ((closed_run_mono (Nat.le_max_left l l') ha).symm.trans (closed_run_mono (Nat.le_max_right l l') hb))

theorem closedIterations_lt (hcfg : ClosedSettings cfg q r0 levels Inv good hopeless) (d n : ℕ) :
    n < closedIterations cfg q d ↔ n * period q cfg + q.preview_horizon_length * q.sampling_time_ms ≤ d := by
  have h1 : 0 < q.subsampling_time_ms := hcfg.parameters.step.1
  have : 0 < period q cfg := by unfold period; omega
  unfold closedIterations
  rw [Nat.lt_iff_add_one_le, Nat.le_div_iff_mul_le this, Nat.add_mul, Nat.one_mul]
  omega

theorem closed_outcome (hcfg : ClosedSettings cfg q r0 levels Inv good hopeless) (h0 : ClosedStart q o r0 levels Inv Q s0)
    (hQ : ∀ m ∈ Q, ¬ Unlimited m) {d : ℕ} (hd : totalDuration Q = d) (u : ℕ → LoopMemory) :
    ∀ k {n s}, ClosedAfter cfg s0 n s → n + k = closedIterations cfg q d ∨ closedIterations cfg q d < n ∧ k = 0 →
      (∃ cs, s.run cfg u (k + 1) n = some (.ok cs) ∧ cs.length = k ∧ ∃ S : ℕ → ClosedLoop σ, S 0 = s ∧
        ∀ (i : ℕ) c, cs[i]? = some c → (S i).iterate cfg (u (n + i)) (n + i) = .ok (some (S (i + 1))) ∧ c = (S (i + 1)).command) ∨
      (s.run cfg u (k + 1) n = some (.error .thrown) ∧ ClosedStopped cfg q o Q good hopeless s0) := by
  have hc : ∀ n, ClosedContinues cfg q Q n ↔ n < closedIterations cfg q d := by
    intro n
    rw [closedIterations_lt hcfg]
    unfold ClosedContinues
    rw [hd]
    constructor
    · rintro (⟨m, hm, hu⟩ | h)
      · exact absurd hu (hQ m hm)
      · exact_mod_cast h
    · exact fun h => .inr (by exact_mod_cast h)
  intro k
  induction k with
  | zero =>
    intro n s h hm
    refine .inl ⟨[], ?_, rfl, fun _ => s, rfl, fun i c h => by cases h⟩
    unfold ClosedLoop.run
    rw [(C98_iteration hcfg h0 h (u n)).1 (by rw [hc]; omega)]
  | succ k ih =>
    intro n s h hm
    rcases (C98_iteration hcfg h0 h (u n)).2 ((hc n).2 (by omega)) with ⟨s', r, model, mpc, e, hG⟩ | ⟨e, hF⟩
    · rcases ih (.step h e) (by omega) with ⟨cs, e1, e2, S, e3, e4⟩ | ⟨e1, e2⟩
      · refine .inl ⟨s'.command :: cs, ?_, by simp [e2], fun i => if i = 0 then s else S (i - 1), rfl, fun i c hi => ?_⟩
        · unfold ClosedLoop.run
          rw [e]
          simp only [e1]
        · cases i with
          | zero =>
            obtain rfl := Option.some.inj (hi : some s'.command = some c)
            simp only [Nat.add_zero, if_true, Nat.zero_add, one_ne_zero, if_false, Nat.sub_self, e3]
            exact ⟨e, trivial⟩
          | succ i =>
            obtain ⟨f1, f2⟩ := e4 i c hi
            simp only [Nat.succ_ne_zero, if_false, Nat.add_sub_cancel]
            rw [show n + (i + 1) = n + 1 + i by omega]
            exact ⟨f1, f2⟩
      · refine .inr ⟨?_, e2⟩
        unfold ClosedLoop.run
        rw [e]
        simp only [e1]
    · refine .inr ⟨?_, n, s, h, hF⟩
      unfold ClosedLoop.run
      rw [e]

/-- **C98.** For a queue of `d` milliseconds, the program ends: with as many commands as there are periods in the queue without the horizon, or with an
exception in an iteration which cannot be made. -/
theorem C98_run (hcfg : ClosedSettings cfg q r0 levels Inv good hopeless) (h0 : ClosedStart q o r0 levels Inv Q s0)
    (hQ : ∀ m ∈ Q, ¬ Unlimited m) {d : ℕ} (hd : totalDuration Q = d) (u : ℕ → LoopMemory) :
    (∃ cs, ClosedReturns cfg u s0 (.ok cs) ∧ cs.length = closedIterations cfg q d ∧ CommandsOf cfg u s0 cs) ∨
    (ClosedReturns cfg u s0 (.error .thrown) ∧ ClosedStopped cfg q o Q good hopeless s0) := by
  rcases closed_outcome hcfg h0 hQ hd u (closedIterations cfg q d) .start (.inl (by omega)) with ⟨cs, e1, e2, S, e3, e4⟩ | ⟨e1, e2⟩
  · refine .inl ⟨cs, ⟨_, e1⟩, e2, S, e3, fun i c hi => ?_⟩
    have := e4 i c hi
    rwa [Nat.zero_add] at this
  · exact .inr ⟨⟨_, e1⟩, e2⟩

/-- **C98.** A queue with a motion without end: the program does not end, except by an exception in an iteration which cannot be made. -/
theorem C98_unlimited (hcfg : ClosedSettings cfg q r0 levels Inv good hopeless) (h0 : ClosedStart q o r0 levels Inv Q s0)
    (hQ : ∃ m ∈ Q, Unlimited m) {u : ℕ → LoopMemory} {r : Res (List (RobotCommand ℝ))} (h : ClosedReturns cfg u s0 r) :
    r = .error .thrown ∧ ClosedStopped cfg q o Q good hopeless s0 := by
  obtain ⟨left, h⟩ := h
  have key : ∀ left {n s}, ClosedAfter cfg s0 n s → s.run cfg u left n = some r → r = .error .thrown ∧ ClosedStopped cfg q o Q good hopeless s0 := by
    intro left
    induction left with
    | zero => intro n s _ h; cases h
    | succ left ih =>
      intro n s ha h
      unfold ClosedLoop.run at h
      rcases (C98_iteration hcfg h0 ha (u n)).2 (.inl hQ) with ⟨s', _, _, _, e, -⟩ | ⟨e, hF⟩
      · rw [e] at h
        simp only at h
        cases h1 : s'.run cfg u left (n + 1) with
        | none => rw [h1] at h; cases h
        | some r1 =>
          rw [h1] at h
          rcases r1 with f | cs
          · have h2 : r = .error f := (Option.some.inj h).symm
            exact ih (.step ha e) (by rw [h1, h2])
          · exfalso
            have : ∀ left {n s cs}, ClosedAfter cfg s0 n s → s.run cfg u left n ≠ some (.ok cs) := by
              intro left
              induction left with
              | zero => intro n s cs _ h; cases h
              | succ left ih =>
                intro n s cs ha h
                unfold ClosedLoop.run at h
                rcases (C98_iteration hcfg h0 ha (u n)).2 (.inl hQ) with ⟨s', _, _, _, e, -⟩ | ⟨e, hF⟩
                · rw [e] at h
                  simp only at h
                  cases h1 : s'.run cfg u left (n + 1) with
                  | none => rw [h1] at h; cases h
                  | some r1 =>
                    rw [h1] at h
                    rcases r1 with f | cs'
                    · cases h
                    · exact ih (.step ha e) h1
                · rw [e] at h
                  cases h
            exact this left (.step ha e) h1
      · rw [e] at h
        exact ⟨(Option.some.inj h).symm, n, s, ha, hF⟩
  exact key left .start h

/-- **C98.** All commands respect the limits of the robot: angles of joints, which do not change too fast, and velocities of wheels. -/
theorem C98_commands (hcfg : ClosedSettings cfg q r0 levels Inv good hopeless) (h0 : ClosedStart q o r0 levels Inv Q s0) {u : ℕ → LoopMemory}
    {cs : List (RobotCommand ℝ)} (h : CommandsOf cfg u s0 cs) : ∀ c ∈ cs, AnglesAllowed r0.constraints c.joint_angles ∧
      WheelsAllowed r0.constraints c.wheel_velocities ∧ ∃ r r' : Robot .planar, SameIkRobot r0 r ∧ SameIkRobot r0 r' ∧
        (c.joint_angles = fun i => .fin (r'.state.joint_angles i)) ∧ SlowEnough r0.constraints r.state.joint_angles r'.state.joint_angles cfg.interval := by
  obtain ⟨S, hS0, hS⟩ := h
  have hafter : ∀ i, i ≤ cs.length → ClosedAfter cfg s0 i (S i) := by
    intro i
    induction i with
    | zero => intro _; rw [hS0]; exact .start
    | succ i ih =>
      intro hi
      exact .step (ih (by omega)) (hS i cs[i] (List.getElem?_eq_getElem (by omega))).1
  intro c hc
  obtain ⟨i, hi⟩ := List.getElem?_of_mem hc
  have hlt : i < cs.length := (List.getElem?_eq_some_iff.1 hi).1
  obtain ⟨e, hcmd⟩ := hS i c hi
  have ha := hafter i hlt.le
  obtain ⟨hI, -⟩ := closed_after hcfg h0 ha
  obtain ⟨hsame', hcon, -⟩ := C98_constant hcfg h0 (hafter (i + 1) hlt)
  have hn : ClosedContinues cfg q Q i := by
    by_contra hno
    have := (closed_step hcfg hI (u i)).1 hno
    cases this.symm.trans e
  rcases (C98_iteration hcfg h0 ha (u i)).2 hn with ⟨s', r, model, mpc, e', hG⟩ | ⟨e', -⟩
  · cases e.symm.trans e'
    obtain ⟨p, p', R, R', v, w, -, -, -, -, -, -, a1, a2, a3, a4⟩ := hG.command
    rw [hcon] at a1 a2 a3
    rw [hcmd, a4]
    refine ⟨a1, a3, r, _, ?_, hsame', rfl, a2⟩
    rcases Nat.eq_zero_or_pos i with h | h
    · rw [hG.planned.first h]
      exact hI.ik.robot
    · obtain ⟨v, -, rfl⟩ := hG.planned.later h
      exact .update _ hI.ik.robot
  · cases e.symm.trans e'

end

/-- **C98.** The delay is taken into account with a precision of half a millisecond. -/
theorem C98_period (cfg : Settings σ) (q : Pepper.MPCParameters) (h : 0 ≤ cfg.difference) :
    |(period q cfg : ℝ) - (q.subsampling_time_ms + 1000 * cfg.difference)| ≤ 1 / 2 := by
  have h1 : 0 ≤ round (cfg.difference * 1000) := by
    rw [round_eq]
    exact Int.floor_nonneg.2 (by positivity)
  have h2 : ((toMilliseconds cfg.difference : ℕ) : ℝ) = round (cfg.difference * 1000) := by
    unfold toMilliseconds
    have : (((round (cfg.difference * 1000)).toNat : ℤ) : ℝ) = round (cfg.difference * 1000) := by rw [Int.toNat_of_nonneg h1]
    exact_mod_cast this
  have h3 := abs_sub_round (cfg.difference * 1000)
  unfold period
  push_cast
  rw [h2, abs_sub_comm]
  refine le_of_eq_of_le ?_ h3
  congr 1
  ring

/-! ### The yaw angle -/

theorem axisRotation_yaw (θ : ℝ) {R : Mat3 ℝ} (h : DescribesRpy ![0, 0, θ] R) : convertEulerAnglesToMatrix ![0, 0, θ] .rpy = .ok R := by
  obtain ⟨X, Y, Z, h1, h2, h3, rfl⟩ := h
  exact (C34_euler_meaning ![0, 0, θ] X Y Z h1 h2 h3).1

/-- **C98**, part: the controller sees the yaw angle of the base, if the base stands on the floor and is turned to the left. -/
theorem C98_yaw_partial {r : Robot .planar} {R : Mat3 ℝ} {θ : ℝ} (hR : r.getBaseOrientation = .ok R) (hd : DescribesRpy ![0, 0, θ] R)
    (hθ : 0 ≤ θ ∧ θ ≤ Real.pi) {s s' : Pepper.ModelState ℝ} (h : measure eigenEulerAngles r s = .ok s') : s'.base_state.rpy 2 = θ := by
  have pi := Real.pi_pos
  have e1 := axisRotation_yaw θ hd
  have e2 := C34_angles_partial ![0, 0, θ] hθ (by show -(Real.pi / 2) < 0 ∧ 0 < Real.pi / 2; constructor <;> linarith)
    (by show -Real.pi < 0 ∧ 0 ≤ Real.pi; constructor <;> linarith)
  unfold convertEulerAngles at e2
  rw [e1, ok_bind] at e2
  unfold measure getBaseYaw at h
  obtain ⟨base, -, h⟩ := bind_eq_ok.1 h
  obtain ⟨body, -, h⟩ := bind_eq_ok.1 h
  simp only [hR, e2, ok_bind, pure_eq_ok] at h
  cases h
  show Function.update s.base_state.rpy 2 θ 2 = θ
  simp

theorem measured_negative {r : Robot .planar} {R : Mat3 ℝ} {θ : ℝ} (hR : r.getBaseOrientation = .ok R) (hd : DescribesRpy ![0, 0, θ] R)
    (hθ : -Real.pi < θ ∧ θ < 0) {s s' : Pepper.ModelState ℝ} (h : measure eigenEulerAngles r s = .ok s') :
    s'.base_state.rpy 2 = θ + Real.pi := by
  have e1 := axisRotation_yaw θ hd
  have e1' : R = axisRotation 2 θ * axisRotation 1 0 * axisRotation 0 0 := (Except.ok.inj e1).symm
  have a00 : R 0 0 = Real.cos θ := by rw [e1']; simp [axisRotation, Matrix.mul_apply, Fin.sum_univ_three]
  have a10 : R 1 0 = Real.sin θ := by rw [e1']; simp [axisRotation, Matrix.mul_apply, Fin.sum_univ_three]
  have hat : atan2 (R 1 0) (R 0 0) = θ := by
    unfold atan2
    rw [a00, a10]
    have := Complex.arg_cos_add_sin_mul_I (θ := θ) ⟨hθ.1, by linarith [Real.pi_pos]⟩
    refine Eq.trans ?_ this
    congr 1
    apply Complex.ext <;> simp [Complex.cos_ofReal_re, Complex.sin_ofReal_re]
  have e2 : eigenEulerAngles R 2 1 0 0 = θ + Real.pi := by
    show (eigenFirstAngles (R 1 0) (R 0 0) (-R 2 0) (Real.sqrt (R 2 2 * R 2 2 + R 2 1 * R 2 1)) true).1 = _
    unfold eigenFirstAngles
    simp only [hat]
    rw [if_pos (.inl ⟨trivial, hθ.2⟩)]
    simp only
    rw [if_neg (by linarith)]
  unfold measure getBaseYaw at h
  obtain ⟨base, -, h⟩ := bind_eq_ok.1 h
  obtain ⟨body, -, h⟩ := bind_eq_ok.1 h
  rw [hR, ok_bind] at h
  have h : s' = s.update (getBaseMass r) (getBodyMass r) base body (eigenEulerAngles R 2 1 0 0) := (Except.ok.inj h).symm
  rw [h, e2]
  show Function.update s.base_state.rpy 2 (θ + Real.pi) 2 = θ + Real.pi
  simp

/-- **C98** fails with Eigen 3.2 and 3.3 for a base which is turned to the right: `getBaseYaw` reports an angle which differs by half a turn, since the angles which are
returned by `eulerAngles` have other roll and pitch. The controller ignores roll and pitch, so that in its horizon a commanded velocity has the opposite
direction: a robot which is asked to move forward plans to move backward. -/
theorem C98_yaw_refuted {r : Robot .planar} {R : Mat3 ℝ} {θ : ℝ} (hR : r.getBaseOrientation = .ok R) (hd : DescribesRpy ![0, 0, θ] R)
    (hθ : -Real.pi < θ ∧ θ < 0) {s s' : Pepper.ModelState ℝ} (h : measure eigenEulerAngles r s = .ok s') :
    s'.base_state.rpy 2 = θ + Real.pi ∧
    ∀ (q : Pepper.MPCParameters) (model : Pepper.Model ℝ) (queue : List (Pepper.MotionParameters ℝ)) (ivs : List (Pepper.Interval ℝ)) (iv : Pepper.Interval ℝ),
      model.state = s' → HorizonFor ⟨Real.cos, Real.sin⟩ q model queue ivs → ivs[0]? = some iv → ∃ m, InForce queue q.sampling_time_ms m ∧
        ∀ α, α = θ + m.base_angular_velocity * ((q.sampling_time_ms : ℝ) / 1000) →
          iv.base_vel_ref 0 = -(Real.cos α * m.base_velocity 0 - Real.sin α * m.base_velocity 1) ∧
          iv.base_vel_ref 1 = -(Real.sin α * m.base_velocity 0 + Real.cos α * m.base_velocity 1) := by
  have hy := measured_negative hR hd hθ h
  refine ⟨hy, fun q model queue ivs iv hm hH hi => ?_⟩
  obtain ⟨m, theta, h1, h2, h3⟩ := hH.2 0 iv hi
  have h2 : theta = model.state.base_state.rpy 2 := h2
  refine ⟨m, by simpa using h1, fun α hα => ?_⟩
  have ht : iv.theta = α + Real.pi := by
    rw [h3.turn, h2, hm, hy, hα]
    ring
  have c1 : Real.cos (α + Real.pi) = -Real.cos α := Real.cos_add_pi α
  have c2 : Real.sin (α + Real.pi) = -Real.sin α := Real.sin_add_pi α
  rw [h3.velocity, h3.rotation, ht]
  simp only [c1, c2]
  constructor
  · simp [Matrix.mulVec, dotProduct, Fin.sum_univ_two]
    ring
  · simp [Matrix.mulVec, dotProduct, Fin.sum_univ_two]
    ring

/-! ### Examples -/

/-- A robot whose bodies slide along an axis which is turned by the constant rotation `E`. -/
noncomputable def turnedSlider (E : Mat3 ℝ) (n : ℕ) (q : ℕ → ℝ) : Rbdl.RbdlModel ℝ :=
  { slider n q with X_base := fun i => if i = 0 then ⟨1, 0⟩ else ⟨E, Eᵀ *ᵥ ![∑ k ∈ Finset.range i, q k, 0, 0]⟩ }

theorem turnedSlider_rigid {E : Mat3 ℝ} (hE : IsRotation Eᵀ) {n : ℕ} (hn : n < 2 ^ 31) : RigidRobot (turnedSlider E n) n := by
  have hS := slider_rigid hn
  refine ⟨fun q => ?_, fun q => rfl, fun q q' => ⟨rfl, rfl, rfl, rfl, rfl⟩, fun q q' => rfl, fun q dq t hq => ?_, fun q b hb => by cases hb⟩
  · have h := hS.tree q
    exact ⟨h.1, h.2, h.3, h.4, h.5, h.6⟩
  · refine ⟨fun s => ⟨rfl, rfl, rfl, rfl, rfl⟩, fun s => rfl, fun i h0 hi => ?_⟩
    have hi : i < n + 1 := hi
    have hw : jointAngular (turnedSlider E n (q t)) dq i = 0 := by
      unfold jointAngular
      simp [turnedSlider, slider, dof, axis]
    have hv : jointLinear (turnedSlider E n (q t)) dq i = ![dq (i - 1), 0, 0] := by
      unfold jointLinear
      funext a
      fin_cases a <;> simp [turnedSlider, slider, dof, axis]
    have hd : ∀ (M : Mat3 ℝ) (a : Fin 3), HasDerivAt (fun s => (M *ᵥ ![q s (i - 1), 0, 0]) a) ((M *ᵥ ![dq (i - 1), 0, 0]) a) t := by
      intro M a
      have h : ∀ x : ℝ, (M *ᵥ ![x, 0, 0]) a = M a 0 * x := fun x => by simp [Matrix.mulVec, dotProduct, Fin.sum_univ_three]
      simp only [h]
      exact (hq (i - 1) (by omega)).const_mul _
    have hlam : (turnedSlider E n (q t)).lambda i = i - 1 := rfl
    rw [hlam, hw, hv]
    by_cases h1 : i = 1
    · subst h1
      refine ⟨fun s => ⟨E, Eᵀ *ᵥ ![q s 0, 0, 0]⟩, fun s => ⟨?_, ?_⟩, hE, ⟨0, fun a b => hasDerivAt_const t _, fun p => ?_⟩, fun a => hd Eᵀ a⟩
      · show Eᵀ = (1 : Mat3 ℝ)ᵀ * Eᵀ
        simp
      · show Eᵀ *ᵥ ![∑ k ∈ Finset.range 1, q s k, 0, 0] = 0 + (1 : Mat3 ℝ)ᵀ *ᵥ (Eᵀ *ᵥ ![q s 0, 0, 0])
        simp
      · have h0 : vectorProduct 0 p = 0 := by
          funext a
          fin_cases a <;> simp [vectorProduct]
        rw [h0, Matrix.mulVec_zero, Matrix.zero_mulVec]
    · have e1 : ∀ s, (turnedSlider E n (q s)).X_base i = ⟨E, Eᵀ *ᵥ ![∑ k ∈ Finset.range i, q s k, 0, 0]⟩ := fun s => if_neg h0
      have e2 : ∀ s, (turnedSlider E n (q s)).X_base (i - 1) = ⟨E, Eᵀ *ᵥ ![∑ k ∈ Finset.range (i - 1), q s k, 0, 0]⟩ := fun s => if_neg (by omega)
      refine ⟨fun s => ⟨1, ![q s (i - 1), 0, 0]⟩, fun s => ⟨?_, ?_⟩, ?_, ⟨0, fun a b => hasDerivAt_const t _, fun p => ?_⟩, fun a => ?_⟩
      · rw [e1, e2]
        show Eᵀ = Eᵀ * (1 : Mat3 ℝ)ᵀ
        simp
      · rw [e1, e2]
        show Eᵀ *ᵥ _ = Eᵀ *ᵥ _ + Eᵀ *ᵥ ![q s (i - 1), 0, 0]
        rw [← Matrix.mulVec_add]
        congr 1
        have : i = (i - 1) + 1 := by omega
        conv_lhs => rw [this]
        rw [Finset.sum_range_succ]
        funext a
        fin_cases a <;> simp
      · simpa using isRotation_one
      · funext a
        fin_cases a <;> simp [vectorProduct]
      · have := hd (1 : Mat3 ℝ)ᵀ a
        simp only [Matrix.transpose_one, Matrix.one_mulVec] at this ⊢
        exact this

/-- There are robots whose base is turned by any angle. -/
theorem turned_exists (θ : ℝ) : ∃ (r : Robot .planar) (R : Mat3 ℝ), Ready r ∧ r.getBaseOrientation = .ok R ∧ DescribesRpy ![0, 0, θ] R ∧
    massOf r.rbdl_model.rbdl_model baseLinks + massOf r.rbdl_model.rbdl_model bodyLinks ≠ 0 := by
  obtain ⟨R, -, hR, hd⟩ := axisRotation_product ![0, 0, θ]
  have hE : IsRotation (Rᵀ)ᵀ := by rw [Matrix.transpose_transpose]; exact hR
  have hparts : HasParts (turnedSlider Rᵀ (3 + 15) 0) := by
    have h := slider_parts (3 + 15) (by omega) 0
    exact ⟨h.1, h.2, h.3, h.4, h.5⟩
  obtain ⟨r, -, h2, h3, -, h4⟩ := (C94_load (unloaded .planar) fun _ => ⟨0, 0⟩).2.2 (turnedSlider Rᵀ (3 + 15) 0) (turnedSlider Rᵀ (3 + 15))
    (turnedSlider_rigid hE (by decide)) hparts rfl (fun q => ⟨⟨rfl, rfl, rfl, rfl, rfl⟩, rfl⟩)
  have ht := ready_tree h2
  rw [h4, h3] at ht
  have hid : r.base_orientation_tag = 1 := by
    rw [h2.orientation, ht]
    rfl
  have hlt : 1 < r.rbdl_model.rbdl_model.size := by
    rw [ht]
    show 1 < 3 + 15 + 1
    omega
  refine ⟨r, R, h2, ?_, hd, ?_⟩
  · have hf : ¬ r.rbdl_model.isLinkFixed 1 = true := by
      unfold Rbdl.Model.isLinkFixed
      rw [ht]
      simp [turnedSlider, slider]
    show Robot.getTagOrientation r r.base_orientation_tag = _
    unfold Robot.getTagOrientation Rbdl.Model.getTagOrientation Rbdl.Model.getLinkTransform Rbdl.Model.getXBase
    rw [hid, if_neg hf, require_true hlt, ht]
    show Except.ok (Rᵀ)ᵀ = _
    rw [Matrix.transpose_transpose]
  · rw [ht]
    simp [massOf, baseLinks, bodyLinks, turnedSlider, slider]
    norm_num

/-- So the refutation applies: a robot which is turned by a quarter of a turn to the right. -/
example : ∃ (r : Robot .planar) (R : Mat3 ℝ), Ready r ∧ r.getBaseOrientation = .ok R ∧ DescribesRpy ![0, 0, -(Real.pi / 2)] R ∧
    ∀ s, ∃ s', measure eigenEulerAngles r s = .ok s' ∧ s'.base_state.rpy 2 = Real.pi / 2 := by
  obtain ⟨r, R, h1, h2, h3, -⟩ := turned_exists (-(Real.pi / 2))
  refine ⟨r, R, h1, h2, h3, fun s => ?_⟩
  obtain ⟨s', e, -⟩ := C98_measured C34_eigen h1 s
  refine ⟨s', e, (C98_yaw_refuted h2 h3 ⟨by linarith [Real.pi_pos], by linarith [Real.pi_pos]⟩ e).1.trans (by ring)⟩

/-- The program with the default parameters of the controller, a delay of a millisecond, qpOASES for both problems and a motion of 9900 milliseconds; it makes
84 commands, unless an iteration cannot be made. -/
example (p : IkProblem .planar) (w : Wbc) (m : QpoasesMem ℝ) (sol : Solution ℝ) (par : WbcParameters) (wheels : Mat3 ℝ) (c : RobotCommand ℝ)
    (u : ℕ → LoopMemory) : ∃ (cfg : Settings (QpoasesMem ℝ)) (q : Pepper.MPCParameters) (o : Pepper.ProblemSetup ℝ) (r0 : Robot .planar)
      (Q : List (Pepper.MotionParameters ℝ)) (s0 : ClosedLoop (QpoasesMem ℝ)),
      (∃ good hopeless, ClosedSettings cfg q r0 hierarchy01 (fun s => s.params = SolverParameters.default) good hopeless) ∧
      ClosedStart q o r0 hierarchy01 (fun s => s.params = SolverParameters.default) Q s0 ∧ closedIterations cfg q 9900 = 84 ∧
      ((∃ cs, ClosedReturns cfg u s0 (.ok cs) ∧ cs.length = 84) ∨ ClosedReturns cfg u s0 (.error .thrown)) := by
  obtain ⟨r, R, h1, -, -, hm⟩ := turned_exists 1
  obtain ⟨ext, h3, -⟩ := exists_solver
  obtain ⟨p1, e1⟩ := C95_setup hierarchy01 p
  obtain ⟨b, hb, -⟩ := Pepper.standing_program (K := ℝ) ⟨15, 100, 100⟩ (o := ⟨.maintainVelocity, 1, 1, 1, 1, 1⟩) (by simp)
    (m := ⟨0, 0, 1, 9900, .maintainVelocity⟩) (.inr (by norm_num))
  obtain ⟨good, hopeless, hB⟩ : ∃ good hopeless, SolvesIk (qpoasesIk ext) (fun s => s.params = SolverParameters.default) r hierarchy01 good hopeless :=
    ⟨_, _, C96_qpoases (ks0 := [.baseCoM 1 1, .baseOrientation 1 1, .fixArms, .fixHead, .jointsBounds]) (ks1 := [.bodyCoM 1 1 7#32]) h1
    (fun k hk => by
      simp only [List.mem_cons, List.not_mem_nil, or_false] at hk
      rcases hk with rfl | rfl | rfl | rfl | rfl <;> simp [Weighted, Exact, CanConstrain])
    (fun k hk => by
      simp only [List.mem_cons, List.not_mem_nil, or_false] at hk
      subst hk
      trivial) h3⟩
  have hcfg : ClosedSettings ⟨qpoasesIk ext, ext, ⟨Real.cos, Real.sin⟩, eigenEulerAngles, par, wheels, 1 / 10, 1 / 1000⟩ ⟨15, 100, 100⟩ r hierarchy01
      (fun s => s.params = SolverParameters.default) good hopeless := by
    refine ⟨⟨by norm_num, by norm_num, by norm_num, by decide, fun h => (by cases h)⟩, h3, C34_eigen, h1, by simp [hierarchy01], by simp [hierarchy01],
      hB, by norm_num, by norm_num⟩
  have hstart : ClosedStart ⟨15, 100, 100⟩ ⟨.maintainVelocity, 1, 1, 1, 1, 1⟩ r hierarchy01 (fun s => s.params = SolverParameters.default)
      [⟨0, 0, 1, 9900, .maintainVelocity⟩] (⟨⟨r, w, p1, ⟨.default, m⟩, sol⟩, b, [⟨0, 0, 1, 9900, .maintainVelocity⟩], c⟩ : ClosedLoop (QpoasesMem ℝ)) := by
    refine ⟨⟨.same, .setup e1, rfl, fun r' q _ l hl k hk => ?_⟩, hm, hb.symmetric, rfl, fun m hm => ?_, hb.controller, hb.problem, hb.solver⟩
    · simp only [hierarchy01, List.mem_cons, List.not_mem_nil, or_false] at hl
      rcases hl with rfl | rfl
      · simp only [List.mem_cons, List.not_mem_nil, or_false] at hk
        rcases hk with rfl | rfl | rfl | rfl | rfl <;> trivial
      · simp only [List.mem_cons, List.not_mem_nil, or_false] at hk
        subst hk
        refine ⟨by decide, fun i hi => ?_⟩
        rw [BitVec.getLsbD, Nat.testBit_lt_two_pow]
        calc (7#32).toNat < 2 ^ 3 := by decide
          _ ≤ 2 ^ i := Nat.pow_le_pow_right (by omega) hi
    · rw [List.mem_singleton.1 hm]
      exact hb.proper
  have hn : closedIterations (⟨qpoasesIk ext, ext, ⟨Real.cos, Real.sin⟩, eigenEulerAngles, par, wheels, 1 / 10, 1 / 1000⟩ : Settings (QpoasesMem ℝ))
      ⟨15, 100, 100⟩ 9900 = 84 := by
    have : toMilliseconds (1 / 1000) = 1 := by
      unfold toMilliseconds
      norm_num
    unfold closedIterations period
    simp only [this]
  refine ⟨_, _, _, r, _, _, ⟨_, _, hcfg⟩, hstart, hn, ?_⟩
  rcases C98_run hcfg hstart (fun m hm => by rw [List.mem_singleton.1 hm]; unfold Unlimited; norm_num) (d := 9900) (by simp [totalDuration]) u with
    ⟨cs, k1, k2, -⟩ | ⟨k1, -⟩
  · exact .inl ⟨cs, k1, k2.trans hn⟩
  · exact .inr k1

end Closed

end Humoto
