import Verif.Lemmas.PepperPlainSolvers
import Verif.Props.WpgPlain
import Verif.Props.PepperBetween

/-!
# C117: the programs of Pepper with QuadProg++ and with qpmad
-/

namespace Humoto.Pepper

open Spec Bridge

section
variable {σ : Type} {B : PlainSolver σ} {sub : Bool} {q : MPCParameters} {o : ProblemSetup ℝ} {m : MotionParameters ℝ} {n : ℕ}
  {s0 s : PlainProgram σ} {tr : Trig ℝ} {u : Memory ℝ} {Fails : List (Interval ℝ) → Vec ℝ → Prop}

/-- Problems which have a solution are solved. -/
def NeverFails (o : ProblemSetup ℝ) (Fails : List (Interval ℝ) → Vec ℝ → Prop) : Prop :=
  ∀ (ivs : List (Interval ℝ)) (x0 : Vec ℝ), (∀ iv ∈ ivs, iv.T ≠ 0) → x0.n = 12 → (∀ z, PepperFeasible ivs x0 z → PepperModerate ivs z) →
    ∀ y, PepperBest o ivs x0 0 (fun _ => True) y → ¬ Fails ivs x0

theorem best_least {ivs : List (Interval ℝ)} {x0 : Vec ℝ} (hT : ∀ iv ∈ ivs, iv.T ≠ 0) (h0 : x0.n = 12) {y : ℕ → ℝ}
    (hy : PepperBest o ivs x0 0 (fun _ => True) y) {f : (ℕ → ℝ) → ℝ}
    (hf : ∀ x y X Y, Simulates ivs x0 x X → Simulates ivs x0 y Y → 2 * (f x - f y) = pepperCost o ivs X - pepperCost o ivs Y)
    {z : ℕ → ℝ} (hz : PepperFeasible ivs x0 z) : f y ≤ f z := by
  have h1 := simulation_simulates hT h0 y
  have h2 := simulation_simulates hT h0 z
  have := (hy _ h1).2 z _ h2 (hz _ h2) trivial
  have := hf y z _ _ h1 h2
  linarith

theorem quadprog_never {ext : QuadProgArgs ℝ → QuadProgStatus × List ℝ} (hc : Spec.Wpg.CompleteQuadProg ext) :
    NeverFails o (PepperQuadProgFails ext o) := by
  intro ivs x0 hT h0 _ y hy ⟨a, h1, h2, h3, h4⟩
  refine h4 (hc a _ y h1 ((h2 y).2 fun X hX => (hy X hX).1) fun z hz => ?_)
  exact best_least (f := fun x => quadratic a.G x / 2 + linear a.g0 x) hT h0 hy h3 ((h2 z).1 hz)

theorem qpmad_never {ext : QpmadArgs ℝ → QpmadStatus × List ℝ} (hc : Spec.Wpg.CompleteQpmad ext) :
    NeverFails o (fun ivs x0 => (∀ x, PepperModerate ivs x → ¬ PepperFeasible ivs x0 x) ∨ PepperQpmadFails ext o ivs x0) := by
  intro ivs x0 hT h0 hM y hy hf
  have hyf : PepperFeasible ivs x0 y := fun X hX => (hy X hX).1
  rcases hf with hf | ⟨a, h1, h2, h2', h3, h4⟩
  · exact hf y (hM y hyf) hyf
  · refine h4 (hc a _ y h1 (h2' y hyf (hM y hyf)) fun z hz => ?_)
    exact best_least (f := fun x => lowerQuadratic a.H x / 2 + linear a.h x) hT h0 hy h3 (h2 z hz)

/-- Why an iteration with a complete solver does not succeed. -/
theorem plain_thrown (hq : PepperParameters (plainKind sub) q) (hB : Answers B o Fails) (hc : NeverFails o Fails) (htr : UnitCircle tr)
    (h0 : PepperPlainStart q o m s0) (mem : QpoasesMem ℝ) (hR : ReasonableRobot s0.model.robot_parameters s0.model.state)
    (h : PepperPlainAfter sub B tr s0 n s) {e : Fault} (he : s.iterate sub B tr u = .error e) :
    e = .thrown ∧ ∃ mpc, s.mpc.update u.matrices tr u.horizon s.motion s.model = .ok (mpc, .ok) ∧
      HorizonFor tr q s.model [s.motion] mpc.intervals ∧ ∀ x, ¬ PepperFeasible mpc.intervals s.model.getMPCState x := by
  obtain ⟨⟨last, hI⟩, -⟩ := plain_after hq hB h0 mem h
  have hRs := plain_reasonable hq hB htr h0 mem hR h
  obtain ⟨P1, P2⟩ := plain_step hq hB hI u tr
  by_cases hn : PepperContinues (plainKind sub) q m n
  · rcases P2 hn with ⟨s', mpc, hr, -⟩ | ⟨hr, mpc, hu, hH, hF⟩
    · cases he.symm.trans hr
    · cases he.symm.trans hr
      refine ⟨rfl, mpc, hu, hH, fun x hx => ?_⟩
      obtain ⟨y, hy⟩ := plain_best hq hI hn htr hRs hu hH hx
      exact hc _ _ (horizon_times hH hq.sampling) rfl (fun z hz => pepper_moderate htr hq.sampling hRs hH hz) y hy hF
  · cases he.symm.trans (P1 hn)

/-- Wherever the program with qpOASES comes, the program with a complete solver comes, too. -/
theorem plain_reaches {v : ProgramKind} {ext : Qpoases ℝ} {s0' s' : Program ℝ} (hq : PepperParameters (plainKind sub) q)
    (hq' : PepperParameters v q) (hstep : v.step q = (plainKind sub).step q) (hg : o.baseJerkGain ≠ 0 ∧ o.bodyJerkGain ≠ 0)
    (hB : Answers B o Fails) (hc : NeverFails o Fails) (htr : UnitCircle tr) (hext : TrustedSolver ext) (h0 : PepperPlainStart q o m s0)
    (h0' : PepperStart q o m s0') (hm : s0'.model = s0.model) (hR : ReasonableRobot s0.model.robot_parameters s0.model.state)
    (us : ℕ → Memory ℝ) (h : PepperAfter v ext tr s0' n s') :
    ∃ s, PepperPlainAfter sub B tr s0 n s ∧ s'.model = s.model ∧ s'.motion = s.motion := by
  have mem := s0'.solver.mem
  induction h with
  | start => exact ⟨s0, .start, hm, h0'.motion.trans h0.motion.symm⟩
  | @step n a' b' u' h hs ih =>
    obtain ⟨a, ha, e1, e2⟩ := ih
    obtain ⟨⟨last, hI⟩, -⟩ := plain_after hq hB h0 mem ha
    obtain ⟨⟨last', hI'⟩, -⟩ := pepper_after_inv hq' hext h0' h
    have hRa := plain_reasonable hq hB htr h0 mem hR ha
    obtain ⟨mpc', hG', -⟩ := pepper_made hq' hext h0' h hs
    have hn' : PepperContinues v q m n := by
      by_contra hn
      cases hs.symm.trans ((pepper_step hq' hext hI' u' tr).1 hn)
    have hn : PepperContinues (plainKind sub) q m n := by unfold PepperContinues at hn' ⊢; rw [← hstep]; exact hn'
    rcases (plain_step hq hB hI (us n) tr).2 hn with ⟨b, mpc, hr, hG, -, hflat⟩ | ⟨hr, -⟩
    · obtain ⟨m1, m2, -⟩ := plain_same_step hq hstep hg htr hRa e1 e2 hflat hs hG hG'
      exact ⟨b, .step ha hr, m1, m2⟩
    · exfalso
      obtain ⟨-, mpc, hu, hH, hno⟩ := plain_thrown hq hB hc htr h0 mem hR ha hr
      have hH' := hG'.horizon
      have hb' := hG'.best
      rw [e1, e2] at hH'
      rw [e1, ← horizon_unique hH hH'] at hb'
      exact hno _ fun X hX => (hb' X hX).1

end

/-- The program with qpOASES which begins as the given one. -/
theorem plain_beginning {σ : Type} {q : MPCParameters} {o : ProblemSetup ℝ} {m : MotionParameters ℝ} {s0 : PlainProgram σ}
    (h : PepperPlainStart q o m s0) : ∃ s0', PepperStart q o m s0' ∧ s0'.model = s0.model := by
  obtain ⟨P, hP⟩ := h.problem
  obtain ⟨d, -, -⟩ := standing_program (K := ℝ) q (setup_mode hP) h.proper
  exact ⟨s0.qpoases d.solver.mem, plain_begin h _, rfl⟩

/-! ## QuadProg++ -/

section
variable {sub : Bool} {q : MPCParameters} {o : ProblemSetup ℝ} {m : MotionParameters ℝ} {n : ℕ}
  {ext : QuadProgArgs ℝ → QuadProgStatus × List ℝ} {s0 s : PlainProgram (QPObjective ℝ × QPConstraintsABAL ℝ)} {tr : Trig ℝ}

/-- **C117.** With QuadProg++, after any number of iterations, whatever is in memory: if what remains of the motion does not cover the
horizon, the loop is left; otherwise an iteration either finds the best allowed motion and moves the robot along it, or it ends with an
exception, since QuadProg++ was given the problem of the best motion and failed. There is no undefined behaviour. -/
theorem C117_quadprog (hq : PepperParameters (plainKind sub) q) (hg : o.baseJerkGain ≠ 0 ∧ o.bodyJerkGain ≠ 0) (hext : TrustedQuadProg ext)
    (h0 : PepperPlainStart q o m s0) (h : PepperPlainAfter sub (quadprogSolver ext) tr s0 n s) (u : Memory ℝ) :
    (¬ PepperContinues (plainKind sub) q m n → s.iterate sub (quadprogSolver ext) tr u = .ok none) ∧
    (PepperContinues (plainKind sub) q m n →
      (∃ s' mpc, s.iterate sub (quadprogSolver ext) tr u = .ok (some s') ∧ PepperPlainIteration sub tr q o u s mpc s') ∨
      (s.iterate sub (quadprogSolver ext) tr u = .error .thrown ∧ ∃ mpc, s.mpc.update u.matrices tr u.horizon s.motion s.model = .ok (mpc, .ok) ∧
        PepperQuadProgFails ext o mpc.intervals s.model.getMPCState)) := by
  obtain ⟨d, -, -⟩ := plain_beginning h0
  obtain ⟨⟨last, hI⟩, -⟩ := plain_after hq (quadprog_answers hg hext) h0 d.solver.mem h
  obtain ⟨P1, P2⟩ := plain_step hq (quadprog_answers hg hext) hI u tr
  refine ⟨P1, fun hn => ?_⟩
  rcases P2 hn with ⟨s', mpc, h1, h2, -⟩ | ⟨h1, mpc, h2, -, h3⟩
  · exact .inl ⟨s', mpc, h1, h2⟩
  · exact .inr ⟨h1, mpc, h2, h3⟩

/-- **C117.** If QuadProg++ solves all problems which have a solution, then an iteration fails only with an exception, and only if no motion
is allowed. -/
theorem C117_quadprog_thrown (hq : PepperParameters (plainKind sub) q) (hg : o.baseJerkGain ≠ 0 ∧ o.bodyJerkGain ≠ 0)
    (hext : TrustedQuadProg ext) (hc : Spec.Wpg.CompleteQuadProg ext) (htr : UnitCircle tr) (h0 : PepperPlainStart q o m s0)
    (hR : ReasonableRobot s0.model.robot_parameters s0.model.state) (h : PepperPlainAfter sub (quadprogSolver ext) tr s0 n s) {u : Memory ℝ}
    {e : Fault} (he : s.iterate sub (quadprogSolver ext) tr u = .error e) :
    e = .thrown ∧ ∃ mpc, s.mpc.update u.matrices tr u.horizon s.motion s.model = .ok (mpc, .ok) ∧
      ∀ x, ¬ PepperFeasible mpc.intervals s.model.getMPCState x := by
  obtain ⟨d, -, -⟩ := plain_beginning h0
  obtain ⟨h1, mpc, h2, -, h3⟩ := plain_thrown hq (quadprog_answers hg hext) (quadprog_never hc) htr h0 d.solver.mem hR h he
  exact ⟨h1, mpc, h2, h3⟩

/-- **C117.** With QuadProg++ the robot moves as with qpOASES, whatever is in memory and whatever guesses are given to qpOASES: after the
same number of iterations the robot is in the same state, the same motion remains, the last solutions are equal. -/
theorem C117_quadprog_same {v : ProgramKind} {ext' : Qpoases ℝ} {s0' : Program ℝ} (hq : PepperParameters (plainKind sub) q)
    (hq' : PepperParameters v q) (hstep : v.step q = (plainKind sub).step q) (hg : o.baseJerkGain ≠ 0 ∧ o.bodyJerkGain ≠ 0)
    (hext : TrustedQuadProg ext) (hext' : TrustedSolver ext') (hc' : CompleteSolver ext') (htr : UnitCircle tr) (h0 : PepperPlainStart q o m s0)
    (h0' : PepperStart q o m s0') (hm : s0'.model = s0.model) (hR : ReasonableRobot s0.model.robot_parameters s0.model.state)
    (h : PepperPlainAfter sub (quadprogSolver ext) tr s0 n s) :
    (∃ s', PepperAfter v ext' tr s0' n s') ∧ ∀ s', PepperAfter v ext' tr s0' n s' →
      s'.model = s.model ∧ s'.motion = s.motion ∧ (0 < n → s'.solution.x = s.solution.x) := by
  obtain ⟨a, ha, e1, e2, e3⟩ := plain_same hq hq' hstep hg (quadprog_answers hg hext) htr hext' hc' h0 h0' hm hR h
  refine ⟨⟨a, ha⟩, fun s' hs' => ?_⟩
  obtain ⟨h1, h2⟩ := C107_same hq' hq' rfl hg htr hext' hext' h0' h0' rfl (by rw [hm]; exact hR) ha hs'
  exact ⟨h1.model.trans e1, h1.motion.trans e2, fun hn => (h2 hn).trans (e3 hn)⟩

/-- **C117.** If QuadProg++ solves all problems which have a solution, then the program makes as many iterations as the one with qpOASES,
and the robot comes to the same states. -/
theorem C117_quadprog_reaches {v : ProgramKind} {ext' : Qpoases ℝ} {s0' s' : Program ℝ} (hq : PepperParameters (plainKind sub) q)
    (hq' : PepperParameters v q) (hstep : v.step q = (plainKind sub).step q) (hg : o.baseJerkGain ≠ 0 ∧ o.bodyJerkGain ≠ 0)
    (hext : TrustedQuadProg ext) (hc : Spec.Wpg.CompleteQuadProg ext) (hext' : TrustedSolver ext') (htr : UnitCircle tr)
    (h0 : PepperPlainStart q o m s0) (h0' : PepperStart q o m s0') (hm : s0'.model = s0.model)
    (hR : ReasonableRobot s0.model.robot_parameters s0.model.state) (u : ℕ → Memory ℝ) (h : PepperAfter v ext' tr s0' n s') :
    ∃ s, PepperPlainAfter sub (quadprogSolver ext) tr s0 n s ∧ s'.model = s.model ∧ s'.motion = s.motion :=
  plain_reaches hq hq' hstep hg (quadprog_answers hg hext) (quadprog_never hc) htr hext' h0 h0' hm hR u h

/-- **C117.** If iterations advance by whole intervals, then after each of them the robot is within the bounds. -/
theorem C117_quadprog_safe (hq : PepperParameters (plainKind sub) q) (hg : o.baseJerkGain ≠ 0 ∧ o.bodyJerkGain ≠ 0)
    (hext : TrustedQuadProg ext) (htr : UnitCircle tr) (h0 : PepperPlainStart q o m s0)
    (hR : ReasonableRobot s0.model.robot_parameters s0.model.state) (hstep : (plainKind sub).step q = q.sampling_time_ms)
    (h : PepperPlainAfter sub (quadprogSolver ext) tr s0 (n + 1) s) : PepperSafe tr s0.model.robot_parameters s.model.state := by
  obtain ⟨ext', h1, h2⟩ := exists_solver
  obtain ⟨s0', h0', hm⟩ := plain_beginning h0
  obtain ⟨⟨s', hs'⟩, hsame⟩ := C117_quadprog_same hq hq rfl hg hext h1 h2 htr h0 h0' hm hR h
  rw [← (hsame s' hs').1, ← hm]
  exact C87_safe hq h1 h0' hstep hs'

/-- **C117.** Also the centre of pressure is within its bounds, if the robot has the default masses at the beginning, or after the second
iteration. -/
theorem C117_quadprog_cop (hq : PepperParameters (plainKind sub) q) (hg : o.baseJerkGain ≠ 0 ∧ o.bodyJerkGain ≠ 0)
    (hext : TrustedQuadProg ext) (htr : UnitCircle tr) (h0 : PepperPlainStart q o m s0)
    (hR : ReasonableRobot s0.model.robot_parameters s0.model.state) (hstep : (plainKind sub).step q = q.sampling_time_ms)
    (hms : 0 < n ∨ s0.model.state.base_mass = 1634234 / 100000 ∧ s0.model.state.body_mass = 123389 / 10000)
    (h : PepperPlainAfter sub (quadprogSolver ext) tr s0 (n + 1) s) :
    WithinBounds s0.model.robot_parameters.cop_bounds fun a => centreOfPressure s.model.state a.castSucc := by
  obtain ⟨ext', h1, h2⟩ := exists_solver
  obtain ⟨s0', h0', hm⟩ := plain_beginning h0
  obtain ⟨⟨s', hs'⟩, hsame⟩ := C117_quadprog_same hq hq rfl hg hext h1 h2 htr h0 h0' hm hR h
  rw [← hm] at hms
  rw [← (hsame s' hs').1, ← hm]
  exact C87_cop hq h1 h0' hstep hms hs'

/-- **C117.** If iterations advance by parts of intervals, and the base is within its bounds at the beginning, then after every number of
iterations its acceleration is within the bounds, and its velocity leaves them by at most half of what remains of the interval times the range
of the acceleration. -/
theorem C117_quadprog_parts (hq : PepperParameters (plainKind sub) q) (hg : o.baseJerkGain ≠ 0 ∧ o.bodyJerkGain ≠ 0)
    (hext : TrustedQuadProg ext) (htr : UnitCircle tr) (h0 : PepperPlainStart q o m s0)
    (hR : ReasonableRobot s0.model.robot_parameters s0.model.state)
    (ha : WithinBounds s0.model.robot_parameters.nominal_base_acceleration_bounds fun a => s0.model.state.base_state.acceleration a.castSucc)
    (hv : WithinBounds s0.model.robot_parameters.nominal_base_velocity_bounds fun a => s0.model.state.base_state.velocity a.castSucc)
    (h : PepperPlainAfter sub (quadprogSolver ext) tr s0 n s) :
    WithinBounds s0.model.robot_parameters.nominal_base_acceleration_bounds (fun a => s.model.state.base_state.acceleration a.castSucc) ∧
    AlmostWithin s0.model.robot_parameters.nominal_base_velocity_bounds
      (fun a => ((q.sampling_time_ms : ℝ) - (plainKind sub).step q) / 1000 / 2 *
        (s0.model.robot_parameters.nominal_base_acceleration_bounds a 1 - s0.model.robot_parameters.nominal_base_acceleration_bounds a 0))
      fun a => s.model.state.base_state.velocity a.castSucc := by
  obtain ⟨ext', h1, h2⟩ := exists_solver
  obtain ⟨s0', h0', hm⟩ := plain_beginning h0
  obtain ⟨⟨s', hs'⟩, hsame⟩ := C117_quadprog_same hq hq rfl hg hext h1 h2 htr h0 h0' hm hR h
  rw [← hm] at ha hv
  rw [← (hsame s' hs').1, ← hm]
  exact ⟨C87_acceleration hq h1 h0' ha hs', C113_parts hq h1 h0' ha hv hs'⟩

end

/-! ## qpmad -/

section
variable {sub : Bool} {q : MPCParameters} {o : ProblemSetup ℝ} {m : MotionParameters ℝ} {n : ℕ}
  {ext : QpmadArgs ℝ → QpmadStatus × List ℝ} {s0 s : PlainProgram (QPObjective ℝ × QPConstraintsILUALU ℝ)} {tr : Trig ℝ}

/-- **C117.** With qpmad, after any number of iterations, whatever is in memory: if what remains of the motion does not cover the horizon,
the loop is left; otherwise an iteration either finds the best allowed motion and moves the robot along it, or it ends with an exception,
since no motion below the library infinity is allowed or since qpmad was given the problem of the best motion and failed. There is no
undefined behaviour. -/
theorem C117_qpmad (hq : PepperParameters (plainKind sub) q) (hg : o.baseJerkGain ≠ 0 ∧ o.bodyJerkGain ≠ 0) (hext : TrustedQpmad ext)
    (h0 : PepperPlainStart q o m s0) (h : PepperPlainAfter sub (qpmadSolver ext) tr s0 n s) (u : Memory ℝ) :
    (¬ PepperContinues (plainKind sub) q m n → s.iterate sub (qpmadSolver ext) tr u = .ok none) ∧
    (PepperContinues (plainKind sub) q m n →
      (∃ s' mpc, s.iterate sub (qpmadSolver ext) tr u = .ok (some s') ∧ PepperPlainIteration sub tr q o u s mpc s') ∨
      (s.iterate sub (qpmadSolver ext) tr u = .error .thrown ∧ ∃ mpc, s.mpc.update u.matrices tr u.horizon s.motion s.model = .ok (mpc, .ok) ∧
        ((∀ x, PepperModerate mpc.intervals x → ¬ PepperFeasible mpc.intervals s.model.getMPCState x) ∨
          PepperQpmadFails ext o mpc.intervals s.model.getMPCState))) := by
  obtain ⟨d, -, -⟩ := plain_beginning h0
  obtain ⟨⟨last, hI⟩, -⟩ := plain_after hq (qpmad_answers hg hext) h0 d.solver.mem h
  obtain ⟨P1, P2⟩ := plain_step hq (qpmad_answers hg hext) hI u tr
  refine ⟨P1, fun hn => ?_⟩
  rcases P2 hn with ⟨s', mpc, h1, h2, -⟩ | ⟨h1, mpc, h2, -, h3⟩
  · exact .inl ⟨s', mpc, h1, h2⟩
  · exact .inr ⟨h1, mpc, h2, h3⟩

/-- **C117.** If qpmad solves all problems which have a solution, then an iteration fails only with an exception, and only if no motion is
allowed. -/
theorem C117_qpmad_thrown (hq : PepperParameters (plainKind sub) q) (hg : o.baseJerkGain ≠ 0 ∧ o.bodyJerkGain ≠ 0)
    (hext : TrustedQpmad ext) (hc : Spec.Wpg.CompleteQpmad ext) (htr : UnitCircle tr) (h0 : PepperPlainStart q o m s0)
    (hR : ReasonableRobot s0.model.robot_parameters s0.model.state) (h : PepperPlainAfter sub (qpmadSolver ext) tr s0 n s) {u : Memory ℝ}
    {e : Fault} (he : s.iterate sub (qpmadSolver ext) tr u = .error e) :
    e = .thrown ∧ ∃ mpc, s.mpc.update u.matrices tr u.horizon s.motion s.model = .ok (mpc, .ok) ∧
      ∀ x, ¬ PepperFeasible mpc.intervals s.model.getMPCState x := by
  obtain ⟨d, -, -⟩ := plain_beginning h0
  obtain ⟨h1, mpc, h2, -, h3⟩ := plain_thrown hq (qpmad_answers hg hext) (qpmad_never hc) htr h0 d.solver.mem hR h he
  exact ⟨h1, mpc, h2, h3⟩

/-- **C117.** With qpmad the robot moves as with qpOASES, whatever is in memory and whatever guesses are given to qpOASES: after the
same number of iterations the robot is in the same state, the same motion remains, the last solutions are equal. -/
theorem C117_qpmad_same {v : ProgramKind} {ext' : Qpoases ℝ} {s0' : Program ℝ} (hq : PepperParameters (plainKind sub) q)
    (hq' : PepperParameters v q) (hstep : v.step q = (plainKind sub).step q) (hg : o.baseJerkGain ≠ 0 ∧ o.bodyJerkGain ≠ 0)
    (hext : TrustedQpmad ext) (hext' : TrustedSolver ext') (hc' : CompleteSolver ext') (htr : UnitCircle tr) (h0 : PepperPlainStart q o m s0)
    (h0' : PepperStart q o m s0') (hm : s0'.model = s0.model) (hR : ReasonableRobot s0.model.robot_parameters s0.model.state)
    (h : PepperPlainAfter sub (qpmadSolver ext) tr s0 n s) :
    (∃ s', PepperAfter v ext' tr s0' n s') ∧ ∀ s', PepperAfter v ext' tr s0' n s' →
      s'.model = s.model ∧ s'.motion = s.motion ∧ (0 < n → s'.solution.x = s.solution.x) := by
  obtain ⟨a, ha, e1, e2, e3⟩ := plain_same hq hq' hstep hg (qpmad_answers hg hext) htr hext' hc' h0 h0' hm hR h
  refine ⟨⟨a, ha⟩, fun s' hs' => ?_⟩
  obtain ⟨h1, h2⟩ := C107_same hq' hq' rfl hg htr hext' hext' h0' h0' rfl (by rw [hm]; exact hR) ha hs'
  exact ⟨h1.model.trans e1, h1.motion.trans e2, fun hn => (h2 hn).trans (e3 hn)⟩

/-- **C117.** If qpmad solves all problems which have a solution, then the program makes as many iterations as the one with qpOASES, and
the robot comes to the same states. -/
theorem C117_qpmad_reaches {v : ProgramKind} {ext' : Qpoases ℝ} {s0' s' : Program ℝ} (hq : PepperParameters (plainKind sub) q)
    (hq' : PepperParameters v q) (hstep : v.step q = (plainKind sub).step q) (hg : o.baseJerkGain ≠ 0 ∧ o.bodyJerkGain ≠ 0)
    (hext : TrustedQpmad ext) (hc : Spec.Wpg.CompleteQpmad ext) (hext' : TrustedSolver ext') (htr : UnitCircle tr)
    (h0 : PepperPlainStart q o m s0) (h0' : PepperStart q o m s0') (hm : s0'.model = s0.model)
    (hR : ReasonableRobot s0.model.robot_parameters s0.model.state) (u : ℕ → Memory ℝ) (h : PepperAfter v ext' tr s0' n s') :
    ∃ s, PepperPlainAfter sub (qpmadSolver ext) tr s0 n s ∧ s'.model = s.model ∧ s'.motion = s.motion :=
  plain_reaches hq hq' hstep hg (qpmad_answers hg hext) (qpmad_never hc) htr hext' h0 h0' hm hR u h

/-- **C117.** If iterations advance by whole intervals, then after each of them the robot is within the bounds. -/
theorem C117_qpmad_safe (hq : PepperParameters (plainKind sub) q) (hg : o.baseJerkGain ≠ 0 ∧ o.bodyJerkGain ≠ 0)
    (hext : TrustedQpmad ext) (htr : UnitCircle tr) (h0 : PepperPlainStart q o m s0)
    (hR : ReasonableRobot s0.model.robot_parameters s0.model.state) (hstep : (plainKind sub).step q = q.sampling_time_ms)
    (h : PepperPlainAfter sub (qpmadSolver ext) tr s0 (n + 1) s) : PepperSafe tr s0.model.robot_parameters s.model.state := by
  obtain ⟨ext', h1, h2⟩ := exists_solver
  obtain ⟨s0', h0', hm⟩ := plain_beginning h0
  obtain ⟨⟨s', hs'⟩, hsame⟩ := C117_qpmad_same hq hq rfl hg hext h1 h2 htr h0 h0' hm hR h
  rw [← (hsame s' hs').1, ← hm]
  exact C87_safe hq h1 h0' hstep hs'

/-- **C117.** Also the centre of pressure is within its bounds, if the robot has the default masses at the beginning, or after the second
iteration. -/
theorem C117_qpmad_cop (hq : PepperParameters (plainKind sub) q) (hg : o.baseJerkGain ≠ 0 ∧ o.bodyJerkGain ≠ 0)
    (hext : TrustedQpmad ext) (htr : UnitCircle tr) (h0 : PepperPlainStart q o m s0)
    (hR : ReasonableRobot s0.model.robot_parameters s0.model.state) (hstep : (plainKind sub).step q = q.sampling_time_ms)
    (hms : 0 < n ∨ s0.model.state.base_mass = 1634234 / 100000 ∧ s0.model.state.body_mass = 123389 / 10000)
    (h : PepperPlainAfter sub (qpmadSolver ext) tr s0 (n + 1) s) :
    WithinBounds s0.model.robot_parameters.cop_bounds fun a => centreOfPressure s.model.state a.castSucc := by
  obtain ⟨ext', h1, h2⟩ := exists_solver
  obtain ⟨s0', h0', hm⟩ := plain_beginning h0
  obtain ⟨⟨s', hs'⟩, hsame⟩ := C117_qpmad_same hq hq rfl hg hext h1 h2 htr h0 h0' hm hR h
  rw [← hm] at hms
  rw [← (hsame s' hs').1, ← hm]
  exact C87_cop hq h1 h0' hstep hms hs'

/-- **C117.** If iterations advance by parts of intervals, and the base is within its bounds at the beginning, then after every number of
iterations its acceleration is within the bounds, and its velocity leaves them by at most half of what remains of the interval times the range
of the acceleration. -/
theorem C117_qpmad_parts (hq : PepperParameters (plainKind sub) q) (hg : o.baseJerkGain ≠ 0 ∧ o.bodyJerkGain ≠ 0)
    (hext : TrustedQpmad ext) (htr : UnitCircle tr) (h0 : PepperPlainStart q o m s0)
    (hR : ReasonableRobot s0.model.robot_parameters s0.model.state)
    (ha : WithinBounds s0.model.robot_parameters.nominal_base_acceleration_bounds fun a => s0.model.state.base_state.acceleration a.castSucc)
    (hv : WithinBounds s0.model.robot_parameters.nominal_base_velocity_bounds fun a => s0.model.state.base_state.velocity a.castSucc)
    (h : PepperPlainAfter sub (qpmadSolver ext) tr s0 n s) :
    WithinBounds s0.model.robot_parameters.nominal_base_acceleration_bounds (fun a => s.model.state.base_state.acceleration a.castSucc) ∧
    AlmostWithin s0.model.robot_parameters.nominal_base_velocity_bounds
      (fun a => ((q.sampling_time_ms : ℝ) - (plainKind sub).step q) / 1000 / 2 *
        (s0.model.robot_parameters.nominal_base_acceleration_bounds a 1 - s0.model.robot_parameters.nominal_base_acceleration_bounds a 0))
      fun a => s.model.state.base_state.velocity a.castSucc := by
  obtain ⟨ext', h1, h2⟩ := exists_solver
  obtain ⟨s0', h0', hm⟩ := plain_beginning h0
  obtain ⟨⟨s', hs'⟩, hsame⟩ := C117_qpmad_same hq hq rfl hg hext h1 h2 htr h0 h0' hm hR h
  rw [← hm] at ha hv
  rw [← (hsame s' hs').1, ← hm]
  exact ⟨C87_acceleration hq h1 h0' ha hs', C113_parts hq h1 h0' ha hv hs'⟩

end

/-! ### The hypotheses are met -/

/-- Programs which advance by the sampling time or by the equal subsampling time, with the default parameters of the controller and a
motion of 9900 milliseconds: 85 iterations with both solvers. -/
example (sub : Bool) (u : ℕ → Memory ℝ) : ∃ ext ext' s0 s s0' s', TrustedQuadProg ext ∧ Spec.Wpg.CompleteQuadProg ext ∧ TrustedQpmad ext' ∧
    Spec.Wpg.CompleteQpmad ext' ∧ UnitCircle (⟨Real.cos, Real.sin⟩ : Trig ℝ) ∧ PepperParameters (plainKind sub) ⟨15, 100, 100⟩ ∧
    (plainKind sub).step ⟨15, 100, 100⟩ = 100 ∧
    PepperPlainStart ⟨15, 100, 100⟩ ⟨.maintainVelocity, 1, 1, 1, 1, 1⟩ ⟨0, 0, 1, 9900, .maintainVelocity⟩ s0 ∧
    ReasonableRobot s0.model.robot_parameters s0.model.state ∧
    PepperPlainStart ⟨15, 100, 100⟩ ⟨.maintainVelocity, 1, 1, 1, 1, 1⟩ ⟨0, 0, 1, 9900, .maintainVelocity⟩ s0' ∧
    ReasonableRobot s0'.model.robot_parameters s0'.model.state ∧
    PepperPlainAfter sub (quadprogSolver ext) ⟨Real.cos, Real.sin⟩ s0 85 s ∧
    PepperPlainAfter sub (qpmadSolver ext') ⟨Real.cos, Real.sin⟩ s0' 85 s' := by
  obtain ⟨ext, h1, h2⟩ := Wpg.exists_real_quadprog
  obtain ⟨ext', h3, h4⟩ := Wpg.exists_real_qpmad
  obtain ⟨ex, h5, h6⟩ := exists_solver
  have hstep : (plainKind sub).step ⟨15, 100, 100⟩ = 100 := by cases sub <;> rfl
  have hq : PepperParameters (plainKind sub) ⟨15, 100, 100⟩ :=
    ⟨by norm_num, by norm_num, by norm_num, by rw [hstep]; norm_num, fun _ => .inl (by norm_num)⟩
  obtain ⟨d, h0, hs⟩ := standing_program (K := ℝ) ⟨15, 100, 100⟩ (o := ⟨.maintainVelocity, 1, 1, 1, 1, 1⟩) (by simp)
    (m := ⟨0, 0, 1, 9900, .maintainVelocity⟩) (.inr (by norm_num))
  have hst : StandsAt 0 d.model.state := by rw [hs]; exact standing_stands
  have hmay : MayStand d.model.robot_parameters := by rw [hs]; exact standing_may
  have hR : ReasonableRobot d.model.robot_parameters d.model.state := by rw [hs]; exact standing_reasonable
  have hc := (C87_completes (tr := ⟨Real.cos, Real.sin⟩) hq h5 h6 h0 hst (by unfold AsksToStand; rw [if_neg (by simp)]) hmay
    ⟨one_ne_zero, one_ne_zero⟩ u).1
  obtain ⟨r, k1, -, ⟨e, rfl, k3⟩ | ⟨-, k2⟩⟩ := C87_run (tr := ⟨Real.cos, Real.sin⟩) hq h5 h0 (d := 9900) rfl u
  · have : pepperIterations (plainKind sub) ⟨15, 100, 100⟩ 9900 = 85 := by unfold pepperIterations; rw [hstep]; rfl
    rw [this] at k3
    let s0 : PlainProgram (QPObjective ℝ × QPConstraintsABAL ℝ) := ⟨d.model, d.motion, d.mpc, d.problem, ⟨SolverParameters.default,
      ⟨⟨Mat.const 0 0 0, Vec.const 0 0, .undefined⟩, ⟨⟨0, Mat.const 0 0 0, Vec.const 0 0⟩, ⟨0, Mat.const 0 0 0, Vec.const 0 0⟩⟩⟩⟩, d.solution⟩
    let s0' : PlainProgram (QPObjective ℝ × QPConstraintsILUALU ℝ) := ⟨d.model, d.motion, d.mpc, d.problem, ⟨SolverParameters.default,
      ⟨⟨Mat.const 0 0 0, Vec.const 0 0, .undefined⟩, ⟨⟨0, Mat.const 0 0 0, Vec.const 0 0, Vec.const 0 0⟩,
        ⟨0, ⟨0, fun _ => 0⟩, Vec.const 0 0, Vec.const 0 0⟩, Vec.const 0 0, Vec.const 0 0⟩⟩⟩, d.solution⟩
    have i0 : PepperPlainStart ⟨15, 100, 100⟩ ⟨.maintainVelocity, 1, 1, 1, 1, 1⟩ ⟨0, 0, 1, 9900, .maintainVelocity⟩ s0 :=
      ⟨h0.masses, h0.symmetric, h0.motion, h0.proper, h0.controller, h0.problem, rfl⟩
    have i0' : PepperPlainStart ⟨15, 100, 100⟩ ⟨.maintainVelocity, 1, 1, 1, 1, 1⟩ ⟨0, 0, 1, 9900, .maintainVelocity⟩ s0' :=
      ⟨h0.masses, h0.symmetric, h0.motion, h0.proper, h0.controller, h0.problem, rfl⟩
    obtain ⟨s, a1, -⟩ := C117_quadprog_reaches hq hq rfl ⟨one_ne_zero, one_ne_zero⟩ h1 h2 h5 real_circle i0 h0 rfl hR u k3
    obtain ⟨s', a2, -⟩ := C117_qpmad_reaches hq hq rfl ⟨one_ne_zero, one_ne_zero⟩ h3 h4 h5 real_circle i0' h0 rfl hR u k3
    exact ⟨ext, ext', s0, s, s0', s', h1, h2, h3, h4, real_circle, hq, hstep, i0, hR, i0', hR, a1, a2⟩
  · exact absurd k2 hc

end Humoto.Pepper
