import Verif.Spec.PepperPlain
import Verif.Props.PepperHotstart

/-!
# Invariants of the programs of Pepper with other solvers
-/

namespace Humoto.Pepper

open Spec Bridge

variable {σ : Type} {B : PlainSolver σ}

/-- What the solver does with the problems of the programs. -/
def Answers (B : PlainSolver σ) (o : ProblemSetup ℝ) (Fails : List (Interval ℝ) → Vec ℝ → Prop) : Prop :=
  ∀ (model : Model ℝ) (mpc : Mpc ℝ) (p : Problem ℝ), PepperUpdated model mpc → PepperFormed o mpc p → ∀ (u : Memory ℝ) (sol : Solution ℝ),
    SolutionFor mpc.intervals.length sol → ∀ s : SolverState σ, s.params = SolverParameters.default →
    (∃ sol' sv, (B u).solve sol p.hierarchy .plain s = (.ok (sol', none), sv) ∧ sv.params = SolverParameters.default ∧
      SolutionFor mpc.intervals.length sol' ∧
      PepperBest o mpc.intervals model.getMPCState 0 (PepperModerate mpc.intervals) (Spec.entries sol'.x)) ∨
    ∃ sv, (B u).solve sol p.hierarchy .plain s = (.error .thrown, sv) ∧ Fails mpc.intervals model.getMPCState

/-- A program with qpOASES in the same state. -/
def PlainProgram.qpoases (s : PlainProgram σ) (mem : QpoasesMem ℝ) : Program ℝ :=
  ⟨s.model, s.motion, s.mpc, s.problem, ⟨SolverParameters.default, mem⟩, s.solution, ⟨.empty, [], .undefined⟩, s.solution⟩

section
variable {sub : Bool} {q : MPCParameters} {o : ProblemSetup ℝ} {m : MotionParameters ℝ} {n : ℕ} {s : PlainProgram σ} {last : Option ℕ}
  {tr : Trig ℝ} {u : Memory ℝ} {mpc : Mpc ℝ} {Fails : List (Interval ℝ) → Vec ℝ → Prop} {mem : QpoasesMem ℝ}

/-- The invariant of the programs. -/
structure PlainInv (mem : QpoasesMem ℝ) (sub : Bool) (q : MPCParameters) (o : ProblemSetup ℝ) (m : MotionParameters ℝ) (n : ℕ)
    (s : PlainProgram σ) (last : Option ℕ) : Prop where
  same : PepperInv (plainKind sub) q o m n (s.qpoases mem) last
  solver : s.solver.params = SolverParameters.default

theorem plain_begin (h : PepperPlainStart q o m s) (mem : QpoasesMem ℝ) : PepperStart q o m (s.qpoases mem) :=
  ⟨h.masses, h.symmetric, h.motion, h.proper, h.controller, h.problem, rfl, rfl⟩

theorem plain_start (h : PepperPlainStart q o m s) (mem : QpoasesMem ℝ) : PlainInv mem sub q o m 0 s none :=
  ⟨pepper_start (plain_begin h mem), h.solver⟩

theorem plain_advance {a : Program ℝ} (h : (s.qpoases mem).advance (plainKind sub) = .ok a) :
    s.advance sub = .ok { s with mpc := a.mpc, model := a.model } ∧ ∃ st, a.model = s.model.updateState st ∧ FlatState st := by
  refine ⟨?_, advance_flat h⟩
  unfold Program.advance at h
  rw [bind_eq_ok] at h
  obtain ⟨⟨c, st⟩, h1, h2⟩ := h
  cases h2
  unfold PlainProgram.advance
  have h1 : (if sub = true then (do
      let c ← s.mpc.parseSolution s.solution
      let st ← c.getModelStateMs s.model c.parameters.subsampling_time_ms
      pure (c, st))
    else s.mpc.parseAndGetNextModelState s.solution s.model) = .ok (c, st) := h1
  rw [h1]
  rfl

theorem plain_solve (hB : Answers B o Fails) (hI : PlainInv mem sub q o m n s last) (hU : PepperUpdated s.model mpc)
    (m' : MotionParameters ℝ) :
    (∃ p1 sv sol, s.solveProblem B u mpc m' = .ok { s with motion := m', mpc := mpc, problem := p1, solver := sv, solution := sol } ∧
      PepperProblemAfter o p1 ∧ sv.params = SolverParameters.default ∧ SolutionFor mpc.intervals.length sol ∧
      PepperBest o mpc.intervals s.model.getMPCState 0 (PepperModerate mpc.intervals) (Spec.entries sol.x)) ∨
    (s.solveProblem B u mpc m' = .error .thrown ∧ Fails mpc.intervals s.model.getMPCState) := by
  have hR := pepper_ready hU
  have hst : mpc.matrices.solution = solutionStructure mpc.intervals.length := hR.consistent.1
  have hnv : mpc.matrices.solution.nvars = 4 * mpc.intervals.length := by rw [hst, nvars_solutionStructure]
  obtain ⟨sol, e1, hsol⟩ : ∃ sol, initSolutionStructure mpc.matrices.solution s.solution u.solution = .ok sol ∧
      SolutionFor mpc.intervals.length sol := by
    refine ⟨s.solution.resize mpc.matrices.solution u.solution, ?_, hst, ?_⟩
    · unfold initSolutionStructure
      rw [assertThat_true (by rw [hst]; rfl)]
      rfl
    · show (if _ then _ else _ : List ℝ).length = 4 * mpc.intervals.length
      split
      · rename_i h; rw [h, hnv]
      · rw [List.length_map, List.length_range, hnv]
  have hp : PepperProblemAfter o s.problem := hI.same.problem
  obtain ⟨p1, -, -, e2, -⟩ := C86_form hp hU u.tasks u.taskIndices
  have hF : PepperFormed o mpc p1 := ⟨_, _, _, _, .inr hp, e2⟩
  rcases hB s.model mpc p1 hU hF u sol hsol s.solver hI.solver with ⟨sol', sv, h1, h2, h3, h4⟩ | ⟨sv, h1, h2⟩
  · left
    refine ⟨p1, sv, sol', ?_, .form hp hU e2, h2, h3, h4⟩
    unfold PlainProgram.solveProblem
    rw [e1, ok_bind, e2, ok_bind, h1]
    rfl
  · right
    refine ⟨?_, h2⟩
    unfold PlainProgram.solveProblem
    rw [e1, ok_bind, e2, ok_bind, h1]

theorem _root_.Humoto.Spec.PepperPlainIteration.qpoases {s' : PlainProgram σ} (h : PepperPlainIteration sub tr q o u s mpc s')
    (mem : QpoasesMem ℝ) : PepperIteration (plainKind sub) tr q o u (s.qpoases mem) mpc (s'.qpoases mem) :=
  ⟨h.update, h.horizon, h.size, h.best, h.moves, h.robot, h.motion⟩

/-- An iteration. -/
theorem plain_step (hq : PepperParameters (plainKind sub) q) (hB : Answers B o Fails) (hI : PlainInv mem sub q o m n s last) (u : Memory ℝ)
    (tr : Trig ℝ) :
    (¬ PepperContinues (plainKind sub) q m n → s.iterate sub B tr u = .ok none) ∧
    (PepperContinues (plainKind sub) q m n →
      (∃ s' mpc, s.iterate sub B tr u = .ok (some s') ∧ PepperPlainIteration sub tr q o u s mpc s' ∧
        PlainInv mem sub q o m (n + 1) s' (some q.preview_horizon_length) ∧ ∃ st, s'.model = s.model.updateState st ∧ FlatState st) ∨
      (s.iterate sub B tr u = .error .thrown ∧ ∃ mpc, s.mpc.update u.matrices tr u.horizon s.motion s.model = .ok (mpc, .ok) ∧
        HorizonFor tr q s.model [s.motion] mpc.intervals ∧ Fails mpc.intervals s.model.getMPCState)) := by
  obtain ⟨mpc, st, hu, hst, hok⟩ := pepper_update hq hI.same u tr
  have hu : s.mpc.update u.matrices tr u.horizon s.motion s.model = .ok (mpc, st) := hu
  have hmot : s.motion = remainingMotion m ((n * (plainKind sub).step q : ℕ) : ℤ) := hI.same.motion
  have hp0 : s.mpc.parameters = q := hI.same.parameters
  have hproper := hI.same.proper
  refine ⟨fun hn => ?_, fun hn => ?_⟩
  · unfold PlainProgram.iterate Mpc.updateAndShift
    have hst : st ≠ .ok := fun e => hn (hst.1 e)
    rw [hu, ok_bind]
    simp only [if_neg hst]
    show (if st = .ok then _ else _) = _
    rw [if_neg hst]
    rfl
  · have e := hst.2 hn
    subst e
    obtain ⟨hpar, hflag, hsized, hH, hC, hU⟩ := hok rfl
    have hl : mpc.intervals.length = q.preview_horizon_length := hH.1
    have hshift : shiftSingle mpc.parameters s.motion (if sub then s.mpc.parameters.subsampling_time_ms else s.mpc.parameters.sampling_time_ms) =
        remainingMotion m (((n + 1) * (plainKind sub).step q : ℕ) : ℤ) := by
      have e : (if sub then (s.mpc.parameters.subsampling_time_ms : ℤ) else s.mpc.parameters.sampling_time_ms) =
          ((plainKind sub).step s.mpc.parameters : ℕ) := by cases sub <;> rfl
      rw [e, hmot, hp0, shift_remaining hproper]
      congr 2
      ring
    have hms : s.mpc.updateAndShift u.matrices tr u.horizon s.motion s.model
        (if sub then s.mpc.parameters.subsampling_time_ms else s.mpc.parameters.sampling_time_ms) =
        .ok (mpc, .ok, remainingMotion m (((n + 1) * (plainKind sub).step q : ℕ) : ℤ)) := by
      unfold Mpc.updateAndShift
      rw [hu, ok_bind]
      simp only [if_true]
      rw [hshift]
      rfl
    rcases plain_solve hB hI hU (u := u) (remainingMotion m (((n + 1) * (plainKind sub).step q : ℕ) : ℤ)) with
      ⟨p1, sv, sol, es, hS1, hS2, hS3, hS4⟩ | ⟨es, hF⟩
    · left
      generalize hs1 : ({ s with motion := remainingMotion m (((n + 1) * (plainKind sub).step q : ℕ) : ℤ), mpc := mpc, problem := p1, solver := sv, solution := sol } : PlainProgram σ) = s1 at es
      have a1 : s1.model = s.model := by rw [← hs1]
      have a2 : s1.mpc = mpc := by rw [← hs1]
      have a3 : s1.motion = remainingMotion m (((n + 1) * (plainKind sub).step q : ℕ) : ℤ) := by rw [← hs1]
      have a4 : s1.solution = sol := by rw [← hs1]
      have a5 : s1.problem = p1 := by rw [← hs1]
      have a6 : s1.solver = sv := by rw [← hs1]
      clear hs1
      have hTm : ∀ iv ∈ s1.mpc.intervals, iv.T_ms = q.sampling_time_ms ∧ iv.T = (q.sampling_time_ms : ℝ) / 1000 := by
        rw [a2]
        intro iv hiv
        obtain ⟨i, hi⟩ := List.getElem?_of_mem hiv
        obtain ⟨_, _, -, -, h⟩ := hH.2 i iv hi
        exact ⟨h.duration_ms, h.duration⟩
      obtain ⟨c, st, iv, ea, hiv, hw, hmass, hcp, hcm⟩ := advance_ok hq (s := s1.qpoases mem) (by show s1.mpc.parameters = q; rw [a2, hpar])
        (by show s1.mpc.solution_is_parsed = false; rw [a2, hflag]) (by show Consistent s1.mpc s1.model.getMPCState; rw [a1, a2]; exact hC)
        (by show s1.mpc.intervals.length = _; rw [a2, hl]) hTm (by show SolutionFor s1.mpc.intervals.length s1.solution; rw [a2, a4]; exact hS3)
      obtain ⟨ea', hflat⟩ := plain_advance ea
      have hiv : s1.mpc.intervals[0]? = some iv := hiv
      have hw : StateWithin iv (s1.model.state.base_state.rpy 2) (((plainKind sub).step q : ℝ) / 1000) s1.model.getMPCState
        (controlAt s1.mpc.intervals.length (Spec.entries s1.solution.x) 0) st := hw
      have hcp : c.parameters = s1.mpc.parameters := hcp
      have hcm : c.matrices = s1.mpc.matrices := hcm
      rw [a2] at hiv hw hcp hcm
      rw [a1, a4] at hw
      have hsum : (1634234 / 100000 : ℝ) + 123389 / 10000 ≠ 0 := by norm_num
      refine ⟨{ s1 with mpc := c, model := s1.model.updateState st }, mpc, ?_, ⟨hu, hH, ?_, ?_, ⟨iv, hiv, ?_⟩, ?_, ?_⟩,
        ⟨⟨hcp.trans hpar, ?_, ?_, ?_, hproper, ?_, ?_, fun N hN => (Option.some.inj hN).symm, rfl, fun hv => by cases hv⟩, ?_⟩, ?_⟩
      · unfold PlainProgram.iterate
        rw [hms, ok_bind]
        simp only [if_true]
        rw [es, ok_bind, ea']
        rfl
      · show s1.solution.x.length = _
        rw [a4]
        exact hS3.size
      · show PepperBest _ _ _ _ _ (Spec.entries s1.solution.x)
        rw [a4]
        exact hS4
      · show StateWithin iv _ _ _ (controlAt _ (Spec.entries s1.solution.x) 0) st
        rw [a4]
        exact hw
      · show s1.model.robot_parameters = _
        rw [a1]
      · show s1.motion = _
        rw [a3, hmot]
        have := shift_remaining (p := q) hproper (n * (plainKind sub).step q) ((plainKind sub).step q)
        rw [show (n + 1) * (plainKind sub).step q = n * (plainKind sub).step q + (plainKind sub).step q by ring, ← this]
        have hp' := remaining_proper hproper (n * (plainKind sub).step q)
        generalize remainingMotion m ((n * (plainKind sub).step q : ℕ) : ℤ) = m' at hp'
        conv_lhs => rw [← remaining_zero hp']
        have := shift_remaining (p := q) hp' 0 ((plainKind sub).step q)
        rw [Nat.zero_add] at this
        exact this
      · show SizedFor c 0 ∨ SizedFor c _
        unfold SizedFor
        rw [hcm]
        exact hsized
      · show st.base_mass + st.body_mass ≠ 0
        rw [hmass.1, hmass.2]
        exact hsum
      · show ∀ a, s1.model.robot_parameters.body_bounds a 0 = -s1.model.robot_parameters.body_bounds a 1
        rw [a1]
        exact hI.same.symmetric
      · exact a3
      · show PepperProblemAfter o s1.problem
        rw [a5]
        exact hS1
      · show s1.solver.params = _
        rw [a6]
        exact hS2
      · obtain ⟨st', e1, e2⟩ := hflat
        exact ⟨st', by rw [← a1]; exact e1, e2⟩
    · right
      refine ⟨?_, mpc, hu, hH, hF⟩
      unfold PlainProgram.iterate
      rw [hms, ok_bind]
      simp only [if_true]
      rw [es]
      rfl

theorem plain_after (hq : PepperParameters (plainKind sub) q) (hB : Answers B o Fails) {s0 : PlainProgram σ} (h0 : PepperPlainStart q o m s0)
    (mem : QpoasesMem ℝ) (h : PepperPlainAfter sub B tr s0 n s) :
    (∃ last, PlainInv mem sub q o m n s last) ∧ s.model.robot_parameters = s0.model.robot_parameters := by
  induction h with
  | start => exact ⟨⟨none, plain_start h0 mem⟩, rfl⟩
  | @step n a b u _ hs ih =>
    obtain ⟨⟨last, hI⟩, hp⟩ := ih
    obtain ⟨P1, P2⟩ := plain_step hq hB hI u tr
    by_cases hn : PepperContinues (plainKind sub) q m n
    · rcases P2 hn with ⟨s', mpc, hr, hG, hI', -⟩ | ⟨hr, -⟩
      · cases hs.symm.trans hr
        exact ⟨⟨_, hI'⟩, hG.robot.trans hp⟩
      · cases hs.symm.trans hr
    · cases hs.symm.trans (P1 hn)

/-! ## Comparison with qpOASES -/

/-- Iterations in the same situation end in the same state, with the same solutions. -/
theorem plain_same_step {v : ProgramKind} {s' : Program ℝ} {a : PlainProgram σ} {a' : Program ℝ} {u' : Memory ℝ} {mpc' : Mpc ℝ}
    {ext : Qpoases ℝ} (hq : PepperParameters (plainKind sub) q)
    (hstep : v.step q = (plainKind sub).step q) (hg : o.baseJerkGain ≠ 0 ∧ o.bodyJerkGain ≠ 0) (htr : UnitCircle tr)
    (hR : ReasonableRobot s.model.robot_parameters s.model.state) (hmodel : s'.model = s.model) (hmotion : s'.motion = s.motion)
    (hf : ∃ st, a.model = s.model.updateState st ∧ FlatState st) (hi' : s'.iterate v ext tr u' = .ok (some a'))
    (hG : PepperPlainIteration sub tr q o u s mpc a) (hG' : PepperIteration v tr q o u' s' mpc' a') :
    a'.model = a.model ∧ a'.motion = a.motion ∧ a'.solution.x = a.solution.x := by
  have hH := hG.horizon
  have hH' := hG'.horizon
  rw [hmodel, hmotion] at hH'
  have hiv := horizon_unique hH hH'
  have hb' := hG'.best
  have hw' := hG'.moves
  rw [hmodel, ← hiv] at hb' hw'
  have hT := horizon_times hH hq.sampling
  have hx := pepper_unique hT (x0 := s.model.getMPCState) rfl hg (fun z hz => pepper_moderate htr hq.sampling hR hH hz) hG.best hb'
  have hl : a'.solution.x.length = a.solution.x.length := by rw [hG'.size, hG.size, hiv]
  have hsol : a'.solution.x = a.solution.x := by
    refine List.ext_getElem hl fun i h1 h2 => ?_
    have := hx i (by rw [← hG.size]; exact h2)
    unfold Spec.entries at this
    rw [List.getD_eq_getElem?_getD, List.getD_eq_getElem?_getD, List.getElem?_eq_getElem h2, List.getElem?_eq_getElem h1] at this
    exact this.symm
  obtain ⟨iv, e1, w1⟩ := hG.moves
  obtain ⟨iv', e2, w2⟩ := hw'
  cases e1.symm.trans e2
  obtain ⟨st, m1, f1⟩ := hf
  obtain ⟨st', m2, f2⟩ := iterate_flat hi'
  rw [hsol, hstep] at w2
  rw [m1] at w1
  rw [m2] at w2
  have hst := state_unique (hT iv (List.mem_of_getElem? e1)) w1 w2 f1 f2
  have hst : st = st' := hst
  refine ⟨by rw [m1, m2, hst, hmodel], ?_, hsol⟩
  rw [hG.motion, hG'.motion, hmotion, hstep]

theorem plain_reasonable (hq : PepperParameters (plainKind sub) q) (hB : Answers B o Fails) (htr : UnitCircle tr) {s0 : PlainProgram σ}
    (h0 : PepperPlainStart q o m s0) (mem : QpoasesMem ℝ) (hR : ReasonableRobot s0.model.robot_parameters s0.model.state)
    (h : PepperPlainAfter sub B tr s0 n s) : ReasonableRobot s.model.robot_parameters s.model.state := by
  induction h with
  | start => exact hR
  | @step n a b u h hs ih =>
    obtain ⟨⟨last, hI⟩, -⟩ := plain_after hq hB h0 mem h
    obtain ⟨P1, P2⟩ := plain_step hq hB hI u tr
    by_cases hn : PepperContinues (plainKind sub) q m n
    · rcases P2 hn with ⟨s', mpc, hr, hG, -, st, hst, hflat⟩ | ⟨hr, -⟩
      · cases hs.symm.trans hr
        exact pepper_reasonable hq htr (s := a.qpoases mem) ih (hG.qpoases mem) (by
          show b.model.state.base_mass = _ ∧ b.model.state.body_mass = _
          rw [hst]
          exact hflat.masses)
      · cases hs.symm.trans hr
    · cases hs.symm.trans (P1 hn)

/-- Wherever the program comes, the program with a complete qpOASES comes, too. -/
theorem plain_same {v : ProgramKind} {ext : Qpoases ℝ} (hq : PepperParameters (plainKind sub) q) (hq' : PepperParameters v q)
    (hstep : v.step q = (plainKind sub).step q) (hg : o.baseJerkGain ≠ 0 ∧ o.bodyJerkGain ≠ 0) (hB : Answers B o Fails) (htr : UnitCircle tr)
    (hext : TrustedSolver ext) (hc : CompleteSolver ext) {s0 : PlainProgram σ} {s0' : Program ℝ} (h0 : PepperPlainStart q o m s0)
    (h0' : PepperStart q o m s0') (hm : s0'.model = s0.model) (hR : ReasonableRobot s0.model.robot_parameters s0.model.state)
    (h : PepperPlainAfter sub B tr s0 n s) :
    ∃ s', PepperAfter v ext tr s0' n s' ∧ s'.model = s.model ∧ s'.motion = s.motion ∧ (0 < n → s'.solution.x = s.solution.x) := by
  have mem := s0'.solver.mem
  induction h with
  | start => exact ⟨s0', .start, hm, h0'.motion.trans h0.motion.symm, fun e => absurd e (lt_irrefl _)⟩
  | @step n a b u h hs ih =>
    obtain ⟨a', ha', e1, e2, -⟩ := ih
    have hRa := plain_reasonable hq hB htr h0 mem hR h
    obtain ⟨⟨last, hI⟩, -⟩ := plain_after hq hB h0 mem h
    obtain ⟨⟨last', hI'⟩, -⟩ := pepper_after_inv hq' hext h0' ha'
    obtain ⟨P1, P2⟩ := plain_step hq hB hI u tr
    by_cases hn : PepperContinues (plainKind sub) q m n
    · have hn' : PepperContinues v q m n := by unfold PepperContinues at hn ⊢; rw [hstep]; exact hn
      rcases P2 hn with ⟨s', mpc, hr, hG, -, hflat⟩ | ⟨hr, -⟩
      · cases hs.symm.trans hr
        rcases (pepper_step hq' hext hI' u tr).2 hn' with ⟨b', mpc', hi', hG', -⟩ | ⟨-, mpc', hu', hF'⟩
        · obtain ⟨m1, m2, m3⟩ := plain_same_step hq hstep hg htr hRa e1 e2 hflat hi' hG hG'
          exact ⟨b', .step ha' hi', m1, m2, fun _ => m3⟩
        · exfalso
          obtain ⟨_, _, k1, -, k3⟩ := pepper_update hq' hI' u tr
          cases hu'.symm.trans k1
          obtain ⟨-, -, -, hH, -, -⟩ := k3 rfl
          exact pepper_not_fails (s := a') (s' := a.qpoases mem) hc hq.sampling htr (by rw [e1]; exact hRa) ⟨e1.symm, e2.symm⟩ hH hF'
            (hG.qpoases mem)
      · cases hs.symm.trans hr
    · cases hs.symm.trans (P1 hn)

/-- If some motion is allowed, then there is a best one. -/
theorem plain_best (hq : PepperParameters (plainKind sub) q) (hI : PlainInv mem sub q o m n s last)
    (hn : PepperContinues (plainKind sub) q m n) (htr : UnitCircle tr) (hR : ReasonableRobot s.model.robot_parameters s.model.state)
    (hu : s.mpc.update u.matrices tr u.horizon s.motion s.model = .ok (mpc, .ok)) (hH : HorizonFor tr q s.model [s.motion] mpc.intervals)
    {x : ℕ → ℝ} (hx : PepperFeasible mpc.intervals s.model.getMPCState x) :
    ∃ y, PepperBest o mpc.intervals s.model.getMPCState 0 (fun _ => True) y := by
  obtain ⟨ext, h1, h2⟩ := exists_solver
  rcases (pepper_step hq h1 hI.same u tr).2 hn with ⟨s', mpc', -, hG, -⟩ | ⟨-, mpc', hu', hF⟩
  · cases hG.update.symm.trans hu
    refine ⟨_, fun X hX => ⟨(hG.best X hX).1, fun y Y hY hA _ => (hG.best X hX).2 y Y hY hA ?_⟩⟩
    obtain ⟨_, _, k1, -, k3⟩ := pepper_update hq hI.same u tr
    cases k1.symm.trans hu
    obtain ⟨-, -, -, -, -, hU⟩ := k3 rfl
    have hp : PepperProblemAfter o s.problem := hI.same.problem
    obtain ⟨p1, -, -, e2, -⟩ := C86_form hp hU u.tasks u.taskIndices
    obtain ⟨P, env, g, L0, L1, -, -, -, h4, -⟩ := pepper_solvable hU ⟨_, _, _, _, .inr hp, e2⟩
    exact pepper_moderate htr hq.sampling hR hH
      ((feasible_iff (x0 := s.model.getMPCState) rfl (horizon_times hH hq.sampling) h4 y).1 ((h4.allowed y Y hY).2 hA))
  · exfalso
    cases hu'.symm.trans hu
    have hm := pepper_moderate htr hq.sampling hR hH hx
    rcases hF with hF | ⟨b, g, gs, hd, hst⟩
    · exact hF _ hm hx
    · exact hst (h2 b g gs hd.accepted (hd.bounds trivial).1 (hd.bounds trivial).2 ⟨_, hd.complete _ hx hm⟩)

end

end Humoto.Pepper
