import Verif.Lemmas.PepperProgram
import Verif.Props.QpoasesSolver

/-!
# The programs of Pepper (C87)
-/

namespace Humoto.Pepper

open Spec Bridge

variable {K : Type} [Field K] [LinearOrder K] [IsStrictOrderedRing K]

/-- The optimization problem in the hands of the program; `last` is the number of intervals for which it was formed last. -/
def ProblemInv (v : ProgramKind) (o : ProblemSetup K) (last : Option ℕ) (p : Problem K) : Prop :=
  if v.activeSet then PepperSolvedAfter o last p ∧ PepperShaped o (fun k t => LastSizes last k t ∧ Decided t.actual) p
  else PepperProblemAfter o p

/-- The invariant of the programs. -/
structure PepperInv (v : ProgramKind) (q : MPCParameters) (o : ProblemSetup K) (m : MotionParameters K) (n : ℕ) (s : Program K)
    (last : Option ℕ) : Prop where
  parameters : s.mpc.parameters = q
  sized : SizedFor s.mpc 0 ∨ SizedFor s.mpc q.preview_horizon_length
  masses : s.model.state.base_mass + s.model.state.body_mass ≠ 0
  symmetric : ∀ a, s.model.robot_parameters.body_bounds a 0 = -s.model.robot_parameters.body_bounds a 1
  proper : ProperMotion m
  motion : s.motion = remainingMotion m ((n * v.step q : ℕ) : ℤ)
  problem : ProblemInv v o last s.problem
  last : ∀ N ∈ last, N = q.preview_horizon_length
  solver : s.solver.params = SolverParameters.default
  old : v.solution = true → s.oldSolution.structure_ = .empty ∨ SolutionFor q.preview_horizon_length s.oldSolution

theorem remaining_zero {m : MotionParameters K} (h : ProperMotion m) : remainingMotion m 0 = m := by
  obtain ⟨a, b, c, d, e⟩ := m
  unfold remainingMotion
  rcases h with h | h
  · have h : d = -1 := h
    simp [h]
  · have h : 0 ≤ d ∧ d < 2 ^ 63 := h
    simp only [MotionParameters.mk.injEq, true_and, and_true]
    split
    · omega
    · omega

theorem remaining_proper {m : MotionParameters K} (h : ProperMotion m) (t : ℕ) : ProperMotion (remainingMotion m t) := by
  unfold remainingMotion ProperMotion Unlimited at *
  simp only
  split <;> omega

theorem shift_remaining {p : MPCParameters} {m : MotionParameters K} (h : ProperMotion m) (a b : ℕ) :
    shiftSingle p (remainingMotion m a) b = remainingMotion m ((a + b : ℕ) : ℤ) := by
  obtain ⟨v, x, w, d, e⟩ := m
  unfold shiftSingle remainingMotion unlimitedDuration defaultShift
  unfold ProperMotion Unlimited at h
  simp only at h ⊢
  by_cases hd : d = -1
  · simp [hd]
  · have hb : ¬ (b : ℤ) = -1 := by omega
    rw [if_neg hd, if_neg hd, if_pos (by omega)]
    simp only [MotionParameters.mk.injEq, true_and, and_true, hb, if_false]
    split_ifs <;> omega

/-- What remains of the motion covers the horizon. -/
theorem lasts_iff {v : ProgramKind} {q : MPCParameters} (hq : PepperParameters v q) (m : MotionParameters K) (n : ℕ) :
    LastsUntil [remainingMotion m ((n * v.step q : ℕ) : ℤ)] (q.preview_horizon_length * q.sampling_time_ms) ↔ PepperContinues v q m n := by
  have hpos : 0 < q.preview_horizon_length * q.sampling_time_ms := Nat.mul_pos hq.horizon hq.sampling
  unfold LastsUntil PepperContinues remainingMotion totalDuration Unlimited
  simp only [List.mem_singleton, exists_eq_left, List.map_cons, List.map_nil, List.sum_cons, List.sum_nil, add_zero]
  push_cast
  generalize hA : (n : ℤ) * v.step q = A
  have hA0 : 0 ≤ A := by rw [← hA]; positivity
  have hpos' : 0 < (q.preview_horizon_length : ℤ) * q.sampling_time_ms := by exact_mod_cast hpos
  split <;> constructor <;> intro h <;> omega

section
variable {v : ProgramKind} {q : MPCParameters} {o : ProblemSetup K} {m : MotionParameters K} {n : ℕ} {s : Program K} {last : Option ℕ}
  {ext : Qpoases K} {tr : Trig K} {u : Memory K} {mpc : Mpc K}

theorem pepper_start (h : PepperStart q o m s) : PepperInv v q o m 0 s none := by
  have hc : s.mpc.parameters = q := by rw [h.controller]; rfl
  obtain ⟨P, hP⟩ := h.problem
  refine ⟨hc, by rw [h.controller]; exact .inl (sizedFor_make q), h.masses, h.symmetric, h.proper, ?_, ?_, fun _ h => (by cases h), h.solver,
    fun _ => .inl h.old⟩
  · rw [h.motion, Nat.zero_mul]
    exact (remaining_zero h.proper).symm
  · unfold ProblemInv
    split
    · refine ⟨.setup hP, ?_⟩
      obtain ⟨p', e, h'⟩ := pepper_setup o (setup_mode hP) P
      cases hP.symm.trans e
      refine h'.mono fun _ t ht => ⟨ht.2, ?_⟩
      rw [show t.actual = [] from ht.2]
      exact fun a ha => by cases ha
    · exact .setup hP

/-- The update in an iteration. -/
theorem pepper_update (hq : PepperParameters v q) (hI : PepperInv v q o m n s last) (u : Memory K) (tr : Trig K) :
    ∃ mpc st, s.mpc.update u.matrices tr u.horizon s.motion s.model = .ok (mpc, st) ∧ (st = .ok ↔ PepperContinues v q m n) ∧
      (st = .ok → mpc.parameters = q ∧ mpc.solution_is_parsed = false ∧ (SizedFor mpc 0 ∨ SizedFor mpc q.preview_horizon_length) ∧
        HorizonFor tr q s.model [s.motion] mpc.intervals ∧ Consistent mpc s.model.getMPCState ∧ PepperUpdated s.model mpc) := by
  have hp : ProperMotion s.motion := by rw [hI.motion]; exact remaining_proper hI.proper _
  have hpar := hI.parameters
  obtain ⟨mpc, st, h1, h2, h3, h4, h5⟩ := C71_update u.matrices tr u.horizon hp s.model (c := s.mpc) (by rw [hpar]; exact hq.sampling)
    (by rw [hpar]; exact hq.horizon) (by rw [hpar]; exact hq.representable) (by rw [hpar]; exact hI.sized)
  refine ⟨mpc, st, h1, ?_, fun hst => ?_⟩
  · rw [h2, hpar, hI.motion]
    exact lasts_iff hq m n
  · subst hst
    obtain ⟨h6, h7⟩ := h5 rfl
    rw [hpar] at h4 h6
    refine ⟨h3.trans hpar, (updateWith_flag h1).1, h4, h6, h7, ?_⟩
    obtain ⟨M, hM, hS⟩ : ∃ M, (M = 0 ∨ M = s.mpc.parameters.preview_horizon_length) ∧ SizedFor s.mpc M := by
      rcases hI.sized with h | h
      · exact ⟨0, .inl rfl, h⟩
      · exact ⟨q.preview_horizon_length, .inr (by rw [hpar]), h⟩
    exact ⟨u.matrices, tr, u.horizon, s.mpc, M, by rw [hpar]; exact hq.sampling, by rw [hpar]; exact hq.horizon,
      by rw [hpar]; exact hq.representable, hM, hS, hI.masses, hI.symmetric, .inl ⟨s.motion, hp, h1⟩⟩

/-- What is known after the problem is solved. -/
structure PepperSolvedState (v : ProgramKind) (o : ProblemSetup K) (s : Program K) (mpc : Mpc K) (m' : MotionParameters K) (s1 : Program K) :
    Prop where
  model : s1.model = s.model
  controller : s1.mpc = mpc
  motion : s1.motion = m'
  params : s1.solver.params = SolverParameters.default
  old : v.solution = true → s1.oldSolution = s1.solution
  solution : SolutionFor mpc.intervals.length s1.solution
  best : PepperBest o mpc.intervals s.model.getMPCState 0 (PepperModerate mpc.intervals) (entries s1.solution)
  problem : ProblemInv v o (some mpc.intervals.length) s1.problem

theorem feasible_iff {L0 L1 : Level (ProblemEnv K) K} {x0 : Vec K} (h0 : x0.n = 12) (hT : ∀ iv ∈ mpc.intervals, iv.T ≠ 0)
    (hW : PepperLevels o mpc.intervals x0 L0 L1) (x : ℕ → K) : LevelSatisfied L0 x ↔ PepperFeasible mpc.intervals x0 x :=
  ⟨fun h X hX => (hW.allowed x X hX).1 h, fun h =>
    (hW.allowed x _ (simulation_simulates hT h0 x)).2 (h _ (simulation_simulates hT h0 x))⟩

theorem pepper_solve (hq : PepperParameters v q) (hext : TrustedSolver ext) (hI : PepperInv v q o m n s last)
    (hpar : mpc.parameters = q) (hl : mpc.intervals.length = q.preview_horizon_length) (hU : PepperUpdated s.model mpc)
    (m' : MotionParameters K) :
    (∃ s1, s.solveProblem v ext u mpc m' = .ok s1 ∧ PepperSolvedState v o s mpc m' s1) ∨
    (s.solveProblem v ext u mpc m' = .error .thrown ∧ PepperFails ext o mpc s.model) := by
  have hR := pepper_ready hU
  have hst : mpc.matrices.solution = solutionStructure mpc.intervals.length := hR.consistent.1
  have hnv : mpc.matrices.solution.nvars = 4 * mpc.intervals.length := by rw [hst, nvars_solutionStructure]
  have hN : 0 < mpc.intervals.length := hR.sane.nonempty
  -- the solution
  obtain ⟨sol, e1, hsol⟩ : ∃ sol, initSolutionStructure mpc.matrices.solution s.solution u.solution = .ok sol ∧
      SolutionFor mpc.intervals.length sol := by
    refine ⟨s.solution.resize mpc.matrices.solution u.solution, ?_, hst, ?_⟩
    · unfold initSolutionStructure
      rw [assertThat_true (by rw [hst]; rfl)]
      rfl
    · show (if _ then _ else _ : List K).length = 4 * mpc.intervals.length
      split
      · rename_i h; rw [h, hnv]
      · rw [List.length_map, List.length_range, hnv]
  have hfits : v.activeSet = true → ∀ k t, LastSizes (K := K) last k t ∧ Decided t.actual → ActualFits mpc t.actual k ∧ Decided t.actual := by
    intro hv k t ⟨h1, h2⟩
    refine ⟨?_, h2⟩
    cases last with
    | none =>
      have h1 : t.actual = [] := h1
      exact .inl (by rw [h1]; rfl)
    | some M =>
      have h1 : t.actual.length = 2 * M := h1
      refine .inr ⟨by rw [h1, hI.last M rfl, hl], fun _ => ?_⟩
      rw [hl, hpar]
      exact hq.guess hv
  -- forming
  obtain ⟨p1, a, e2, hF, e4, ha, hsolved⟩ : ∃ p1 a, s.problem.form u.tasks u.taskIndices v.activeSet mpc = .ok p1 ∧ PepperFormed o mpc p1 ∧
      (if v.activeSet then p1.hierarchy.guessActiveSet else pure []) = .ok a ∧
      (v.activeSet = true → a.map List.length = p1.hierarchy.levels.map Level.nConstraints ∧ ∀ c ∈ a, Decided c) ∧
      (∀ b p2, v.activeSet = true → p1.processActiveSet b = .ok p2 → (∀ c ∈ b, Decided c) → ProblemInv v o (some mpc.intervals.length) p2) ∧
      (v.activeSet = false → ProblemInv v o (some mpc.intervals.length) p1) := by
    have hp := hI.problem
    unfold ProblemInv at hp ⊢
    cases hv : v.activeSet with
    | true =>
      rw [hv, if_pos rfl] at hp
      simp only [if_true]
      obtain ⟨hp1, hp2⟩ := hp
      obtain ⟨p1, e2⟩ := pepper_form (guessing := true) hR hp2 u.tasks u.taskIndices fun k t ht => (hfits hv k t ht).1
      obtain ⟨a, e4, ha, hda⟩ := pepper_guess hR hp2 (hfits hv) e2
      refine ⟨p1, a, e2, ⟨_, _, _, _, .inl ⟨_, hp1⟩, e2⟩, e4, fun _ => ⟨ha, hda⟩, fun b p2 _ e5 hb => ⟨.cycle hp1 hU e2 e5, ?_⟩, fun h => by cases h⟩
      obtain ⟨w1, w2⟩ := pepper_formed hR hp2 e2
      have hloc := hierarchy_locations hp2.reach w2
      refine (pepper_process w1 e5).mono fun k t ⟨t1, ⟨_, _, hF⟩, ⟨x, hx⟩, ht, hs⟩ => ⟨?_, fun c hc => ?_⟩
      · show t.actual.length = 2 * mpc.intervals.length
        rw [ht hloc, hx]
        exact hF.motion.rows
      · obtain ⟨cc, hcc, hc'⟩ := hs c hc
        exact hb cc hcc c hc'
    | false =>
      rw [hv, if_neg (by decide)] at hp
      obtain ⟨p1, -, -, e2, -⟩ := C86_form hp hU u.tasks u.taskIndices
      exact ⟨p1, [], e2, ⟨_, _, _, _, .inr hp, e2⟩, rfl, fun h => (by cases h), fun _ _ h => (by cases h), fun _ => .form hp hU e2⟩
  -- guesses
  obtain ⟨g, e3, hgs⟩ : ∃ g, (if v.solution then mpc.guessSolution s.solutionGuess s.oldSolution else pure s.solutionGuess) = .ok g ∧
      (v.solution = true → SolutionFor mpc.intervals.length g) := by
    cases hv : v.solution with
    | false => exact ⟨s.solutionGuess, rfl, fun h => by cases h⟩
    | true =>
      rcases hI.old hv with ho | ho
      · obtain ⟨g, h1, h2, -⟩ := C73_first hst s.solutionGuess ho
        exact ⟨g, h1, fun _ => h2⟩
      · rw [← hl] at ho
        obtain ⟨g, h1, h2, -⟩ := C73_guess hN hst s.solutionGuess ho
        exact ⟨g, h1, fun _ => h2⟩
  have ef : s.problem.formFor v u s.solution s.solutionGuess s.oldSolution mpc = .ok (p1, sol, g, a) := by
    unfold Problem.formFor
    rw [e1, ok_bind, e2, ok_bind, e3, ok_bind, e4]
    rfl
  -- solving
  obtain ⟨P, env, gg, L0, L1, h1, h2, h3, h4, h5⟩ := pepper_solvable hU hF
  have hGF : GuessesFit L0 (4 * mpc.intervals.length) (v.entry g a) := by
    have hset : v.activeSet = true → ∃ c, a[0]? = some c ∧ c.length = L0.nConstraints ∧ ∀ x ∈ c, x ≠ .undefined := by
      intro hv
      obtain ⟨ha, hda⟩ := ha hv
      rw [h3, List.map_cons] at ha
      obtain ⟨c, t, rfl, hc, -⟩ := List.map_eq_cons_iff.1 ha
      exact ⟨c, rfl, hc, hda c (by simp)⟩
    unfold ProgramKind.entry
    cases hv : v.activeSet <;> cases hw : v.solution <;> simp only [if_true, Bool.false_eq_true, if_false]
    · exact ⟨fun g' hg' => (by cases hg'), fun a' ha' => (by cases ha')⟩
    · exact ⟨fun g' hg' => (by cases hg'; exact (hgs hw).size.ge), fun a' ha' => (by cases ha')⟩
    · exact ⟨fun g' hg' => (by cases hg'), fun a' ha' => (by cases ha'; exact hset hv)⟩
    · exact ⟨fun g' hg' => (by cases hg'; exact (hgs hw).size.ge), fun a' ha' => (by cases ha'; exact hset hv)⟩
  have hparams : Entry.parameters s.solver.params (v.entry g a) = SolverParameters.default := by
    unfold ProgramKind.entry
    cases v.activeSet <;> cases v.solution <;> exact hI.solver
  have hret : Entry.returnsActiveSet (v.entry g a) = v.activeSet := by
    unfold ProgramKind.entry
    cases v.activeSet <;> cases v.solution <;> rfl
  have hmod : ∀ x, PepperModerate mpc.intervals x → Moderate L0 (4 * mpc.intervals.length) x := fun x hx =>
    ⟨fun ti hti => h5.within ti hti x, hx⟩
  have hfeas := feasible_iff (x0 := s.model.getMPCState) rfl hR.sane.times h4
  rcases C83_solve h1 h2 h3 (by rw [h3]; exact h5.inRange) h5.minimise h5.simple hext u.objective u.constraints (sol := sol)
    (by rw [hsol.structure_, nvars_solutionStructure]) hsol.size hGF (s := s.solver) hparams with ⟨sol', a', sv, k1, k2, k3⟩ | ⟨sv, k1, k2⟩
  · left
    obtain ⟨p2, e5, hp2⟩ : ∃ p2, (match a' with
        | some b => p1.processActiveSet b
        | none => pure p1) = .ok p2 ∧ ProblemInv v o (some mpc.intervals.length) p2 := by
      have hr := k3.returned
      rw [hret] at hr
      cases a' with
      | none =>
        exact ⟨p1, rfl, hsolved.2 hr.symm⟩
      | some b =>
        obtain ⟨hb1, hb2⟩ := k3.activeSet b rfl
        obtain ⟨p2, e5⟩ := C86_process hU hF (s := b) (by unfold PepperActiveSetFor; rw [h3]; exact hb1)
        exact ⟨p2, e5, hsolved.1 b p2 hr.symm e5 hb2⟩
    refine ⟨{ s with
      motion := m'
      mpc := mpc
      problem := p2
      solver := sv
      solution := sol'
      oldSolution := if v.solution then sol' else s.oldSolution
      solutionGuess := g }, ?_,
      rfl, rfl, rfl, k2, fun hv => by simp [hv], ⟨k3.structure_.trans hsol.structure_, k3.size⟩, pepper_best h4 k3.optimal hmod, hp2⟩
    unfold Program.solveProblem
    rw [ef, ok_bind]
    simp only [k1]
    cases a' with
    | none => cases e5; rfl
    | some b =>
      have e5 : p1.processActiveSet b = .ok p2 := e5
      simp only [e5]
      rfl
  · right
    refine ⟨?_, k2.imp (fun hno x hx hal => hno x (hmod x hx) ((hfeas x).2 hal)) fun ⟨a, gs, hd, hs⟩ =>
      ⟨a, _, gs, ⟨hd.size, hd.accepted, fun x hx => (hfeas x).1 (hd.sound x hx),
        fun x hx hM => hd.complete x ((hfeas x).2 hx) (hmod x hM), fun x y c d ⟨X, hX, hc⟩ ⟨Y, hY, hd'⟩ =>
          hd.cost x y c d (hc.trans (h4.cost x X hX).symm) (hd'.trans (h4.cost y Y hY).symm), fun _ => hd.bounds h5.bounds⟩, hs⟩⟩
    unfold Program.solveProblem
    rw [ef, ok_bind]
    simp only [k1]

/-- An iteration. -/
theorem pepper_step (hq : PepperParameters v q) (hext : TrustedSolver ext) (hI : PepperInv v q o m n s last) (u : Memory K) (tr : Trig K) :
    (¬ PepperContinues v q m n → s.iterate v ext tr u = .ok none) ∧
    (PepperContinues v q m n →
      (∃ s' mpc, s.iterate v ext tr u = .ok (some s') ∧ PepperIteration v tr q o u s mpc s' ∧
        PepperInv v q o m (n + 1) s' (some q.preview_horizon_length) ∧
        (s'.model.state.base_mass = 1634234 / 100000 ∧ s'.model.state.body_mass = 123389 / 10000)) ∨
      (s.iterate v ext tr u = .error .thrown ∧ ∃ mpc, s.mpc.update u.matrices tr u.horizon s.motion s.model = .ok (mpc, .ok) ∧
        PepperFails ext o mpc s.model)) := by
  obtain ⟨mpc, st, hu, hst, hok⟩ := pepper_update hq hI u tr
  refine ⟨fun hn => ?_, fun hn => ?_⟩
  · unfold Program.iterate Mpc.updateAndShift
    have hst : st ≠ .ok := fun e => hn (hst.1 e)
    rw [hu, ok_bind]
    simp only [if_neg hst]
    show (if st = .ok then _ else _) = _
    rw [if_neg hst]
    rfl
  · have e := hst.2 hn
    subst e
    obtain ⟨hpar, hflag, hsized, hH, hC, hU⟩ := hok rfl
    have hl : mpc.intervals.length = q.preview_horizon_length := hH.1
    have hshift : shiftSingle mpc.parameters s.motion (v.step s.mpc.parameters) = remainingMotion m (((n + 1) * v.step q : ℕ) : ℤ) := by
      rw [hI.motion, hI.parameters, shift_remaining hI.proper]
      congr 2
      ring
    have hms : s.mpc.updateAndShift u.matrices tr u.horizon s.motion s.model (v.step s.mpc.parameters) =
        .ok (mpc, .ok, remainingMotion m (((n + 1) * v.step q : ℕ) : ℤ)) := by
      unfold Mpc.updateAndShift
      rw [hu, ok_bind]
      simp only [if_true]
      rw [hshift]
      rfl
    rcases pepper_solve hq hext hI hpar hl hU (u := u) (remainingMotion m (((n + 1) * v.step q : ℕ) : ℤ)) with ⟨s1, es, hS⟩ | ⟨es, hF⟩
    · left
      have hTm : ∀ iv ∈ s1.mpc.intervals, iv.T_ms = q.sampling_time_ms ∧ iv.T = (q.sampling_time_ms : K) / 1000 := by
        rw [hS.controller]
        intro iv hiv
        obtain ⟨i, hi⟩ := List.getElem?_of_mem hiv
        obtain ⟨_, _, -, -, h⟩ := hH.2 i iv hi
        exact ⟨h.duration_ms, h.duration⟩
      obtain ⟨c, st, iv, ea, hiv, hw, hmass, hcp, hcm⟩ := advance_ok hq (by rw [hS.controller, hpar]) (by rw [hS.controller, hflag])
        (by rw [hS.controller, hS.model]; exact hC) (by rw [hS.controller, hl]) hTm (by rw [hS.controller]; exact hS.solution)
      rw [hS.controller] at hiv hw hcp hcm
      rw [hS.model] at hw
      have hsum : (1634234 / 100000 : K) + 123389 / 10000 ≠ 0 := by norm_num
      refine ⟨{ s1 with mpc := c, model := s1.model.updateState st }, mpc, ?_,
        ⟨hu, hH, hS.solution.size, hS.best, ⟨iv, hiv, ?_⟩, ?_, ?_⟩, ⟨hcp.trans hpar, ?_, ?_, ?_, hI.proper, ?_, ?_,
          fun N hN => (Option.some.inj hN).symm, hS.params, fun hv => .inr ?_⟩, hmass⟩
      · unfold Program.iterate
        rw [hms, ok_bind]
        simp only [if_true]
        rw [es, ok_bind, ea]
        rfl
      · exact hw
      · show s1.model.robot_parameters = _
        rw [hS.model]
      · show s1.motion = _
        rw [hS.motion, hI.motion]
        have := shift_remaining (p := q) hI.proper (n * v.step q) (v.step q)
        rw [show (n + 1) * v.step q = n * v.step q + v.step q by ring, ← this]
        have hp' := remaining_proper hI.proper (n * v.step q)
        generalize remainingMotion m ((n * v.step q : ℕ) : ℤ) = m' at hp'
        conv_lhs => rw [← remaining_zero hp']
        have := shift_remaining (p := q) hp' 0 (v.step q)
        rw [Nat.zero_add] at this
        exact this
      · unfold SizedFor
        simp only
        rw [hcm]
        exact hsized
      · show st.base_mass + st.body_mass ≠ 0
        rw [hmass.1, hmass.2]
        exact hsum
      · show ∀ a, s1.model.robot_parameters.body_bounds a 0 = -s1.model.robot_parameters.body_bounds a 1
        rw [hS.model]
        exact hI.symmetric
      · exact hS.motion
      · show ProblemInv v o _ s1.problem
        rw [← hl]
        exact hS.problem
      · show SolutionFor _ s1.oldSolution
        rw [hS.old hv, ← hl]
        exact hS.solution
    · right
      refine ⟨?_, mpc, hu, hF⟩
      unfold Program.iterate
      rw [hms, ok_bind]
      simp only [if_true]
      rw [es]
      rfl

theorem pepper_after_inv (hq : PepperParameters v q) (hext : TrustedSolver ext) {s0 : Program K} (h0 : PepperStart q o m s0)
    (h : PepperAfter v ext tr s0 n s) : (∃ last, PepperInv v q o m n s last) ∧ s.model.robot_parameters = s0.model.robot_parameters := by
  induction h with
  | start => exact ⟨⟨none, pepper_start h0⟩, rfl⟩
  | @step n a b u _ hs ih =>
    obtain ⟨⟨last, hI⟩, hp⟩ := ih
    obtain ⟨P1, P2⟩ := pepper_step hq hext hI u tr
    by_cases hn : PepperContinues v q m n
    · rcases P2 hn with ⟨s', mpc, hr, hG, hI', -⟩ | ⟨hr, -⟩
      · cases hs.symm.trans hr
        exact ⟨⟨_, hI'⟩, hG.robot.trans hp⟩
      · cases hs.symm.trans hr
    · cases hs.symm.trans (P1 hn)

/-- An iteration which was made. -/
theorem pepper_made (hq : PepperParameters v q) (hext : TrustedSolver ext) {s0 s' : Program K} (h0 : PepperStart q o m s0)
    (h : PepperAfter v ext tr s0 n s) (hs : s.iterate v ext tr u = .ok (some s')) :
    ∃ mpc, PepperIteration v tr q o u s mpc s' ∧
      (s'.model.state.base_mass = 1634234 / 100000 ∧ s'.model.state.body_mass = 123389 / 10000) := by
  obtain ⟨⟨last, hI⟩, -⟩ := pepper_after_inv hq hext h0 h
  obtain ⟨P1, P2⟩ := pepper_step hq hext hI u tr
  by_cases hn : PepperContinues v q m n
  · rcases P2 hn with ⟨s', mpc, hr, hG, -, hm⟩ | ⟨hr, -⟩
    · cases hs.symm.trans hr
      exact ⟨mpc, hG, hm⟩
    · cases hs.symm.trans hr
  · cases hs.symm.trans (P1 hn)

/-! ### States -/

omit [LinearOrder K] [IsStrictOrderedRing K] in
theorem state_vec (model : Model K) {i : ℕ} (hi : i < 12) : model.getMPCState.e i = (Vec.ofList
    [model.state.base_state.position 0, model.state.base_state.velocity 0, model.state.base_state.acceleration 0,
     model.state.base_state.position 1, model.state.base_state.velocity 1, model.state.base_state.acceleration 1,
     model.state.body_state.position 0, model.state.body_state.velocity 0, model.state.body_state.acceleration 0,
     model.state.body_state.position 1, model.state.body_state.velocity 1, model.state.body_state.acceleration 1]).e i := by
  interval_cases i <;> rfl

/-- The state after an iteration in terms of vectors. -/
theorem iteration_vec {s' : Program K} (hq : PepperParameters v q) (hG : PepperIteration v tr q o u s mpc s') :
    ∃ iv X, mpc.intervals[0]? = some iv ∧ iv.T = (q.sampling_time_ms : K) / 1000 ∧ iv.T ≠ 0 ∧
      Simulates mpc.intervals s.model.getMPCState (Spec.entries s'.solution.x) X ∧ (∀ iv ∈ mpc.intervals, iv.T ≠ 0) ∧
      PepperStep iv.T ((v.step q : K) / 1000) s.model.getMPCState (controlAt mpc.intervals.length (Spec.entries s'.solution.x) 0)
        s'.model.getMPCState ∧
      PepperStep iv.T iv.T s.model.getMPCState (controlAt mpc.intervals.length (Spec.entries s'.solution.x) 0) (X 1) := by
  obtain ⟨iv, hiv, hw⟩ := hG.moves
  obtain ⟨_, _, -, -, hif⟩ := hG.horizon.2 0 iv hiv
  have hT := horizon_times hG.horizon hq.sampling
  have hX := simulation_simulates hT (x0 := s.model.getMPCState) rfl (Spec.entries s'.solution.x)
  refine ⟨iv, _, hiv, hif.duration, hT iv (List.mem_of_getElem? hiv), hX, hT, ?_, ?_⟩
  · exact PepperStep.congr hw.motion rfl rfl rfl (fun _ _ => rfl) (fun _ _ => rfl) fun i hi => state_vec s'.model hi
  · have := hX.2 0 iv hiv
    exact this

/-- If an iteration advances by a whole interval, then the robot arrives where the solution says. -/
theorem iteration_end {s' : Program K} (hq : PepperParameters v q) (hstep : v.step q = q.sampling_time_ms)
    (hG : PepperIteration v tr q o u s mpc s') :
    ∃ iv X, mpc.intervals[0]? = some iv ∧ iv.T ≠ 0 ∧ Simulates mpc.intervals s.model.getMPCState (Spec.entries s'.solution.x) X ∧
      (∀ i < 12, s'.model.getMPCState.e i = (X 1).e i) ∧ iv.theta = s'.model.state.base_state.rpy 2 := by
  obtain ⟨iv, X, hiv, hT, hT0, hX, -, h1, h2⟩ := iteration_vec hq hG
  obtain ⟨iv', hiv', hw⟩ := hG.moves
  cases hiv.symm.trans hiv'
  rw [hstep, ← hT] at h1
  refine ⟨iv, X, hiv, hT0, hX, fun i hi => ?_, ?_⟩
  · obtain ⟨b, p, hb, hp, rfl⟩ := exists_blk (h := 3) (n := 4) hi
    obtain ⟨a0, a1, a2⟩ := PepperStep.eq hT0 h1 hb
    obtain ⟨b0, b1, b2⟩ := PepperStep.eq hT0 h2 hb
    have hp' : p = 0 ∨ p = 1 ∨ p = 2 := by omega
    rcases hp' with rfl | rfl | rfl
    · rw [Nat.mul_comm b 3, Nat.add_zero, a0, b0]
    · rw [Nat.mul_comm b 3, a1, b1]
    · rw [Nat.mul_comm b 3, a2, b2]
  · rw [hw.orientation, hstep, ← hT]
    show _ = s.model.state.base_state.rpy 2 + (iv.theta - s.model.state.base_state.rpy 2) * iv.T / iv.T
    field_simp
    ring

/-! ### Runs -/

omit [IsStrictOrderedRing K] in
theorem pepper_run_mono : ∀ {l l' : ℕ}, l ≤ l' → ∀ {u : ℕ → Memory K} {s : Program K} {r : Res (Program K × ℕ)},
    s.run v ext tr u l = some r → s.run v ext tr u l' = some r := by
  intro l
  induction l with
  | zero => intro l' _ u s r h; cases h
  | succ l ih =>
    intro l' hl u s r h
    obtain ⟨m, rfl⟩ : ∃ m, l' = m + 1 := ⟨l' - 1, by omega⟩
    unfold Program.run at h ⊢
    generalize s.iterate v ext tr (u 0) = r1 at h ⊢
    rcases r1 with e | _ | s'
    · exact h
    · exact h
    · simp only at h ⊢
      cases hr : s'.run v ext tr (fun i => u (i + 1)) l with
      | none => rw [hr] at h; cases h
      | some r2 => rw [hr] at h; rw [ih (by omega) hr]; exact h

omit [IsStrictOrderedRing K] in
/-- The outcome of the program is unique. -/
theorem pepper_run_unique {u : ℕ → Memory K} {r r' : Res (Program K × ℕ)} (h : PepperReturns v ext tr u s r)
    (h' : PepperReturns v ext tr u s r') : r = r' := by
  obtain ⟨l, ha⟩ := h
  obtain ⟨l', hb⟩ := h'
  exact Option.some.inj ((pepper_run_mono (Nat.le_max_left l l') ha).symm.trans (pepper_run_mono (Nat.le_max_right l l') hb))

omit [IsStrictOrderedRing K] in
theorem pepper_left {u : ℕ → Memory K} (h : s.iterate v ext tr (u 0) = .ok none) : PepperReturns v ext tr u s (.ok (s, 0)) := by
  refine ⟨1, ?_⟩
  unfold Program.run
  rw [h]

omit [IsStrictOrderedRing K] in
theorem pepper_error {u : ℕ → Memory K} {e : Fault} (h : s.iterate v ext tr (u 0) = .error e) : PepperReturns v ext tr u s (.error e) := by
  refine ⟨1, ?_⟩
  unfold Program.run
  rw [h]

omit [IsStrictOrderedRing K] in
theorem pepper_next {u : ℕ → Memory K} {s' : Program K} (h : s.iterate v ext tr (u 0) = .ok (some s')) {r : Res (Program K × ℕ)}
    (hr : PepperReturns v ext tr (fun i => u (i + 1)) s' r) : PepperReturns v ext tr u s (r.map fun y => (y.1, y.2 + 1)) := by
  obtain ⟨l, hr⟩ := hr
  refine ⟨l + 1, ?_⟩
  unfold Program.run
  rw [h]
  simp only
  rw [hr]
  rcases r with e | ⟨a, b⟩ <;> rfl

omit [IsStrictOrderedRing K] in
theorem pepper_head {s' s'' : Program K} (h : s.iterate v ext tr u = .ok (some s')) (h' : PepperAfter v ext tr s' n s'') :
    PepperAfter v ext tr s (n + 1) s'' := by
  induction h' with
  | start => exact .step .start h
  | step _ hs ih => exact .step ih hs

theorem pepperIterations_lt (hq : PepperParameters v q) (d n : ℕ) :
    n < pepperIterations v q d ↔ n * v.step q + q.preview_horizon_length * q.sampling_time_ms ≤ d := by
  have := hq.step.1
  unfold pepperIterations
  rw [Nat.lt_iff_add_one_le, Nat.le_div_iff_mul_le this, Nat.add_mul, Nat.one_mul]
  omega

theorem pepper_outcome (hq : PepperParameters v q) (hext : TrustedSolver ext) {d : ℕ} (hd : m.duration_ms = d) :
    ∀ k {n s last} (u : ℕ → Memory K), PepperInv v q o m n s last →
      n + k = pepperIterations v q d ∨ pepperIterations v q d < n ∧ k = 0 →
      (∃ s', PepperReturns v ext tr u s (.ok (s', k)) ∧ PepperAfter v ext tr s k s') ∨
      (PepperReturns v ext tr u s (.error .thrown) ∧ PepperStopped v ext tr o s u) := by
  have hc : ∀ n, PepperContinues v q m n ↔ n < pepperIterations v q d := by
    intro n
    rw [pepperIterations_lt hq]
    unfold PepperContinues Unlimited
    rw [hd]
    constructor
    · rintro (h | h)
      · omega
      · exact_mod_cast h
    · exact fun h => .inr (by exact_mod_cast h)
  intro k
  induction k with
  | zero =>
    intro n s last u hI hm
    exact .inl ⟨s, pepper_left ((pepper_step hq hext hI (u 0) tr).1 (by rw [hc]; omega)), .start⟩
  | succ k ih =>
    intro n s last u hI hm
    rcases (pepper_step hq hext hI (u 0) tr).2 ((hc n).2 (by omega)) with ⟨s', mpc, hr, hG, hI', -⟩ | ⟨hr, mpc, hu, hno⟩
    · rcases ih (fun i => u (i + 1)) hI' (by omega) with ⟨s'', h1, h2⟩ | ⟨h1, n', s'', mpc', h2, h3⟩
      · exact .inl ⟨s'', pepper_next hr h1, pepper_head hr h2⟩
      · exact .inr ⟨pepper_next hr h1, n' + 1, s'', mpc', pepper_head hr h2, h3⟩
    · exact .inr ⟨pepper_error hr, 0, s, mpc, .start, hu, hno⟩

theorem pepper_unlimited (hq : PepperParameters v q) (hext : TrustedSolver ext) (hm : Unlimited m) :
    ∀ left {n s last} (u : ℕ → Memory K) {r}, PepperInv v q o m n s last → s.run v ext tr u left = some r →
      r = .error .thrown ∧ PepperStopped v ext tr o s u := by
  intro left
  induction left with
  | zero => intro n s last u r hI h; cases h
  | succ left ih =>
    intro n s last u r hI h
    unfold Program.run at h
    rcases (pepper_step hq hext hI (u 0) tr).2 (.inl hm) with ⟨s', mpc, hr, hG, hI', -⟩ | ⟨hr, mpc, hu, hno⟩
    · rw [hr] at h
      simp only at h
      cases h1 : s'.run v ext tr (fun i => u (i + 1)) left with
      | none => rw [h1] at h; cases h
      | some r1 =>
        obtain ⟨rfl, n', s'', mpc', h2, h3⟩ := ih _ hI' h1
        rw [h1] at h
        exact ⟨(Option.some.inj h).symm, n' + 1, s'', mpc', pepper_head hr h2, h3⟩
    · rw [hr] at h
      exact ⟨(Option.some.inj h).symm, 0, s, mpc, .start, hu, hno⟩

/-! ### Standing -/

omit [LinearOrder K] [IsStrictOrderedRing K] in
theorem standing_vec {p : Fin 2 → K} {model : Model K} (h : StandsAt p model.state) (a : Fin 2) :
    (model.getMPCState.e (3 * a) = p a ∧ model.getMPCState.e (3 * a + 1) = 0 ∧ model.getMPCState.e (3 * a + 2) = 0) ∧
    (model.getMPCState.e (3 * (a + 2)) = p a ∧ model.getMPCState.e (3 * (a + 2) + 1) = 0 ∧ model.getMPCState.e (3 * (a + 2) + 2) = 0) := by
  have h1 := h.base a
  have h2 := h.body a
  fin_cases a <;> exact ⟨h1, h2⟩

/-- A state in which the robot stands. -/
def StandingVec (p : Fin 2 → K) (x : Vec K) : Prop :=
  ∀ a : Fin 2, (x.e (3 * a) = p a ∧ x.e (3 * a + 1) = 0 ∧ x.e (3 * a + 2) = 0) ∧
    (x.e (3 * (a + 2)) = p a ∧ x.e (3 * (a + 2) + 1) = 0 ∧ x.e (3 * (a + 2) + 2) = 0)

theorem standing_next {p : Fin 2 → K} {T τ : K} (hT : T ≠ 0) {x u y : Vec K} (hx : StandingVec p x) (h : PepperStep T τ x u y)
    (hj : ∀ k < 4, stepJerk T x u k = 0) : StandingVec p y := by
  intro a
  obtain ⟨⟨a0, a1, a2⟩, ⟨b0, b1, b2⟩⟩ := hx a
  obtain ⟨c0, c1, c2⟩ := PepperStep.eq hT h (k := a) (by omega)
  obtain ⟨d0, d1, d2⟩ := PepperStep.eq hT h (k := a + 2) (by omega)
  rw [hj _ (by omega)] at c0 c1 c2 d0 d1 d2
  rw [c0, c1, c2, d0, d1, d2, a0, a1, a2, b0, b1, b2]
  unfold positionAt velocityAt accelerationAt
  refine ⟨⟨by ring, by ring, by ring⟩, ⟨by ring, by ring, by ring⟩⟩

/-- If nothing is done, then the robot stands. -/
theorem standing_motion {p : Fin 2 → K} {ivs : List (Interval K)} (hT : ∀ iv ∈ ivs, iv.T ≠ 0) {x0 : Vec K} (h0 : StandingVec p x0)
    {X : ℕ → Vec K} (hX : Simulates ivs x0 (fun _ => 0) X) : ∀ k ≤ ivs.length, StandingVec p (X k) := by
  intro k
  induction k with
  | zero => intro _; rw [hX.1]; exact h0
  | succ k ih =>
    intro hk
    have hiv : ivs[k]? = some ivs[k] := List.getElem?_eq_getElem hk
    generalize ivs[k] = iv at hiv
    have hs := ih (by omega)
    refine standing_next (hT iv (List.mem_of_getElem? hiv)) hs (hX.2 k iv hiv) fun b hb => ?_
    have hctl : (controlAt ivs.length (fun _ => (0 : K)) k).e b = 0 := by
      have : b = 0 ∨ b = 1 ∨ b = 2 ∨ b = 3 := by omega
      rcases this with rfl | rfl | rfl | rfl <;> rfl
    unfold stepJerk
    rw [hctl]
    split
    · rename_i hb2
      have := hs ⟨b, hb2⟩
      rw [this.1.2.1, this.1.2.2]
      ring
    · rfl

theorem inForce_single {m m' : MotionParameters K} {t : ℤ} (h : InForce [m] t m') : m' = m := by
  obtain ⟨b, a, h1, -⟩ := h
  rcases b with _ | ⟨c, b⟩
  · exact (List.cons.inj h1).1.symm
  · have := (List.cons.inj h1).2
    simp at this

/-- Standing is allowed and costs nothing. -/
theorem standing_allowed {p : Fin 2 → K} {ivs : List (Interval K)} {model : Model K} (hH : HorizonFor tr q model [s.motion] ivs)
    (hmass : model.state.base_mass + model.state.body_mass ≠ 0) (hp : MayStand model.robot_parameters) (hm : AsksToStand o p s.motion)
    {X : ℕ → Vec K} (hX : ∀ k ≤ ivs.length, StandingVec p (X k)) : PepperAllowed ivs X ∧ pepperCost o ivs X = 0 := by
  have hle : ∀ {k : ℕ} {iv}, ivs[k]? = some iv → k + 1 ≤ ivs.length := fun hk => (List.getElem?_eq_some_iff.mp hk).1
  have hwithin : ∀ {b : Fin 2 → Fin 2 → K} {w : Fin 2 → K}, (WithinBounds b fun _ => 0) → (∀ a, w a = 0) → WithinBounds b w := by
    intro b w h hw a
    rw [hw a]
    exact h a
  have hcop : ∀ {k : ℕ} {iv}, ivs[k]? = some iv → ∀ a, copQuantity iv (X k) (X (k + 1)) a = 0 := by
    intro k iv hk a
    obtain ⟨_, _, -, -, hi⟩ := hH.2 k iv hk
    obtain ⟨⟨a0, a1, a2⟩, ⟨b0, b1, b2⟩⟩ := hX _ (hle hk) a
    show intervalCop iv (X (k + 1)) a = 0
    unfold intervalCop
    rw [a0, a2, b0, b2, hi.base_mass, hi.body_mass]
    field_simp
    ring
  refine ⟨⟨fun k iv hk => ?_, fun k iv hk => ?_, fun k iv hk => ?_, fun k iv hk => ?_⟩, ?_⟩
  · obtain ⟨_, _, -, -, hi⟩ := hH.2 k iv hk
    rw [hi.velocity_bounds]
    exact hwithin hp.velocity fun a => (hX _ (hle hk) a).1.2.1
  · obtain ⟨_, _, -, -, hi⟩ := hH.2 k iv hk
    rw [hi.acceleration_bounds]
    exact hwithin hp.acceleration fun a => (hX _ (hle hk) a).1.2.2
  · obtain ⟨_, _, -, -, hi⟩ := hH.2 k iv hk
    rw [hi.cop_bounds]
    exact hwithin hp.cop fun a => hcop hk a
  · obtain ⟨_, _, -, -, hi⟩ := hH.2 k iv hk
    rw [hi.body_bounds]
    refine hwithin hp.body fun a => ?_
    have e0 : (X (k + 1)).e 0 = p 0 := (hX _ (hle hk) 0).1.1
    have e3 : (X (k + 1)).e 3 = p 1 := (hX _ (hle hk) 1).1.1
    have e6 : (X (k + 1)).e 6 = p 0 := (hX _ (hle hk) 0).2.1
    have e9 : (X (k + 1)).e 9 = p 1 := (hX _ (hle hk) 1).2.1
    show bodyOffset iv (X (k + 1)) a = 0
    unfold bodyOffset
    rw [e0, e3, e6, e9]
    ring
  · have hz : ∀ {Q : Quantity K}, (∀ (k : ℕ) iv, ivs[k]? = some iv → ∀ a, Q iv (X k) (X (k + 1)) a = 0) → motionCost ivs Q X = 0 := by
      intro Q h
      unfold motionCost
      refine Finset.sum_eq_zero fun k _ => Finset.sum_eq_zero fun a _ => ?_
      rw [h k ivs[k] (List.getElem?_eq_getElem k.2) a]
      ring
    have z1 : motionCost ivs baseJerkQuantity X = 0 := hz fun k iv hk a => by
      unfold baseJerkQuantity baseAcceleration
      rw [(hX _ (hle hk) a).1.2.2, (hX k (by have := hle hk; omega) a).1.2.2, sub_self, zero_div]
    have z2 : motionCost ivs bodyJerkQuantity X = 0 := hz fun k iv hk a => by
      unfold bodyJerkQuantity bodyAcceleration
      rw [(hX _ (hle hk) a).2.2.2, (hX k (by have := hle hk; omega) a).2.2.2, sub_self, zero_div]
    have z3 : motionCost ivs copQuantity X = 0 := hz fun k iv hk => hcop hk
    unfold pepperCost
    rw [z1, z2, z3]
    unfold AsksToStand at hm
    split
    · rename_i hmode
      rw [if_pos hmode] at hm
      rw [hz (Q := positionErrorQuantity) fun k iv hk a => by
        obtain ⟨m', _, hf, -, hi⟩ := hH.2 k iv hk
        rw [inForce_single hf] at hi
        unfold positionErrorQuantity basePosition
        rw [(hX _ (hle hk) a).1.1, hi.position, hm, sub_self]]
      ring
    · rename_i hmode
      rw [if_neg hmode] at hm
      rw [hz (Q := velocityErrorQuantity) fun k iv hk a => by
        obtain ⟨m', _, hf, -, hi⟩ := hH.2 k iv hk
        rw [inForce_single hf] at hi
        unfold velocityErrorQuantity baseVelocity
        rw [(hX _ (hle hk) a).1.2.1, hi.velocity, hm, Matrix.mulVec_zero, Pi.zero_apply, sub_self]]
      ring

theorem motionCost_nonneg (ivs : List (Interval K)) (Q : Quantity K) (X : ℕ → Vec K) : 0 ≤ motionCost ivs Q X :=
  Finset.sum_nonneg fun _ _ => Finset.sum_nonneg fun _ _ => sq_nonneg _

theorem motionCost_zero {ivs : List (Interval K)} {Q : Quantity K} {X : ℕ → Vec K} (h : motionCost ivs Q X = 0) {k : ℕ} {iv : Interval K}
    (hk : ivs[k]? = some iv) (a : Fin 2) : Q iv (X k) (X (k + 1)) a = 0 := by
  obtain ⟨hlt, rfl⟩ := List.getElem?_eq_some_iff.mp hk
  unfold motionCost at h
  have h1 := (Finset.sum_eq_zero_iff_of_nonneg fun _ _ => Finset.sum_nonneg fun _ _ => sq_nonneg _).1 h ⟨k, hlt⟩ (Finset.mem_univ _)
  have h2 := (Finset.sum_eq_zero_iff_of_nonneg fun _ _ => sq_nonneg _).1 h1 a (Finset.mem_univ _)
  exact pow_eq_zero_iff (two_ne_zero) |>.1 h2

/-- If the robot stands and is asked to stand, then it stands after an iteration. -/
theorem standing_iteration {s' : Program K} {p : Fin 2 → K} (hq : PepperParameters v q) (hG : PepperIteration v tr q o u s mpc s')
    (hmass : s.model.state.base_mass + s.model.state.body_mass ≠ 0) (hp : MayStand s.model.robot_parameters)
    (hm : AsksToStand o p s.motion) (hg1 : o.baseJerkGain ≠ 0) (hg2 : o.bodyJerkGain ≠ 0) (hs : StandsAt p s.model.state) :
    StandsAt p s'.model.state := by
  obtain ⟨iv, X, hiv, hT, hT0, hX, hTs, h1, h2⟩ := iteration_vec hq hG
  have h0 : StandingVec p s.model.getMPCState := standing_vec hs
  have hZ := simulation_simulates hTs (x0 := s.model.getMPCState) rfl (fun _ => (0 : K))
  obtain ⟨hA, hc⟩ := standing_allowed hG.horizon hmass hp hm (standing_motion hTs h0 hZ)
  have hle := (hG.best X hX).2 _ _ hZ hA fun i _ => ⟨by norm_num, by norm_num⟩
  rw [hc] at hle
  simp only [zero_mul, add_zero] at hle
  have p1 := motionCost_nonneg mpc.intervals positionErrorQuantity X
  have p2 := motionCost_nonneg mpc.intervals velocityErrorQuantity X
  have p3 := motionCost_nonneg mpc.intervals baseJerkQuantity X
  have p4 := motionCost_nonneg mpc.intervals bodyJerkQuantity X
  have p5 := motionCost_nonneg mpc.intervals copQuantity X
  have g1 : 0 < o.baseJerkGain ^ 2 := by positivity
  have g2 : 0 < o.bodyJerkGain ^ 2 := by positivity
  have t0 : 0 ≤ (if o.mode = .maintainPosition then o.positionGain ^ 2 * motionCost mpc.intervals positionErrorQuantity X
    else o.velocityGain ^ 2 * motionCost mpc.intervals velocityErrorQuantity X) := by split <;> positivity
  have t1 : 0 ≤ o.copGain ^ 2 * motionCost mpc.intervals copQuantity X := by positivity
  have t2 : 0 ≤ o.baseJerkGain ^ 2 * motionCost mpc.intervals baseJerkQuantity X := by positivity
  have t3 : 0 ≤ o.bodyJerkGain ^ 2 * motionCost mpc.intervals bodyJerkQuantity X := by positivity
  unfold pepperCost at hle
  have z1 : motionCost mpc.intervals baseJerkQuantity X = 0 :=
    (mul_eq_zero.1 (le_antisymm (by linarith) t2)).resolve_left g1.ne'
  have z2 : motionCost mpc.intervals bodyJerkQuantity X = 0 :=
    (mul_eq_zero.1 (le_antisymm (by linarith) t3)).resolve_left g2.ne'
  have hX0 : X 0 = s.model.getMPCState := hX.1
  have hj : ∀ k < 4, stepJerk iv.T s.model.getMPCState (controlAt mpc.intervals.length (Spec.entries s'.solution.x) 0) k = 0 := by
    have key : ∀ k < 4, (X 1).e (3 * k + 2) = s.model.getMPCState.e (3 * k + 2) →
        stepJerk iv.T s.model.getMPCState (controlAt mpc.intervals.length (Spec.entries s'.solution.x) 0) k = 0 := by
      intro k hk he
      have e := (PepperStep.eq hT0 h2 hk).2.2
      rw [he] at e
      unfold accelerationAt at e
      have : stepJerk iv.T s.model.getMPCState (controlAt mpc.intervals.length (Spec.entries s'.solution.x) 0) k * iv.T = 0 := by linarith
      exact (mul_eq_zero.1 this).resolve_right hT0
    intro k hk
    refine key k hk ?_
    by_cases hk2 : k < 2
    · have := motionCost_zero z1 hiv ⟨k, hk2⟩
      unfold baseJerkQuantity baseAcceleration at this
      rw [hX0] at this
      have := (div_eq_zero_iff.1 this).resolve_right hT0
      exact sub_eq_zero.1 this
    · have := motionCost_zero z2 hiv ⟨k - 2, by omega⟩
      unfold bodyJerkQuantity bodyAcceleration at this
      rw [hX0] at this
      have := sub_eq_zero.1 ((div_eq_zero_iff.1 this).resolve_right hT0)
      simp only at this
      rwa [show k - 2 + 2 = k by omega] at this
  have hfin : StandingVec p s'.model.getMPCState := standing_next hT0 h0 h1 hj
  have f0 := hfin 0
  have f1 := hfin 1
  constructor
  · intro a
    fin_cases a
    · exact f0.1
    · exact f1.1
  · intro a
    fin_cases a
    · exact f0.2
    · exact f1.2

end

/-! ## C87 -/

section
variable {v : ProgramKind} {q : MPCParameters} {o : ProblemSetup K} {m : MotionParameters K} {n : ℕ} {s0 s s' : Program K}
  {ext : Qpoases K} {tr : Trig K} {u : Memory K}

/-- **C87.** After any number of iterations, whatever is in memory: as long as the rest of the motion covers the horizon, an iteration either
finds the best allowed motion and moves the robot along it, or it ends with an exception, since no motion is allowed or since qpOASES has
failed to find an existing one. There is no undefined behaviour. -/
theorem C87_iteration (hq : PepperParameters v q) (hext : TrustedSolver ext) (h0 : PepperStart q o m s0) (h : PepperAfter v ext tr s0 n s)
    (hn : PepperContinues v q m n) (u : Memory K) :
    (∃ s' mpc, s.iterate v ext tr u = .ok (some s') ∧ PepperIteration v tr q o u s mpc s') ∨
    (s.iterate v ext tr u = .error .thrown ∧ ∃ mpc, s.mpc.update u.matrices tr u.horizon s.motion s.model = .ok (mpc, .ok) ∧
      PepperFails ext o mpc s.model) := by
  obtain ⟨⟨last, hI⟩, -⟩ := pepper_after_inv hq hext h0 h
  rcases (pepper_step hq hext hI u tr).2 hn with ⟨s', mpc, h1, h2, -⟩ | h'
  · exact .inl ⟨s', mpc, h1, h2⟩
  · exact .inr h'

/-- **C87.** Otherwise the loop is left. -/
theorem C87_stops (hq : PepperParameters v q) (hext : TrustedSolver ext) (h0 : PepperStart q o m s0) (h : PepperAfter v ext tr s0 n s)
    (hn : ¬ PepperContinues v q m n) (u : Memory K) : s.iterate v ext tr u = .ok none := by
  obtain ⟨⟨last, hI⟩, -⟩ := pepper_after_inv hq hext h0 h
  exact (pepper_step hq hext hI u tr).1 hn

/-- **C87.** If iterations advance by whole intervals, then after each of them the velocity and the acceleration of the base and the position
of the body relative to the base are within the bounds. -/
theorem C87_safe (hq : PepperParameters v q) (hext : TrustedSolver ext) (h0 : PepperStart q o m s0)
    (hstep : v.step q = q.sampling_time_ms) (h : PepperAfter v ext tr s0 (n + 1) s) : PepperSafe tr s0.model.robot_parameters s.model.state := by
  cases h with
  | @step _ a _ u h hs =>
    obtain ⟨mpc, hG, -⟩ := pepper_made hq hext h0 h hs
    obtain ⟨-, hpar⟩ := pepper_after_inv hq hext h0 h
    obtain ⟨iv, X, hiv, hT0, hX, he, hth⟩ := iteration_end hq hstep hG
    obtain ⟨_, _, -, -, hif⟩ := hG.horizon.2 0 iv hiv
    obtain ⟨hA, -⟩ := hG.best X hX
    rw [← hpar]
    refine ⟨?_, ?_, ?_⟩
    · have := hA.velocity 0 iv hiv
      rw [hif.velocity_bounds] at this
      intro a
      have h1 : s.model.state.base_state.velocity a.castSucc = velocityQuantity iv (X 0) (X (0 + 1)) a := by
        refine Eq.trans ?_ (he (3 * a + 1) (by omega))
        fin_cases a <;> rfl
      simp only [h1]
      exact this a
    · have := hA.acceleration 0 iv hiv
      rw [hif.acceleration_bounds] at this
      intro a
      have h1 : s.model.state.base_state.acceleration a.castSucc = accelerationQuantity iv (X 0) (X (0 + 1)) a := by
        refine Eq.trans ?_ (he (3 * a + 2) (by omega))
        fin_cases a <;> rfl
      simp only [h1]
      exact this a
    · have := hA.body 0 iv hiv
      rw [hif.body_bounds] at this
      have e0 : s.model.state.base_state.position 0 = (X 1).e 0 := he 0 (by omega)
      have e3 : s.model.state.base_state.position 1 = (X 1).e 3 := he 3 (by omega)
      have e6 : s.model.state.body_state.position 0 = (X 1).e 6 := he 6 (by omega)
      have e9 : s.model.state.body_state.position 1 = (X 1).e 9 := he 9 (by omega)
      have hr := hif.rotation
      rw [hth] at hr
      rw [e0, e3, e6, e9]
      intro a
      have h1 := this a
      have h2 : bodyQuantity iv (X 0) (X (0 + 1)) a = iv.rotation 0 a * ((X 1).e 6 - (X 1).e 0) + iv.rotation 1 a * ((X 1).e 9 - (X 1).e 3) := rfl
      rw [h2, hr] at h1
      fin_cases a <;> exact h1

/-- **C87.** Also the centre of pressure is within its bounds, if the robot has the default masses at the beginning, or after the second
iteration: then it has the default masses in any case, see C69. -/
theorem C87_cop (hq : PepperParameters v q) (hext : TrustedSolver ext) (h0 : PepperStart q o m s0)
    (hstep : v.step q = q.sampling_time_ms)
    (hm : 0 < n ∨ s0.model.state.base_mass = 1634234 / 100000 ∧ s0.model.state.body_mass = 123389 / 10000)
    (h : PepperAfter v ext tr s0 (n + 1) s) :
    WithinBounds s0.model.robot_parameters.cop_bounds fun a => centreOfPressure s.model.state a.castSucc := by
  cases h with
  | @step _ a _ u h hs =>
    have hma : a.model.state.base_mass = 1634234 / 100000 ∧ a.model.state.body_mass = 123389 / 10000 := by
      cases h with
      | start => exact hm.resolve_left (lt_irrefl 0)
      | step h' hs' => exact (pepper_made hq hext h0 h' hs').choose_spec.2
    obtain ⟨mpc, hG, hms⟩ := pepper_made hq hext h0 h hs
    obtain ⟨-, hpar⟩ := pepper_after_inv hq hext h0 h
    obtain ⟨iv, X, hiv, hT0, hX, he, hth⟩ := iteration_end hq hstep hG
    obtain ⟨iv', hiv', hw⟩ := hG.moves
    cases hiv.symm.trans hiv'
    obtain ⟨_, _, -, -, hif⟩ := hG.horizon.2 0 iv hiv
    obtain ⟨hA, -⟩ := hG.best X hX
    rw [← hpar]
    have := hA.cop 0 iv hiv
    rw [hif.cop_bounds] at this
    intro b
    have h1 : centreOfPressure s.model.state b.castSucc = copQuantity iv (X 0) (X (0 + 1)) b := by
      show centreOfPressure s.model.state b.castSucc = intervalCop iv (X 1) b
      unfold centreOfPressure intervalCop
      rw [hms.1, hms.2, hif.base_mass, hif.body_mass, hma.1, hma.2, hw.base_height, hw.body_height,
        ← he (3 * b) (by omega), ← he (3 * b + 2) (by omega), ← he (3 * (b + 2)) (by omega), ← he (3 * (b + 2) + 2) (by omega)]
      fin_cases b <;> rfl
    simp only [h1]
    exact this b

/-- **C87.** The acceleration of the base remains within the bounds also if an iteration advances by a part of an interval. -/
theorem C87_acceleration (hq : PepperParameters v q) (hext : TrustedSolver ext) (h0 : PepperStart q o m s0)
    (ha : WithinBounds s0.model.robot_parameters.nominal_base_acceleration_bounds fun a => s0.model.state.base_state.acceleration a.castSucc)
    (h : PepperAfter v ext tr s0 n s) :
    WithinBounds s0.model.robot_parameters.nominal_base_acceleration_bounds fun a => s.model.state.base_state.acceleration a.castSucc := by
  induction h with
  | start => exact ha
  | @step n c d u h hs ih =>
    obtain ⟨mpc, hG, -⟩ := pepper_made hq hext h0 h hs
    obtain ⟨-, hpar⟩ := pepper_after_inv hq hext h0 h
    obtain ⟨iv, X, hiv, hT, hT0, hX, -, h1, h2⟩ := iteration_vec hq hG
    obtain ⟨_, _, -, -, hif⟩ := hG.horizon.2 0 iv hiv
    obtain ⟨hA, -⟩ := hG.best X hX
    have hB := hA.acceleration 0 iv hiv
    rw [hif.acceleration_bounds, hpar] at hB
    intro a
    have e1 := (PepperStep.eq hT0 h1 (k := a) (by omega)).2.2
    have e2 := (PepperStep.eq hT0 h2 (k := a) (by omega)).2.2
    obtain ⟨i1, i2⟩ := ih a
    obtain ⟨b1, b2⟩ := hB a
    have hd : d.model.state.base_state.acceleration a.castSucc = d.model.getMPCState.e (3 * a + 2) := by fin_cases a <;> rfl
    have hc : c.model.state.base_state.acceleration a.castSucc = c.model.getMPCState.e (3 * a + 2) := by fin_cases a <;> rfl
    have hx : accelerationQuantity iv (X 0) (X (0 + 1)) a = (X 1).e (3 * a + 2) := rfl
    simp only [hd, hc] at i1 i2 ⊢
    rw [hx] at b1 b2
    rw [e2] at b1 b2
    rw [e1]
    unfold accelerationAt at *
    generalize stepJerk iv.T c.model.getMPCState (controlAt mpc.intervals.length (Spec.entries d.solution.x) 0) a = j at *
    generalize c.model.getMPCState.e (3 * a + 2) = A at *
    have hs1 : (0 : K) ≤ (v.step q : K) / 1000 := by positivity
    have hs2 : (v.step q : K) / 1000 ≤ iv.T := by
      rw [hT]
      have : (v.step q : K) ≤ q.sampling_time_ms := by exact_mod_cast hq.step.2
      gcongr
    generalize (v.step q : K) / 1000 = τ at *
    rcases le_total 0 j with hj | hj
    · exact ⟨by nlinarith, by nlinarith⟩
    · exact ⟨by nlinarith, by nlinarith⟩

/-- **C87.** If the motion has a duration, then the program terminates for every contents of the memory, with a unique outcome: either it
has made the number of iterations which follows from the duration, or it is stopped by an exception for one of the two reasons. -/
theorem C87_run (hq : PepperParameters v q) (hext : TrustedSolver ext) (h0 : PepperStart q o m s0) {d : ℕ} (hd : m.duration_ms = d)
    (u : ℕ → Memory K) :
    ∃ r, PepperReturns v ext tr u s0 r ∧ (∀ r', PepperReturns v ext tr u s0 r' → r' = r) ∧
      ((∃ s, r = .ok (s, pepperIterations v q d) ∧ PepperAfter v ext tr s0 (pepperIterations v q d) s) ∨
        (r = .error .thrown ∧ PepperStopped v ext tr o s0 u)) := by
  rcases pepper_outcome hq hext hd (pepperIterations v q d) u (pepper_start h0) (.inl (by omega)) with ⟨s, h1, h2⟩ | ⟨h1, h2⟩
  · exact ⟨_, h1, fun r' h' => pepper_run_unique h' h1, .inl ⟨s, rfl, h2⟩⟩
  · exact ⟨_, h1, fun r' h' => pepper_run_unique h' h1, .inr ⟨rfl, h2⟩⟩

/-- **C87.** If the motion is unlimited, then the program ends only with an exception, for one of the two reasons. -/
theorem C87_unlimited (hq : PepperParameters v q) (hext : TrustedSolver ext) (h0 : PepperStart q o m s0) (hm : Unlimited m)
    (u : ℕ → Memory K) {r : Res (Program K × ℕ)} (h : PepperReturns v ext tr u s0 r) :
    r = .error .thrown ∧ PepperStopped v ext tr o s0 u := by
  obtain ⟨left, h⟩ := h
  exact pepper_unlimited hq hext hm left u (pepper_start h0) h

/-- **C87.** A robot which stands and is asked to stand remains where it is. -/
theorem C87_standing (hq : PepperParameters v q) (hext : TrustedSolver ext) (h0 : PepperStart q o m s0) {p : Fin 2 → K}
    (hs : StandsAt p s0.model.state) (hm : AsksToStand o p m) (hp : MayStand s0.model.robot_parameters)
    (hg : o.baseJerkGain ≠ 0 ∧ o.bodyJerkGain ≠ 0) (h : PepperAfter v ext tr s0 n s) : StandsAt p s.model.state := by
  induction h with
  | start => exact hs
  | @step n a b u h hs' ih =>
    obtain ⟨mpc, hG, -⟩ := pepper_made hq hext h0 h hs'
    obtain ⟨⟨last, hI⟩, hpar⟩ := pepper_after_inv hq hext h0 h
    exact standing_iteration hq hG hI.masses (by rw [hpar]; exact hp) (by rw [hI.motion]; exact hm) hg.1 hg.2 ih

/-- **C87.** If in addition qpOASES solves feasible problems, then the program is never stopped by an exception: it makes all iterations
of a motion which has a duration. -/
theorem C87_completes (hq : PepperParameters v q) (hext : TrustedSolver ext) (hcomplete : CompleteSolver ext) (h0 : PepperStart q o m s0)
    {p : Fin 2 → K} (hs : StandsAt p s0.model.state) (hm : AsksToStand o p m) (hp : MayStand s0.model.robot_parameters)
    (hg : o.baseJerkGain ≠ 0 ∧ o.bodyJerkGain ≠ 0) (u : ℕ → Memory K) :
    ¬ PepperStopped v ext tr o s0 u ∧ ∀ d : ℕ, m.duration_ms = d →
      ∃ s, PepperReturns v ext tr u s0 (.ok (s, pepperIterations v q d)) ∧ StandsAt p s.model.state := by
  have hno : ¬ PepperStopped v ext tr o s0 u := by
    rintro ⟨n, s, mpc, h3, h4, h5⟩
    obtain ⟨⟨last, hI⟩, hpar⟩ := pepper_after_inv hq hext h0 h3
    obtain ⟨mpc', st, k1, -, k3⟩ := pepper_update hq hI (u n) tr
    cases h4.symm.trans k1
    obtain ⟨-, -, -, hH, -, -⟩ := k3 rfl
    have hT := horizon_times hH hq.sampling
    have hf : PepperFeasible mpc.intervals s.model.getMPCState fun _ => 0 := fun X hX =>
      (standing_allowed (o := o) hH hI.masses (by rw [hpar]; exact hp) (by rw [hI.motion]; exact hm)
        (standing_motion hT (standing_vec (C87_standing hq hext h0 hs hm hp hg h3)) hX)).1
    have hmod : PepperModerate mpc.intervals fun _ => (0 : K) := fun i _ => ⟨by norm_num, by norm_num⟩
    rcases h5 with h5 | ⟨a, g, gs, hd, hst⟩
    · exact h5 _ hmod hf
    · exact hst (hcomplete a g gs hd.accepted (hd.bounds trivial).1 (hd.bounds trivial).2 ⟨_, hd.complete _ hf hmod⟩)
  refine ⟨hno, fun d hd => ?_⟩
  obtain ⟨r, h1, -, ⟨s, rfl, h3⟩ | ⟨-, h2⟩⟩ := C87_run (tr := tr) hq hext h0 hd u
  · exact ⟨s, h1, C87_standing hq hext h0 hs hm hp hg h3⟩
  · exact absurd h2 hno

end

/-! ### The hypotheses are met -/

/-- The program of the robot which stands. -/
theorem standing_program (q : MPCParameters) {o : ProblemSetup K} (ho : o.mode ≠ .undefined) {m : MotionParameters K} (hm : ProperMotion m) :
    ∃ s, PepperStart q o m s ∧ s.model = standingModel K := by
  obtain ⟨p, hp, -⟩ := pepper_setup o ho ⟨[], []⟩
  refine ⟨⟨standingModel K, m, Mpc.make q, p, ⟨SolverParameters.default, ⟨⟨⟨Mat.const 0 0 0, Vec.const 0 0, .undefined⟩,
    ⟨⟨0, Mat.const 0 0 0, Vec.const 0 0, Vec.const 0 0⟩, ⟨0, ⟨0, fun _ => 0⟩, Vec.const 0 0, Vec.const 0 0⟩, Vec.const 0 0,
      Vec.const 0 0⟩⟩, none, none, none⟩⟩, ⟨.empty, [], .undefined⟩, ⟨.empty, [], .undefined⟩, ⟨.empty, [], .undefined⟩⟩,
    ⟨?_, ?_, rfl, hm, rfl, ⟨_, hp⟩, rfl, rfl⟩, rfl⟩
  · norm_num [standingModel, ModelState.setParameters]
  · intro a
    fin_cases a <;> rfl

theorem standing_stands : StandsAt 0 (standingModel K).state := by
  constructor <;> intro a <;> fin_cases a <;> exact ⟨rfl, rfl, rfl⟩

theorem standing_may : MayStand (standingModel K).robot_parameters := by
  have h : WithinBounds (boundsOf (1 : K)) fun _ => 0 := by
    intro a
    fin_cases a <;> exact ⟨neg_nonpos.2 zero_le_one, zero_le_one⟩
  exact ⟨h, h, h, h⟩

/-- All programs, with the default parameters of the controller and a motion of 9900 milliseconds: 85 iterations. -/
example (v : ProgramKind) (tr : Trig ℝ) (u : ℕ → Memory ℝ) : ∃ (ext : Qpoases ℝ) (s0 : Program ℝ), TrustedSolver ext ∧ CompleteSolver ext ∧
    PepperParameters v ⟨15, 100, 100⟩ ∧ PepperStart ⟨15, 100, 100⟩ ⟨.maintainVelocity, 1, 1, 1, 1, 1⟩ ⟨0, 0, 1, 9900, .maintainVelocity⟩ s0 ∧
    StandsAt 0 s0.model.state ∧ MayStand s0.model.robot_parameters ∧
    ∃ s, PepperReturns v ext tr u s0 (.ok (s, 85)) ∧ PepperAfter v ext tr s0 85 s := by
  obtain ⟨ext, h1, h2⟩ := exists_solver
  have hstep : v.step ⟨15, 100, 100⟩ = 100 := by unfold ProgramKind.step; split <;> rfl
  have hq : PepperParameters v ⟨15, 100, 100⟩ := by
    refine ⟨by norm_num, by norm_num, by norm_num, by rw [hstep]; norm_num, fun _ => .inl (by norm_num)⟩
  obtain ⟨s0, h0, hs⟩ := standing_program (K := ℝ) ⟨15, 100, 100⟩ (o := ⟨.maintainVelocity, 1, 1, 1, 1, 1⟩) (by simp)
    (m := ⟨0, 0, 1, 9900, .maintainVelocity⟩) (.inr (by norm_num))
  have hst : StandsAt 0 s0.model.state := by rw [hs]; exact standing_stands
  have hmay : MayStand s0.model.robot_parameters := by rw [hs]; exact standing_may
  have hc := (C87_completes (tr := tr) hq h1 h2 h0 hst (by unfold AsksToStand; rw [if_neg (by simp)]) hmay
    ⟨one_ne_zero, one_ne_zero⟩ u).1
  obtain ⟨r, k1, -, ⟨s, rfl, k3⟩ | ⟨-, k2⟩⟩ := C87_run (tr := tr) hq h1 h0 (d := 9900) rfl u
  · have : pepperIterations v ⟨15, 100, 100⟩ 9900 = 85 := by unfold pepperIterations; rw [hstep]; rfl
    rw [this] at k1 k3
    exact ⟨ext, s0, h1, h2, hq, h0, hst, hmay, s, k1, k3⟩
  · exact absurd k2 hc

/-- An iteration can be a part of an interval; an unlimited motion exists. -/
example : PepperParameters ⟨false, true, true⟩ ⟨15, 100, 5⟩ ∧ PepperParameters ⟨true, true, true⟩ ⟨1, 100, 5⟩ ∧
    ∃ s, PepperStart ⟨15, 100, 5⟩ ⟨.maintainPosition, 1, 1, 1, 1, 1⟩ ⟨0, 0, 1, -1, .maintainPosition⟩ s ∧ s.model = standingModel ℚ :=
  ⟨⟨by norm_num, by norm_num, by norm_num, by simp [ProgramKind.step], fun h => by cases h⟩,
    ⟨by norm_num, by norm_num, by norm_num, by simp [ProgramKind.step], fun _ => .inr (by norm_num)⟩,
    standing_program _ (by simp) (.inl rfl)⟩

end Humoto.Pepper
