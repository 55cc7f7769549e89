import Verif.Lemmas.WpgAgree
import Verif.Props.WpgProgram

/-!
# Invariants of the walking program with any hot starting
-/

namespace Humoto.Wpg

open Spec Spec.Wpg Bridge

theorem step_mono {v : Hotstart} {ext : Qpoases ℝ} {a b : ℕ} {nan : ℝ} {T : ℕ} {u : Memory} {w : WalkParameters} {s : Program}
    {r : Res (Option Program)} (h : s.iterateAs v ext a nan T u w = some r) (hab : a ≤ b) : s.iterateAs v ext b nan T u w = some r := by
  unfold Program.iterateAs at h ⊢
  cases hu : s.mpc.update a nan u.horizon u.matrices u.indices s.model s.fsm w with
  | none => rw [hu] at h; cases h
  | some r' =>
    rw [hu] at h
    rw [update_mono hu hab]
    rcases r' with e | ⟨mpc, st⟩
    · exact h
    · cases st with
      | stopped => exact h
      | ok =>
        simp only at h ⊢
        cases hs : s.solveAs v ext u mpc with
        | error e => rw [hs] at h; exact h
        | ok s1 =>
          rw [hs] at h
          simp only at h ⊢
          cases hf : FSM.shiftTime a s1.fsm T with
          | none => rw [hf] at h; cases h
          | some r'' => rw [hf] at h; rw [shiftTime_mono hf hab]; exact h

/-- The outcome of an iteration is unique. -/
theorem step_unique {v : Hotstart} {ext : Qpoases ℝ} {nan : ℝ} {T : ℕ} {u : Memory} {w : WalkParameters} {s : Program}
    {r r' : Res (Option Program)} (h : StepReturns v ext nan T u w s r) (h' : StepReturns v ext nan T u w s r') : r = r' := by
  obtain ⟨a, ha⟩ := h
  obtain ⟨b, hb⟩ := h'
  have h1 := step_mono ha (Nat.le_max_left a b)
  have h2 := step_mono hb (Nat.le_max_right a b)
  exact Option.some.inj (h1.symm.trans h2)

/-- The invariant of the program; `h` is the horizon of the preceding iteration. -/
structure HotInv (v : Hotstart) (p : FSMParams) (N T : ℕ) (q : MPCParameters) (o : ProblemSetup) (nan : ℝ) (n : ℕ) (s : Program)
    (side : StanceType) (k : ℕ) (h : Option Horizon) : Prop where
  loop : LoopInv p N T q n (loopOf s) side k
  guessing : v.activeSet = true → SolvedAfter o h s.problem ∧ WalkProblem o (fun a t => LastSizes h a t ∧ Decided t.actual) s.problem
  cold : v.activeSet = false → ProblemAfter o false s.problem
  solver : s.solver.params = SolverParameters.default
  old : v.solution = true → OldSolution h s.oldSolution
  sizes : ∀ H ∈ h, ∀ (junkH : ℕ → Interval) (junk : ℕ → ℕ → ℕ → ℕ → ℝ) (junkI : ℕ → ℕ → ℕ) (w : WalkParameters) (mpc : Mpc),
    UpdateReturns nan junkH junk junkI s.model s.fsm w s.mpc (.ok (mpc, .ok)) →
    mpc.horizon.variable_steps.length ≤ H.variable_steps.length + 1 ∧ H.variable_steps.length ≤ mpc.horizon.variable_steps.length + 1 ∧
      H.intervals.n = N

section
variable {v : Hotstart} {p : FSMParams} {N T : ℕ} {q : MPCParameters} {o : ProblemSetup} {nan : ℝ} {ext : Qpoases ℝ} {n : ℕ} {s : Program}
  {side : StanceType} {k : ℕ} {h : Option Horizon} {u : Memory} {w : WalkParameters} {mpc : Mpc}

theorem hot_start (hp : LoopParameters p N T) (h : ProgramStart p q o s) : ∃ side, HotInv v p N T q o nan 0 s side 0 none := by
  obtain ⟨side, hI⟩ := program_start (nan := nan) hp h
  obtain ⟨P, hP⟩ := h.problem
  exact ⟨side, hI.loop, fun _ => ⟨hI.solved, hI.problem⟩, fun _ => .setup hP, hI.solver, fun _ => hI.old, hI.sizes⟩

/-- What is known after the problem is solved. -/
structure HotSolved (v : Hotstart) (o : ProblemSetup) (s : Program) (mpc : Mpc) (s1 : Program) : Prop where
  model : s1.model = s.model
  fsm : s1.fsm = s.fsm
  controller : s1.mpc = mpc
  params : s1.solver.params = SolverParameters.default
  old : v.solution = true → s1.oldSolution = s1.solution
  solution : SolutionFor mpc.horizon s1.solution
  best : BestMotion o mpc.horizon s.model 0 (ModerateSolution mpc.horizon) (entries s1.solution)
  guessing : v.activeSet = true → SolvedAfter o (some mpc.horizon) s1.problem ∧
    WalkProblem o (fun a t => LastSizes (some mpc.horizon) a t ∧ Decided t.actual) s1.problem
  cold : v.activeSet = false → ProblemAfter o false s1.problem

theorem hot_solve (hp : LoopParameters p N T) (hq : MPCParameters.make N T T T = .ok q) (hg : o.terminal = true → o.terminalGain ≠ 0)
    (hext : TrustedSolver ext) (hI : HotInv v p N T q o nan n s side k h)
    (hu : UpdateReturns nan u.horizon u.matrices u.indices s.model s.fsm w s.mpc (.ok (mpc, .ok))) :
    (∃ s1, s.solveAs v ext u mpc = .ok s1 ∧ HotSolved v o s mpc s1) ∨
    (s.solveAs v ext u mpc = .error .thrown ∧
      ((∀ x, ModerateSolution mpc.horizon x → ¬ AllowedMotion o mpc.horizon s.model x) ∨ SolverFails ext o mpc.horizon s.model)) := by
  obtain ⟨hU, hN⟩ := loop_updated hp hq hI.loop hu
  have hR : Ready s.model mpc := updated_ready hU
  have hst : mpc.matrices.solution = solutionStructure mpc.horizon.intervals.n mpc.horizon.variable_steps.length := hR.structure_
  have hnv : mpc.matrices.solution.nvars = problemSize mpc := hR.nvars
  have hsizes : ∀ H ∈ h, mpc.horizon.variable_steps.length ≤ H.variable_steps.length + 1 ∧
      H.variable_steps.length ≤ mpc.horizon.variable_steps.length + 1 ∧ H.intervals.n = N := fun H hH => hI.sizes H hH _ _ _ _ _ hu
  have hfit : SizesFit mpc.horizon h := fun H hH => by
    obtain ⟨h1, h2, h3⟩ := hsizes H hH
    exact ⟨h2, h3.trans hN.symm, hN ▸ hp.horizon.1⟩
  -- the solution
  obtain ⟨sol, e1, hsol⟩ : ∃ sol, initSolutionStructure mpc.matrices.solution s.solution u.solution = .ok sol ∧
      SolutionFor mpc.horizon sol := by
    refine ⟨s.solution.resize mpc.matrices.solution u.solution, ?_, hst, ?_⟩
    · unfold initSolutionStructure
      rw [assertThat_true (by rw [hst]; rfl)]
      rfl
    · show (if _ then _ else _ : List ℝ).length = problemSize mpc
      split
      · rename_i h; rw [h, hnv]
      · rw [List.length_map, List.length_range, hnv]
  -- the guess of the solution
  obtain ⟨g, e3, hgs⟩ : ∃ g, (if v.solution then mpc.guessSolution s.solutionGuess s.oldSolution else pure s.solutionGuess :
      Res (Solution ℝ)) = .ok g ∧ (v.solution = true → SolutionFor mpc.horizon g) := by
    cases hv : v.solution with
    | false => exact ⟨_, rfl, fun e => by cases e⟩
    | true =>
      have ho := hI.old hv
      cases h with
      | none =>
        obtain ⟨g, h1, h2, -⟩ := C78_first (H := mpc.horizon) hst s.solutionGuess ho
        exact ⟨g, h1, fun _ => h2⟩
      | some H =>
        obtain ⟨h1, h2, h3⟩ := hsizes H rfl
        obtain ⟨g, h4, h5, -⟩ := C78_guess_partial (H := mpc.horizon) hR.consistent.size.2 hst s.solutionGuess ho (h3.trans hN.symm) ⟨h2, h1⟩
        exact ⟨g, h4, fun _ => h5⟩
  -- forming, and the guess of the active set
  obtain ⟨p1, a, e2, e4, ha, hF⟩ : ∃ p1 a, s.problem.form u.tasks u.taskIndices v.activeSet s.model mpc = .ok p1 ∧
      (if v.activeSet then p1.hierarchy.guessActiveSet else pure [] : Res ActiveSetH) = .ok a ∧
      (v.activeSet = true → a.map List.length = p1.hierarchy.levels.map Level.nConstraints ∧ ∀ c ∈ a, Decided c) ∧
      FormedProblem o s.model mpc p1 := by
    cases hv : v.activeSet with
    | false =>
      have hc := hI.cold hv
      obtain ⟨p1, e2⟩ := walk_form (guessing := false) hR (problem_after hc) u.tasks u.taskIndices fun _ _ h => h
      exact ⟨p1, [], e2, rfl, fun e => (by cases e), _, _, _, _, .inr hc, e2⟩
    | true =>
      obtain ⟨hs, hw⟩ := hI.guessing hv
      obtain ⟨p1, e2⟩ := walk_form (guessing := true) hR hw u.tasks u.taskIndices fun a t ht => fits_of_sizes hfit a t ht.1
      obtain ⟨a, e4, ha, hda⟩ := walk_guess hR hw (fun a t ht => ⟨fits_of_sizes hfit a t ht.1, ht.2⟩) e2
      exact ⟨p1, a, e2, e4, fun _ => ⟨ha, hda⟩, _, _, _, _, .inl ⟨_, hs⟩, e2⟩
  have ef : s.problem.formFor v u s.solution s.solutionGuess s.oldSolution s.model mpc = .ok (p1, sol, g, a) := by
    unfold Problem.formFor
    rw [e1, ok_bind, e2, ok_bind, e3, ok_bind, e4]
    rfl
  -- solving
  obtain ⟨P, env, gg, L0, L1, h1, h2, h3, h4, h5⟩ := formed_solvable hg hU hF
  have hGF : GuessesFit L0 (problemSize mpc) (v.entry g a) := by
    have hset : v.activeSet = true → ∃ c, a[0]? = some c ∧ c.length = L0.nConstraints ∧ ∀ x ∈ c, x ≠ .undefined := by
      intro hv
      obtain ⟨ha, hda⟩ := ha hv
      rw [h3, List.map_cons] at ha
      obtain ⟨c, t, rfl, hc, -⟩ := List.map_eq_cons_iff.1 ha
      exact ⟨c, rfl, hc, hda c (by simp)⟩
    unfold Hotstart.entry
    cases hv1 : v.activeSet <;> cases hv2 : v.solution
    · exact ⟨fun g' hg' => (by cases hg'), fun a' ha' => (by cases ha')⟩
    · exact ⟨fun g' hg' => (by cases hg'; exact (hgs hv2).size.ge), fun a' ha' => (by cases ha')⟩
    · exact ⟨fun g' hg' => (by cases hg'), fun a' ha' => (by cases ha'; exact hset hv1)⟩
    · exact ⟨fun g' hg' => (by cases hg'; exact (hgs hv2).size.ge), fun a' ha' => (by cases ha'; exact hset hv1)⟩
  have hret : Entry.returnsActiveSet (v.entry g a) = v.activeSet := by
    unfold Hotstart.entry
    cases v.activeSet <;> cases v.solution <;> rfl
  have hpars : Entry.parameters s.solver.params (v.entry g a) = SolverParameters.default := by
    unfold Hotstart.entry
    cases v.activeSet <;> cases v.solution <;> exact hI.solver
  have hmod : ∀ x, ModerateSolution mpc.horizon x → Moderate L0 (problemSize mpc) x := fun x hx =>
    ⟨fun ti hti => h5.within ti hti x, hx⟩
  rcases C83_solve h1 h2 h3 (by rw [h3]; exact h5.inRange) h5.minimise h5.simple hext u.objective u.constraints (sol := sol)
    (by rw [hsol.structure_, ← hst, hnv]) hsol.size hGF (s := s.solver) hpars with ⟨sol', a', sv, k1, k2, k3⟩ | ⟨sv, k1, k2⟩
  · left
    have hsz : SolutionFor mpc.horizon sol' := ⟨k3.structure_.trans hsol.structure_, k3.size⟩
    have hrt := k3.returned
    rw [hret] at hrt
    cases hv : v.activeSet with
    | false =>
      rw [hv] at hrt
      have : a' = none := by cases a' with | none => rfl | some _ => cases hrt
      subst this
      refine ⟨{ s with mpc := mpc, problem := p1, solver := sv, solution := sol',
                       oldSolution := if v.solution then sol' else s.oldSolution, solutionGuess := g }, ?_,
        rfl, rfl, rfl, k2, fun e => if_pos e, hsz, best_of_optimal h4 k3.optimal hmod, fun e => (by rw [hv] at e; cases e), fun _ => ?_⟩
      · unfold Program.solveAs
        rw [ef, ok_bind]
        simp only [k1]
        rfl
      · rw [hv] at e2
        exact .form (hI.cold hv) hU e2
    | true =>
      rw [hv] at hrt
      obtain ⟨b, hb⟩ := Option.isSome_iff_exists.1 hrt
      subst hb
      obtain ⟨hb1, hb2⟩ := k3.activeSet b rfl
      have hA : ActiveSetFor p1 b := by
        unfold ActiveSetFor
        rw [h3]
        exact hb1
      obtain ⟨p2, e5⟩ := C82_process hU hF hA
      obtain ⟨hs, hw⟩ := hI.guessing hv
      rw [hv] at e2
      refine ⟨{ s with mpc := mpc, problem := p2, solver := sv, solution := sol',
                       oldSolution := if v.solution then sol' else s.oldSolution, solutionGuess := g }, ?_,
        rfl, rfl, rfl, k2, fun e => if_pos e, hsz, best_of_optimal h4 k3.optimal hmod, fun _ => ⟨.cycle hs hU e2 e5, ?_⟩,
        fun e => (by rw [hv] at e; cases e)⟩
      · unfold Program.solveAs
        rw [ef, ok_bind]
        simp only [k1, e5]
        rfl
      · obtain ⟨w1, w2⟩ := walk_formed hR hw e2
        have hl := walk_locations hw.reach w2
        refine (walk_process w1 e5).mono fun k t ⟨t1, ⟨_, _, hF⟩, ⟨x, hx⟩, ht, hs⟩ => ⟨?_, fun c hc => ?_⟩
        · show t.actual.length = taskRows mpc.horizon k
          rw [ht hl, hx]
          exact taskMeans_rows hF.means
        · obtain ⟨cc, hcc, hc'⟩ := hs c hc
          exact hb2 cc hcc c hc'
  · right
    refine ⟨?_, k2.imp (fun hno x hx hal => hno x (hmod x hx) ((h4.allowed x).2 hal)) fun ⟨a, gs, hd, hs⟩ =>
      ⟨a, _, gs, ⟨hd.size, hd.accepted, fun x hx => (h4.allowed x).1 (hd.sound x hx),
        fun x hx hM => hd.complete x ((h4.allowed x).2 hx) (hmod x hM), fun x y c d hc hd' =>
          hd.cost x y c d ((h4.cost x c).1 hc) ((h4.cost y d).1 hd'), fun _ => hd.bounds h5.bounds⟩, hs⟩⟩
    unfold Program.solveAs
    rw [ef, ok_bind]
    simp only [k1]

/-- An iteration. -/
theorem hot_step (hp : LoopParameters p N T) (hq : MPCParameters.make N T T T = .ok q) (hg : o.terminal = true → o.terminalGain ≠ 0)
    (hext : TrustedSolver ext) (hI : HotInv v p N T q o nan n s side k h) (u : Memory) (w : WalkParameters) :
    (walkMs p < n * T + N * T → StepReturns v ext nan T u w s (.ok none)) ∧
    (n * T + N * T ≤ walkMs p →
      (∃ s' mpc st k', StepReturns v ext nan T u w s (.ok (some s')) ∧ GoodIteration o nan T u w s mpc st s' ∧
        HotInv v p N T q o nan (n + 1) s' side k' (some mpc.horizon)) ∨
      (StepReturns v ext nan T u w s (.error .thrown) ∧
        ∃ mpc, UpdateReturns nan u.horizon u.matrices u.indices s.model s.fsm w s.mpc (.ok (mpc, .ok)) ∧
        ((∀ x, ModerateSolution mpc.horizon x → ¬ AllowedMotion o mpc.horizon s.model x) ∨ SolverFails ext o mpc.horizon s.model))) := by
  obtain ⟨U1, U2⟩ := loop_update hp hq hI.loop nan u.horizon u.matrices u.indices w
  rw [hI.loop.over hp] at U1 U2
  refine ⟨fun hn => ?_, fun hn => ?_⟩
  · obtain ⟨mpc, fuel, hu⟩ := U2 hn
    refine ⟨fuel, ?_⟩
    have hu : s.mpc.update fuel nan u.horizon u.matrices u.indices s.model s.fsm w = some (.ok (mpc, .stopped)) := hu
    unfold Program.iterateAs
    rw [hu]
  · obtain ⟨mpc, hu⟩ := U1 (by omega)
    have hu : UpdateReturns nan u.horizon u.matrices u.indices s.model s.fsm w s.mpc (.ok (mpc, .ok)) := hu
    rcases hot_solve hp hq hg hext hI hu with ⟨s1, e1, hS⟩ | ⟨e1, hno⟩
    · left
      obtain ⟨s', st, P, cop, X, k', hC, hX, hSt, hI', hk⟩ := loop_step hp hq hI.loop hu hS.solution u.parsing
      have hC0 := hC
      obtain ⟨⟨f2, c1⟩, c2, c3⟩ := hC
      obtain ⟨f1, hu1⟩ := id hu
      refine ⟨{ s1 with fsm := s'.fsm, mpc := s'.mpc, model := s'.model }, mpc, st, k', ⟨max f1 f2, ?_⟩, ⟨hu, hS.solution, hS.best, hC0⟩,
        ⟨hI', hS.guessing, hS.cold, hS.params, fun e => ?_, ?_⟩⟩
      · unfold Program.iterateAs
        rw [update_mono hu1 (le_max_left _ _)]
        simp only [e1]
        have c1 : FSM.shiftTime f2 s1.fsm T = some (.ok s'.fsm) := by rw [hS.fsm]; exact c1
        rw [shiftTime_mono c1 (le_max_right _ _)]
        simp only
        unfold Program.advance
        rw [hS.controller, hS.model]
        have c2 : mpc.parseAndGetNextModelState nan u.parsing s1.solution s'.fsm s.model = .ok (s'.mpc, st) := c2
        have c3 : s.model.updateState st = .ok s'.model := c3
        rw [c2, ok_bind]
        simp only
        rw [c3]
        rfl
      · show SolutionFor mpc.horizon s1.oldSolution
        rw [hS.old e]
        exact hS.solution
      · intro H hH junkH junk junkI w' mpc' hu'
        cases hH
        obtain ⟨a1, a2, a3, -⟩ := steps_change hp hq hI.loop hI' hk hu hu'
        exact ⟨a1, a2, a3⟩
    · right
      obtain ⟨f1, hu1⟩ := id hu
      refine ⟨⟨f1, ?_⟩, mpc, hu, hno⟩
      unfold Program.iterateAs
      rw [hu1]
      simp only [e1]

theorem hot_after (hp : LoopParameters p N T) (hq : MPCParameters.make N T T T = .ok q) (hg : o.terminal = true → o.terminalGain ≠ 0)
    (hext : TrustedSolver ext) {s0 : Program} (h0 : ProgramStart p q o s0) {w : ℕ → WalkParameters} (h : RunAfter v ext nan T w s0 n s) :
    (∃ side k h, HotInv v p N T q o nan n s side k h) ∧ LoopAfter nan T (loopOf s0) n (loopOf s) := by
  induction h with
  | start =>
    obtain ⟨side, h⟩ := hot_start hp h0
    exact ⟨⟨side, 0, none, h⟩, .start⟩
  | @step n a b u _ hs ih =>
    obtain ⟨⟨side, k, h, hI⟩, hL⟩ := ih
    obtain ⟨P1, P2⟩ := hot_step hp hq hg hext hI u (w n)
    by_cases hn : n * T + N * T ≤ walkMs p
    · rcases P2 hn with ⟨s', mpc, st, k', hr, hG, hI'⟩ | ⟨hr, -⟩
      · cases step_unique hs hr
        exact ⟨⟨side, k', _, hI'⟩, .step hL ⟨_, _, _, _, _, _, _, _, hG.update, hG.solution, hG.completes⟩⟩
      · cases step_unique hs hr
    · cases step_unique hs (P1 (by omega))

/-- Allowed motions do not exceed the library infinity. -/
theorem allowed_moderate (hp : LoopParameters p N T) (hq : MPCParameters.make N T T T = .ok q) {s : LoopState}
    (hI : LoopInv p N T q n s side k) {junkH : ℕ → Interval} {junk : ℕ → ℕ → ℕ → ℕ → ℝ} {junkI : ℕ → ℕ → ℕ}
    (hu : UpdateReturns nan junkH junk junkI s.model s.fsm w s.mpc (.ok (mpc, .ok))) (hf : SaneFeet s.model.params)
    (hb : FeetBelowInfinity s.model.params) {x : ℕ → ℝ} (hx : AllowedMotion o mpc.horizon s.model x) : ModerateSolution mpc.horizon x := by
  have hR := updated_ready (loop_updated hp hq hI hu).1
  have hsteps : StepsWithin mpc.horizon x := by
    have h := hx.steps
    split_ifs at h
    · refine C81_fixed_within (fun k hk s1 hs1 a => ?_) h
      obtain ⟨t, ht, -⟩ := horizon_bounds hp hq hI hu (hR.steps k hk).2 hs1
      exact footBounds_ordered hf.step.1 hf.distances.1 ht a
    · exact h
  intro v hv
  by_cases hc : v < 2 * mpc.horizon.intervals.n
  · obtain ⟨s1, hs1⟩ := hR.states (v / 2) (by omega)
    obtain ⟨t, -, hB⟩ := horizon_bounds hp hq hI hu (by omega) hs1
    have h := hx.cop (v / 2) s1 (by omega) hs1 ⟨v % 2, Nat.mod_lt _ (by decide)⟩
    simp only [Nat.div_add_mod] at h
    obtain ⟨c1, c2⟩ := hf.size
    obtain ⟨d1, d2⟩ := hf.default
    obtain ⟨b1, b2⟩ := hb
    rw [hB] at h
    have key : ∀ a : Fin 2, -10 ^ 20 ≤ copBounds s.model.params t a 0 ∧ copBounds s.model.params t a 1 ≤ 10 ^ 20 := by
      intro a
      unfold copBounds
      split <;> fin_cases a <;> simp [FootParameters.getADSCoPBounds, FootParameters.getSSCoPBounds] <;> linarith
    exact ⟨(key _).1.trans h.1, h.2.trans (key _).2⟩
  · have hj : (v - 2 * mpc.horizon.intervals.n) / 2 < mpc.horizon.variable_steps.length := by omega
    obtain ⟨k, s1, e1, e2⟩ := hR.step hj
    obtain ⟨t, ht, -⟩ := horizon_bounds hp hq hI hu (hR.steps k (List.mem_of_getElem? e1)).2 e2
    have h := hsteps _ k s1 e1 e2 ⟨(v - 2 * mpc.horizon.intervals.n) % 2, Nat.mod_lt _ (by decide)⟩
    simp only at h
    rw [show 2 * mpc.horizon.intervals.n + 2 * ((v - 2 * mpc.horizon.intervals.n) / 2) + (v - 2 * mpc.horizon.intervals.n) % 2 = v by omega]
      at h
    exact ⟨(footBounds_moderate hf ht _ _).1.trans h.1, h.2.trans (footBounds_moderate hf ht _ _).2⟩

end

end Humoto.Wpg
