import Verif.Spec.WpgProgram
import Verif.Lemmas.WpgSteps
import Verif.Lemmas.WpgGuess
import Verif.Props.WpgProblem
import Verif.Props.QpoasesSolver

/-!
# Walking pattern generator: the whole program (C84)
-/

namespace Humoto.Wpg

open Spec Spec.Wpg Bridge

theorem update_mono {a b : ℕ} {nan : ℝ} {junkH : ℕ → Interval} {junk : ℕ → ℕ → ℕ → ℕ → ℝ} {junkI : ℕ → ℕ → ℕ} {model : Model} {f : FSM}
    {w : WalkParameters} {c : Mpc} {r : Res (Mpc × Pepper.Status)} (h : c.update a nan junkH junk junkI model f w = some r) (hab : a ≤ b) :
    c.update b nan junkH junk junkI model f w = some r := by
  unfold Mpc.update form at h ⊢
  cases hl : FSM.previewStances a f (c.parameters.preview_horizon_length * c.parameters.sampling_time_ms) with
  | none => rw [hl] at h; cases h
  | some r' => rw [hl] at h; rw [previewStances_mono hl hab]; exact h

theorem iterate_mono {ext : Qpoases ℝ} {a b : ℕ} {nan : ℝ} {T : ℕ} {u : Memory} {w : WalkParameters} {s : Program}
    {r : Res (Option Program)} (h : s.iterate ext a nan T u w = some r) (hab : a ≤ b) : s.iterate ext b nan T u w = some r := by
  unfold Program.iterate at h ⊢
  cases hu : s.mpc.update a nan u.horizon u.matrices u.indices s.model s.fsm w with
  | none => rw [hu] at h; cases h
  | some r' =>
    rw [hu] at h
    rw [update_mono hu hab]
    rcases r' with e | ⟨mpc, st⟩
    · exact h
    · cases st with
      | stopped => exact h
      | ok =>
        simp only at h ⊢
        cases hs : s.solveProblem ext u mpc with
        | error e => rw [hs] at h; exact h
        | ok s1 =>
          rw [hs] at h
          simp only at h ⊢
          cases hf : FSM.shiftTime a s1.fsm T with
          | none => rw [hf] at h; cases h
          | some r'' => rw [hf] at h; rw [shiftTime_mono hf hab]; exact h

/-- The outcome of an iteration is unique. -/
theorem iteration_unique {ext : Qpoases ℝ} {nan : ℝ} {T : ℕ} {u : Memory} {w : WalkParameters} {s : Program}
    {r r' : Res (Option Program)} (h : IterationReturns ext nan T u w s r) (h' : IterationReturns ext nan T u w s r') : r = r' := by
  obtain ⟨a, ha⟩ := h
  obtain ⟨b, hb⟩ := h'
  have h1 := iterate_mono ha (Nat.le_max_left a b)
  have h2 := iterate_mono hb (Nat.le_max_right a b)
  exact Option.some.inj (h1.symm.trans h2)

/-- The old solution is empty at the beginning, and then it is a solution of the preceding problem. -/
def OldSolution (h : Option Horizon) (sol : Solution ℝ) : Prop :=
  match h with
  | none => sol.structure_ = .empty
  | some H => SolutionFor H sol

/-- The invariant of the program; `h` is the horizon of the preceding iteration. -/
structure ProgramInv (p : FSMParams) (N T : ℕ) (q : MPCParameters) (o : ProblemSetup) (nan : ℝ) (n : ℕ) (s : Program) (side : StanceType)
    (k : ℕ) (h : Option Horizon) : Prop where
  loop : LoopInv p N T q n (loopOf s) side k
  solved : SolvedAfter o h s.problem
  problem : WalkProblem o (fun a t => LastSizes h a t ∧ Decided t.actual) s.problem
  solver : s.solver.params = SolverParameters.default
  old : OldSolution h s.oldSolution
  sizes : ∀ H ∈ h, ∀ (junkH : ℕ → Interval) (junk : ℕ → ℕ → ℕ → ℕ → ℝ) (junkI : ℕ → ℕ → ℕ) (w : WalkParameters) (mpc : Mpc),
    UpdateReturns nan junkH junk junkI s.model s.fsm w s.mpc (.ok (mpc, .ok)) →
    mpc.horizon.variable_steps.length ≤ H.variable_steps.length + 1 ∧ H.variable_steps.length ≤ mpc.horizon.variable_steps.length + 1 ∧
      H.intervals.n = N

section
variable {p : FSMParams} {N T : ℕ} {q : MPCParameters} {o : ProblemSetup} {nan : ℝ} {ext : Qpoases ℝ} {n : ℕ} {s : Program}
  {side : StanceType} {k : ℕ} {h : Option Horizon} {u : Memory} {w : WalkParameters} {mpc : Mpc}

theorem program_start (hp : LoopParameters p N T) (h : ProgramStart p q o s) : ∃ side, ProgramInv p N T q o nan 0 s side 0 none := by
  obtain ⟨side, hI⟩ := loop_start hp h.loop
  obtain ⟨P, hP⟩ := h.problem
  refine ⟨side, hI, .setup hP, ?_, h.solver, h.old, fun H hH => by cases hH⟩
  obtain ⟨p', e, h'⟩ := walk_setup o P
  cases hP.symm.trans e
  refine h'.mono fun _ t ht => ⟨ht.2, ?_⟩
  rw [show t.actual = [] from ht.2]
  exact fun a ha => by cases ha

/-- Updated controllers of the loop. -/
theorem loop_updated (hp : LoopParameters p N T) (hq : MPCParameters.make N T T T = .ok q) {s : LoopState}
    (hI : LoopInv p N T q n s side k) {junkH : ℕ → Interval} {junk : ℕ → ℕ → ℕ → ℕ → ℝ} {junkI : ℕ → ℕ → ℕ}
    (hu : UpdateReturns nan junkH junk junkI s.model s.fsm w s.mpc (.ok (mpc, .ok))) : Updated s.model mpc ∧ mpc.horizon.intervals.n = N := by
  obtain ⟨e1, -, -, e3, -⟩ := C55_derived hq
  have hN : s.mpc.parameters.preview_horizon_length < 2 ^ 63 := by rw [hI.parameters, e1]; exact hp.horizon.2
  have hT : 0 < s.mpc.parameters.tds_sampling_time_ms := by rw [hI.parameters, e3]; exact hp.sampling
  refine ⟨⟨_, _, _, _, _, _, _, _, _, hI.machine.reach, hp.proper, hI.machine.inside, hN, hT, hI.height, hu⟩, ?_⟩
  obtain ⟨-, -, -, l, hl, hW⟩ := C75_matrices hI.machine.reach hp.proper hI.machine.inside hN hT hI.height hu
  rw [hW.size, hI.parameters, e1]

/-- What is known after the problem is solved. -/
structure ProblemSolved (o : ProblemSetup) (s : Program) (mpc : Mpc) (s1 : Program) : Prop where
  model : s1.model = s.model
  fsm : s1.fsm = s.fsm
  controller : s1.mpc = mpc
  params : s1.solver.params = SolverParameters.default
  old : s1.oldSolution = s1.solution
  solution : SolutionFor mpc.horizon s1.solution
  best : BestMotion o mpc.horizon s.model 0 (ModerateSolution mpc.horizon) (entries s1.solution)
  solved : SolvedAfter o (some mpc.horizon) s1.problem
  problem : WalkProblem o (fun a t => LastSizes (some mpc.horizon) a t ∧ Decided t.actual) s1.problem

theorem solve_step (hp : LoopParameters p N T) (hq : MPCParameters.make N T T T = .ok q) (hg : o.terminal = true → o.terminalGain ≠ 0)
    (hext : TrustedSolver ext) (hI : ProgramInv p N T q o nan n s side k h)
    (hu : UpdateReturns nan u.horizon u.matrices u.indices s.model s.fsm w s.mpc (.ok (mpc, .ok))) :
    (∃ s1, s.solveProblem ext u mpc = .ok s1 ∧ ProblemSolved o s mpc s1) ∨
    (s.solveProblem ext u mpc = .error .thrown ∧
      ((∀ x, ModerateSolution mpc.horizon x → ¬ AllowedMotion o mpc.horizon s.model x) ∨ SolverFails ext o mpc.horizon s.model)) := by
  obtain ⟨hU, hN⟩ := loop_updated hp hq hI.loop hu
  have hR : Ready s.model mpc := updated_ready hU
  have hst : mpc.matrices.solution = solutionStructure mpc.horizon.intervals.n mpc.horizon.variable_steps.length := hR.structure_
  have hnv : mpc.matrices.solution.nvars = problemSize mpc := hR.nvars
  have hsizes : ∀ H ∈ h, mpc.horizon.variable_steps.length ≤ H.variable_steps.length + 1 ∧
      H.variable_steps.length ≤ mpc.horizon.variable_steps.length + 1 ∧ H.intervals.n = N := fun H hH => hI.sizes H hH _ _ _ _ _ hu
  have hfit : SizesFit mpc.horizon h := fun H hH => by
    obtain ⟨h1, h2, h3⟩ := hsizes H hH
    exact ⟨h2, h3.trans hN.symm, hN ▸ hp.horizon.1⟩
  -- the solution
  obtain ⟨sol, e1, hsol⟩ : ∃ sol, initSolutionStructure mpc.matrices.solution s.solution u.solution = .ok sol ∧
      SolutionFor mpc.horizon sol := by
    refine ⟨s.solution.resize mpc.matrices.solution u.solution, ?_, hst, ?_⟩
    · unfold initSolutionStructure
      rw [assertThat_true (by rw [hst]; rfl)]
      rfl
    · show (if _ then _ else _ : List ℝ).length = problemSize mpc
      split
      · rename_i h; rw [h, hnv]
      · rw [List.length_map, List.length_range, hnv]
  -- forming
  obtain ⟨p1, e2⟩ := walk_form (guessing := true) hR hI.problem u.tasks u.taskIndices fun a t ht => fits_of_sizes hfit a t ht.1
  have hF : FormedProblem o s.model mpc p1 := ⟨_, _, _, _, .inl ⟨_, hI.solved⟩, e2⟩
  -- guesses
  obtain ⟨g, e3, hgs⟩ : ∃ g, mpc.guessSolution s.solutionGuess s.oldSolution = .ok g ∧ SolutionFor mpc.horizon g := by
    have ho := hI.old
    cases h with
    | none =>
      obtain ⟨g, h1, h2, -⟩ := C78_first (H := mpc.horizon) hst s.solutionGuess ho
      exact ⟨g, h1, h2⟩
    | some H =>
      obtain ⟨h1, h2, h3⟩ := hsizes H rfl
      obtain ⟨g, h4, h5, -⟩ := C78_guess_partial (H := mpc.horizon) hR.consistent.size.2 hst s.solutionGuess ho (h3.trans hN.symm) ⟨h2, h1⟩
      exact ⟨g, h4, h5⟩
  obtain ⟨a, e4, ha, hda⟩ := walk_guess hR hI.problem (fun a t ht => ⟨fits_of_sizes hfit a t ht.1, ht.2⟩) e2
  have ef : s.problem.formWithGuesses u s.solution s.solutionGuess s.oldSolution s.model mpc = .ok (p1, sol, g, a) := by
    unfold Problem.formWithGuesses
    rw [e1, ok_bind, e2, ok_bind, e3, ok_bind, e4]
    rfl
  -- solving
  obtain ⟨P, env, gg, L0, L1, h1, h2, h3, h4, h5⟩ := formed_solvable hg hU hF
  have hGF : GuessesFit L0 (problemSize mpc) (.guessActiveSetInOut g a) := by
    refine ⟨fun g' hg' => ?_, fun a' ha' => ?_⟩
    · cases hg'
      exact hgs.size.ge
    · cases ha'
      rw [h3] at ha
      rw [List.map_cons] at ha
      obtain ⟨c, t, rfl, hc, -⟩ := List.map_eq_cons_iff.1 ha
      exact ⟨c, rfl, hc, hda c (by simp)⟩
  have hmod : ∀ x, ModerateSolution mpc.horizon x → Moderate L0 (problemSize mpc) x := fun x hx =>
    ⟨fun ti hti => h5.within ti hti x, hx⟩
  rcases C83_solve h1 h2 h3 (by rw [h3]; exact h5.inRange) h5.minimise h5.simple hext u.objective u.constraints (sol := sol)
    (by rw [hsol.structure_, ← hst, hnv]) hsol.size hGF (s := s.solver) hI.solver with ⟨sol', a', sv, k1, k2, k3⟩ | ⟨sv, k1, k2⟩
  · left
    obtain ⟨b, hb⟩ := Option.isSome_iff_exists.1 k3.returned
    subst hb
    obtain ⟨hb1, hb2⟩ := k3.activeSet b rfl
    have hA : ActiveSetFor p1 b := by
      unfold ActiveSetFor
      rw [h3]
      exact hb1
    obtain ⟨p2, e5⟩ := C82_process hU hF hA
    refine ⟨{ s with mpc := mpc, problem := p2, solver := sv, solution := sol', oldSolution := sol', solutionGuess := g }, ?_,
      rfl, rfl, rfl, k2, rfl, ⟨k3.structure_.trans hsol.structure_, k3.size⟩, best_of_optimal h4 k3.optimal hmod,
      .cycle hI.solved hU e2 e5, ?_⟩
    · unfold Program.solveProblem
      rw [ef, ok_bind]
      simp only [k1, e5]
      rfl
    · obtain ⟨w1, w2⟩ := walk_formed hR hI.problem e2
      have hl := walk_locations hI.problem.reach w2
      refine (walk_process w1 e5).mono fun k t ⟨t1, ⟨_, _, hF⟩, ⟨x, hx⟩, ht, hs⟩ => ⟨?_, fun c hc => ?_⟩
      · show t.actual.length = taskRows mpc.horizon k
        rw [ht hl, hx]
        exact taskMeans_rows hF.means
      · obtain ⟨cc, hcc, hc'⟩ := hs c hc
        exact hb2 cc hcc c hc'
  · right
    refine ⟨?_, k2.imp (fun hno x hx hal => hno x (hmod x hx) ((h4.allowed x).2 hal)) fun ⟨a, gs, hd, hs⟩ =>
      ⟨a, _, gs, ⟨hd.size, hd.accepted, fun x hx => (h4.allowed x).1 (hd.sound x hx),
        fun x hx hM => hd.complete x ((h4.allowed x).2 hx) (hmod x hM), fun x y c d hc hd' =>
          hd.cost x y c d ((h4.cost x c).1 hc) ((h4.cost y d).1 hd'), fun _ => hd.bounds h5.bounds⟩, hs⟩⟩
    unfold Program.solveProblem
    rw [ef, ok_bind]
    simp only [k1]

/-- An iteration. -/
theorem program_step (hp : LoopParameters p N T) (hq : MPCParameters.make N T T T = .ok q) (hg : o.terminal = true → o.terminalGain ≠ 0)
    (hext : TrustedSolver ext) (hI : ProgramInv p N T q o nan n s side k h) (u : Memory) (w : WalkParameters) :
    (walkMs p < n * T + N * T → IterationReturns ext nan T u w s (.ok none)) ∧
    (n * T + N * T ≤ walkMs p →
      (∃ s' mpc st k', IterationReturns ext nan T u w s (.ok (some s')) ∧ GoodIteration o nan T u w s mpc st s' ∧
        ProgramInv p N T q o nan (n + 1) s' side k' (some mpc.horizon)) ∨
      (IterationReturns ext nan T u w s (.error .thrown) ∧
        ∃ mpc, UpdateReturns nan u.horizon u.matrices u.indices s.model s.fsm w s.mpc (.ok (mpc, .ok)) ∧
        ((∀ x, ModerateSolution mpc.horizon x → ¬ AllowedMotion o mpc.horizon s.model x) ∨ SolverFails ext o mpc.horizon s.model))) := by
  obtain ⟨U1, U2⟩ := loop_update hp hq hI.loop nan u.horizon u.matrices u.indices w
  rw [hI.loop.over hp] at U1 U2
  refine ⟨fun hn => ?_, fun hn => ?_⟩
  · obtain ⟨mpc, fuel, hu⟩ := U2 hn
    refine ⟨fuel, ?_⟩
    have hu : s.mpc.update fuel nan u.horizon u.matrices u.indices s.model s.fsm w = some (.ok (mpc, .stopped)) := hu
    unfold Program.iterate
    rw [hu]
  · obtain ⟨mpc, hu⟩ := U1 (by omega)
    have hu : UpdateReturns nan u.horizon u.matrices u.indices s.model s.fsm w s.mpc (.ok (mpc, .ok)) := hu
    rcases solve_step hp hq hg hext hI hu with ⟨s1, e1, hS⟩ | ⟨e1, hno⟩
    · left
      obtain ⟨s', st, P, cop, X, k', hC, hX, hSt, hI', hk⟩ := loop_step hp hq hI.loop hu hS.solution u.parsing
      have hC0 := hC
      obtain ⟨⟨f2, c1⟩, c2, c3⟩ := hC
      obtain ⟨f1, hu1⟩ := id hu
      refine ⟨{ s1 with fsm := s'.fsm, mpc := s'.mpc, model := s'.model }, mpc, st, k', ⟨max f1 f2, ?_⟩, ⟨hu, hS.solution, hS.best, hC0⟩,
        ⟨hI', hS.solved, hS.problem, hS.params, ?_, ?_⟩⟩
      · unfold Program.iterate
        rw [update_mono hu1 (le_max_left _ _)]
        simp only [e1]
        have c1 : FSM.shiftTime f2 s1.fsm T = some (.ok s'.fsm) := by rw [hS.fsm]; exact c1
        rw [shiftTime_mono c1 (le_max_right _ _)]
        simp only
        unfold Program.advance
        rw [hS.controller, hS.model]
        have c2 : mpc.parseAndGetNextModelState nan u.parsing s1.solution s'.fsm s.model = .ok (s'.mpc, st) := c2
        have c3 : s.model.updateState st = .ok s'.model := c3
        rw [c2, ok_bind]
        simp only
        rw [c3]
        rfl
      · show SolutionFor mpc.horizon s1.oldSolution
        rw [hS.old]
        exact hS.solution
      · intro H hH junkH junk junkI w' mpc' hu'
        cases hH
        obtain ⟨a1, a2, a3, -⟩ := steps_change hp hq hI.loop hI' hk hu hu'
        exact ⟨a1, a2, a3⟩
    · right
      obtain ⟨f1, hu1⟩ := id hu
      refine ⟨⟨f1, ?_⟩, mpc, hu, hno⟩
      unfold Program.iterate
      rw [hu1]
      simp only [e1]

theorem program_after (hp : LoopParameters p N T) (hq : MPCParameters.make N T T T = .ok q) (hg : o.terminal = true → o.terminalGain ≠ 0)
    (hext : TrustedSolver ext) {s0 : Program} (h0 : ProgramStart p q o s0) (h : ProgramAfter ext nan T s0 n s) :
    (∃ side k h, ProgramInv p N T q o nan n s side k h) ∧ LoopAfter nan T (loopOf s0) n (loopOf s) := by
  induction h with
  | start =>
    obtain ⟨side, h⟩ := program_start hp h0
    exact ⟨⟨side, 0, none, h⟩, .start⟩
  | @step n a b u w _ hs ih =>
    obtain ⟨⟨side, k, h, hI⟩, hL⟩ := ih
    obtain ⟨P1, P2⟩ := program_step hp hq hg hext hI u w
    by_cases hn : n * T + N * T ≤ walkMs p
    · rcases P2 hn with ⟨s', mpc, st, k', hr, hG, hI'⟩ | ⟨hr, -⟩
      · cases iteration_unique hs hr
        exact ⟨⟨side, k', _, hI'⟩, .step hL ⟨_, _, _, _, _, _, _, _, hG.update, hG.solution, hG.completes⟩⟩
      · cases iteration_unique hs hr
    · cases iteration_unique hs (P1 (by omega))

/-- Bounds of the supports in the horizon. -/
theorem horizon_bounds (hp : LoopParameters p N T) (hq : MPCParameters.make N T T T = .ok q) {s : LoopState}
    (hI : LoopInv p N T q n s side k) {junkH : ℕ → Interval} {junk : ℕ → ℕ → ℕ → ℕ → ℝ} {junkI : ℕ → ℕ → ℕ}
    (hu : UpdateReturns nan junkH junk junkI s.model s.fsm w s.mpc (.ok (mpc, .ok))) {j : ℕ} (hj : j < mpc.horizon.intervals.n)
    {x : WalkState} (hx : mpc.horizon.getWalkState j = .ok x) :
    ∃ t, footBounds s.model.params t = .ok x.fd_bounds ∧ x.cop_bounds = copBounds s.model.params t := by
  obtain ⟨e1, e2, -, e3, -⟩ := C55_derived hq
  have hN63 : s.mpc.parameters.preview_horizon_length < 2 ^ 63 := by rw [hI.parameters, e1]; exact hp.horizon.2
  obtain ⟨H, m, hH, -, hmpc⟩ := update_ok hu
  have hHm : mpc.horizon = H := by rw [hmpc]
  rw [hHm] at hj hx
  obtain ⟨l, hl, hlc, hF⟩ := C51_horizon hI.machine.reach hp.proper hI.machine.inside hN63 hH
  obtain ⟨l2, _, _, _, _, hE, hmap, -⟩ := formed_entries hI.machine.reach hp.proper hI.machine.inside hN63 hH
  have el : l2 = l := hmap.symm.trans hF.stances
  subst el
  rw [hF.size] at hj
  obtain ⟨s1, hs1, hs1t⟩ := hF.supports j hj
  obtain ⟨y, hy, hy'⟩ := hE _ s1 hs1
  rw [Horizon.getWalkState_ok (by rw [hF.size]; exact hj), hy] at hx
  cases hx
  exact ⟨s1, hy'.fd hs1t, hy'.cop hs1t⟩

theorem footBounds_moderate {P : FootParameters ℝ} (h : SaneFeet P) {t : Stance} {B : Matrix (Fin 2) (Fin 2) ℝ}
    (e : footBounds P t = .ok B) (i j : Fin 2) : -10 ^ 20 ≤ B i j ∧ B i j ≤ 10 ^ 20 := by
  obtain ⟨⟨a1, a2⟩, ⟨b1, b2, b3⟩, ⟨c1, c2⟩, -⟩ := h
  have key : ∀ (f : LeftOrRight) (ty : FootBoundsType), P.getFootBounds f ty = .ok B → -10 ^ 20 ≤ B i j ∧ B i j ≤ 10 ^ 20 := by
    intro f ty e
    cases f <;> cases ty <;> cases e <;> fin_cases i <;> fin_cases j <;>
      simp [FootParameters.leftFoot, FootParameters.rightFoot] <;> constructor <;> linarith
  unfold footBounds at e
  split at e
  · rw [← Except.ok.inj e]
    norm_num
  · repeat' split at e
    all_goals first | exact key _ _ e | cases e

/-- A motion which is allowed: the centre of pressure remains in the centres of the supports, the steps are the fixed ones. -/
theorem allowed_exists (hp : LoopParameters p N T) (hq : MPCParameters.make N T T T = .ok q) {s : LoopState}
    (hI : LoopInv p N T q n s side k) {junkH : ℕ → Interval} {junk : ℕ → ℕ → ℕ → ℕ → ℝ} {junkI : ℕ → ℕ → ℕ}
    (hu : UpdateReturns nan junkH junk junkI s.model s.fsm w s.mpc (.ok (mpc, .ok))) (hf : SaneFeet s.model.params)
    (ht : o.terminal = false) : ∃ x, ModerateSolution mpc.horizon x ∧ AllowedMotion o mpc.horizon s.model x := by
  have hR := updated_ready (loop_updated hp hq hI hu).1
  have hB : ∀ k ∈ mpc.horizon.variable_steps, ∀ s1, mpc.horizon.getWalkState k = .ok s1 → ∀ a : Fin 2,
      s1.fd_bounds a 0 ≤ s1.fd_bounds a 1 := by
    intro k hk s1 hs1 a
    obtain ⟨t, ht, -⟩ := horizon_bounds hp hq hI hu (hR.steps k hk).2 hs1
    exact footBounds_ordered hf.step.1 hf.distances.1 ht a
  set M := mpc.horizon.intervals.n with hM
  have h10 : (0 : ℝ) ≤ 10 ^ 20 := by positivity
  let y : ℕ → ℕ → ℝ := fun j b =>
    match mpc.horizon.variable_steps[j]? with
    | none => 0
    | some k =>
      match mpc.horizon.getWalkState k with
      | .error _ => 0
      | .ok s1 => if b = 0 then s1.fd_bounds 0 1 else if s1.stance.type = .rss then s1.fd_bounds 1 1 else s1.fd_bounds 1 0
  have hy : ∀ j k s1, mpc.horizon.variable_steps[j]? = some k → mpc.horizon.getWalkState k = .ok s1 → ∀ b,
      y j b = if b = 0 then s1.fd_bounds 0 1 else if s1.stance.type = .rss then s1.fd_bounds 1 1 else s1.fd_bounds 1 0 := by
    intro j k s1 e1 e2 b
    show (match mpc.horizon.variable_steps[j]? with | none => _ | some k => _) = _
    rw [e1]
    simp only
    rw [e2]
  have hfix : StepsFixed mpc.horizon fun v => if v < 2 * M then 0 else y ((v - 2 * M) / 2) ((v - 2 * M) % 2) := by
    intro j k s1 e1 e2
    rw [← hM]
    beta_reduce
    constructor
    · rw [if_neg (by omega), show (2 * M + 2 * j - 2 * M) / 2 = j by omega, show (2 * M + 2 * j - 2 * M) % 2 = 0 by omega, hy j k s1 e1 e2]
      simp
    · rw [if_neg (by omega), show (2 * M + 2 * j + 1 - 2 * M) / 2 = j by omega, show (2 * M + 2 * j + 1 - 2 * M) % 2 = 1 by omega,
        hy j k s1 e1 e2]
      simp
  refine ⟨fun v => if v < 2 * M then 0 else y ((v - 2 * M) / 2) ((v - 2 * M) % 2), fun v hv => ?_, ?_, ?_, ?_⟩
  · show -10 ^ 20 ≤ (if v < 2 * M then 0 else _ : ℝ) ∧ (if v < 2 * M then 0 else _ : ℝ) ≤ 10 ^ 20
    split
    · exact ⟨by linarith, h10⟩
    · have hj : (v - 2 * M) / 2 < mpc.horizon.variable_steps.length := by rw [← hM] at hv; omega
      obtain ⟨k, s1, e1, e2⟩ := hR.step hj
      obtain ⟨t, ht, -⟩ := horizon_bounds hp hq hI hu (hR.steps k (List.mem_of_getElem? e1)).2 e2
      rw [hy _ k s1 e1 e2]
      repeat' split
      all_goals exact footBounds_moderate hf ht _ _
  · split
    · exact hfix
    · exact C81_fixed_within hB hfix
  · intro i s1 hi hs1 a
    rw [← hM] at hi
    have ha := a.isLt
    beta_reduce
    rw [if_pos (by omega)]
    obtain ⟨t, -, hc⟩ := horizon_bounds hp hq hI hu hi hs1
    obtain ⟨c1, c2⟩ := hf.size
    have c3 := hf.default.1
    rw [hc]
    unfold copBounds
    split <;> fin_cases a <;> simp [FootParameters.getADSCoPBounds, FootParameters.getSSCoPBounds] <;> linarith
  · rw [ht]
    exact fun e => by cases e

/-- The parameters of the robot do not change. -/
theorem loop_params {s0 s : LoopState} (h : LoopAfter nan T s0 n s) : s.model.params = s0.model.params := by
  induction h with
  | start => rfl
  | step _ hs ih =>
    obtain ⟨_, _, _, _, _, _, _, st, _, _, hc⟩ := hs
    have h := hc.updated
    unfold Model.updateState at h
    simp only [bind_eq_ok] at h
    obtain ⟨_, _, _, _, h⟩ := h
    rw [← Except.ok.inj h]
    exact ih

/-! ## Runs -/

theorem run_mono {a b : ℕ} (hab : a ≤ b) {T : ℕ} {w : WalkParameters} : ∀ {l l' : ℕ}, l ≤ l' → ∀ {u : ℕ → Memory} {s : Program}
    {r : Res (Program × ℕ)}, s.run ext a nan T u w l = some r → s.run ext b nan T u w l' = some r := by
  intro l
  induction l with
  | zero => intro l' _ u s r h; cases h
  | succ l ih =>
    intro l' hl u s r h
    obtain ⟨m, rfl⟩ : ∃ m, l' = m + 1 := ⟨l' - 1, by omega⟩
    unfold Program.run at h ⊢
    cases hi : s.iterate ext a nan T (u 0) w with
    | none => rw [hi] at h; cases h
    | some r1 =>
      rw [hi] at h
      rw [iterate_mono hi hab]
      rcases r1 with e | _ | s'
      · exact h
      · exact h
      · simp only at h ⊢
        cases hr : s'.run ext a nan T (fun i => u (i + 1)) w l with
        | none => rw [hr] at h; cases h
        | some r2 => rw [hr] at h; rw [ih (by omega) hr]; exact h

/-- The outcome of the program is unique. -/
theorem run_unique' {u : ℕ → Memory} {r r' : Res (Program × ℕ)} (h : ProgramReturns ext nan T u w s r)
    (h' : ProgramReturns ext nan T u w s r') : r = r' := by
  obtain ⟨a, l, ha⟩ := h
  obtain ⟨b, l', hb⟩ := h'
  have h1 := run_mono (Nat.le_max_left a b) (Nat.le_max_left l l') ha
  have h2 := run_mono (Nat.le_max_right a b) (Nat.le_max_right l l') hb
  exact Option.some.inj (h1.symm.trans h2)

theorem returns_left {u : ℕ → Memory} (h : IterationReturns ext nan T (u 0) w s (.ok none)) : ProgramReturns ext nan T u w s (.ok (s, 0)) := by
  obtain ⟨fuel, h⟩ := h
  refine ⟨fuel, 1, ?_⟩
  unfold Program.run
  rw [h]

theorem returns_error {u : ℕ → Memory} {e : Fault} (h : IterationReturns ext nan T (u 0) w s (.error e)) :
    ProgramReturns ext nan T u w s (.error e) := by
  obtain ⟨fuel, h⟩ := h
  refine ⟨fuel, 1, ?_⟩
  unfold Program.run
  rw [h]

theorem returns_next {u : ℕ → Memory} {s' : Program} (h : IterationReturns ext nan T (u 0) w s (.ok (some s'))) {r : Res (Program × ℕ)}
    (hr : ProgramReturns ext nan T (fun i => u (i + 1)) w s' r) :
    ProgramReturns ext nan T u w s (r.map fun y => (y.1, y.2 + 1)) := by
  obtain ⟨f1, h⟩ := h
  obtain ⟨f2, l, hr⟩ := hr
  refine ⟨max f1 f2, l + 1, ?_⟩
  unfold Program.run
  rw [iterate_mono h (le_max_left _ _)]
  simp only
  rw [run_mono (le_max_right f1 f2) (le_refl l) hr]
  rcases r with e | ⟨a, b⟩ <;> rfl

theorem after_head {s' s'' : Program} {u : Memory} {w : WalkParameters} {m : ℕ} (h : IterationReturns ext nan T u w s (.ok (some s')))
    (h' : ProgramAfter ext nan T s' m s'') : ProgramAfter ext nan T s (m + 1) s'' := by
  induction h' with
  | start => exact .step .start h
  | step _ hs ih => exact .step ih hs

theorem iterations_lt (hT : 0 < T) (n : ℕ) : n < iterations p N T ↔ n * T + N * T ≤ walkMs p := by
  unfold iterations
  rw [Nat.lt_iff_add_one_le, Nat.le_div_iff_mul_le hT, Nat.add_mul, Nat.one_mul]
  omega

theorem run_outcome (hp : LoopParameters p N T) (hq : MPCParameters.make N T T T = .ok q) (hg : o.terminal = true → o.terminalGain ≠ 0)
    (hext : TrustedSolver ext) (w : WalkParameters) : ∀ m {n s k h} (u : ℕ → Memory), ProgramInv p N T q o nan n s side k h →
      n + m = iterations p N T ∨ iterations p N T < n ∧ m = 0 →
      (∃ s', ProgramReturns ext nan T u w s (.ok (s', m)) ∧ ProgramAfter ext nan T s m s') ∨
      (ProgramReturns ext nan T u w s (.error .thrown) ∧ Stopped ext o nan T w s u) := by
  intro m
  induction m with
  | zero =>
    intro n s k h u hI hm
    have hn : walkMs p < n * T + N * T := by
      by_contra hc
      have := (iterations_lt (p := p) (N := N) hp.sampling n).2 (by omega)
      omega
    exact .inl ⟨s, returns_left ((program_step hp hq hg hext hI (u 0) w).1 hn), .start⟩
  | succ m ih =>
    intro n s k h u hI hm
    have hn := (iterations_lt (p := p) (N := N) hp.sampling n).1 (by omega)
    rcases (program_step hp hq hg hext hI (u 0) w).2 hn with ⟨s', mpc, st, k', hr, hG, hI'⟩ | ⟨hr, mpc, hu, hno⟩
    · rcases ih (fun i => u (i + 1)) hI' (by omega) with ⟨s'', h1, h2⟩ | ⟨h1, n', s'', mpc', h2, h3⟩
      · exact .inl ⟨s'', returns_next hr h1, after_head hr h2⟩
      · exact .inr ⟨returns_next hr h1, n' + 1, s'', mpc', after_head hr h2, h3⟩
    · exact .inr ⟨returns_error hr, 0, s, mpc, .start, hu, hno⟩

end

/-! ## C84 -/

section
variable {p : FSMParams} {N T : ℕ} {q : MPCParameters} {o : ProblemSetup} {nan : ℝ} {ext : Qpoases ℝ} {n : ℕ} {s0 s s' : Program}

/-- **C84.** After any number of iterations, whatever is in memory: as long as the rest of the walk covers the horizon, an iteration either
finds the best allowed motion and moves the robot along it, or it ends with an exception, since no motion is allowed or since qpOASES
has failed to find an existing one. There is no undefined behaviour. -/
theorem C84_iteration (hp : LoopParameters p N T) (hq : MPCParameters.make N T T T = .ok q) (hg : o.terminal = true → o.terminalGain ≠ 0)
    (hext : TrustedSolver ext) (h0 : ProgramStart p q o s0) (h : ProgramAfter ext nan T s0 n s) (hn : n * T + N * T ≤ walkMs p)
    (u : Memory) (w : WalkParameters) :
    (∃ s' mpc st, IterationReturns ext nan T u w s (.ok (some s')) ∧ GoodIteration o nan T u w s mpc st s') ∨
    (IterationReturns ext nan T u w s (.error .thrown) ∧
      ∃ mpc, UpdateReturns nan u.horizon u.matrices u.indices s.model s.fsm w s.mpc (.ok (mpc, .ok)) ∧
      ((∀ x, ModerateSolution mpc.horizon x → ¬ AllowedMotion o mpc.horizon s.model x) ∨ SolverFails ext o mpc.horizon s.model)) := by
  obtain ⟨⟨side, k, h, hI⟩, -⟩ := program_after hp hq hg hext h0 h
  rcases (program_step hp hq hg hext hI u w).2 hn with ⟨s', mpc, st, -, h1, h2, -⟩ | h'
  · exact .inl ⟨s', mpc, st, h1, h2⟩
  · exact .inr h'

/-- **C84.** Otherwise the loop is left, with the robot in the last double support after all steps. -/
theorem C84_stops (hp : LoopParameters p N T) (hq : MPCParameters.make N T T T = .ok q) (hg : o.terminal = true → o.terminalGain ≠ 0)
    (hext : TrustedSolver ext) (h0 : ProgramStart p q o s0) (h : ProgramAfter ext nan T s0 n s) (hn : walkMs p < n * T + N * T)
    (u : Memory) (w : WalkParameters) :
    IterationReturns ext nan T u w s (.ok none) ∧ s.model.state.stance_type = .ds ∧ s.fsm.left = 0 := by
  obtain ⟨⟨side, k, h, hI⟩, hL⟩ := program_after hp hq hg hext h0 h
  exact ⟨(program_step hp hq hg hext hI u w).1 hn, (C79_stops hp hq h0.loop hL hn u.horizon u.matrices u.indices w).2⟩

/-- **C84.** The program is a case of the loop of control, of which C79 and C80 tell. -/
theorem C84_loop (hp : LoopParameters p N T) (hq : MPCParameters.make N T T T = .ok q) (hg : o.terminal = true → o.terminalGain ≠ 0)
    (hext : TrustedSolver ext) (h0 : ProgramStart p q o s0) (h : ProgramAfter ext nan T s0 n s) :
    LoopAfter nan T (loopOf s0) n (loopOf s) := (program_after hp hq hg hext h0 h).2

/-- **C84.** The robot steps within the allowed distances: what C80 needs to know about the solutions holds in the program. -/
theorem C84_steps (hp : LoopParameters p N T) (hq : MPCParameters.make N T T T = .ok q) (hg : o.terminal = true → o.terminalGain ≠ 0)
    (hext : TrustedSolver ext) (h0 : ProgramStart p q o s0) (hpl : Stands s0.model)
    (hord : o.fixed = true → 0 ≤ s0.model.params.maxStepLen ∧ s0.model.params.minFeetDist ≤ s0.model.params.maxFeetDist)
    (h : ProgramAfter ext nan T s0 n s) {u : Memory} {w : WalkParameters} (hs : IterationReturns ext nan T u w s (.ok (some s')))
    (ht : s'.model.state.stance_type = .tds) :
    (IsSingle s'.model.state.next_stance_type →
      (s.model.state.stance_type = .lss → s'.model.state.feet.left = s.model.state.feet.left ∧
        AllowedStep s0.model.params (-1) s'.model.state.feet.left s'.model.state.feet.right ∧
        s'.model.state.feet.right.rpy 2 = s'.model.state.feet.left.rpy 2 + w.theta_increment) ∧
      (s.model.state.stance_type = .rss → s'.model.state.feet.right = s.model.state.feet.right ∧
        AllowedStep s0.model.params 1 s'.model.state.feet.right s'.model.state.feet.left ∧
        s'.model.state.feet.left.rpy 2 = s'.model.state.feet.right.rpy 2 + w.theta_increment)) ∧
    (s'.model.state.next_stance_type = .ds →
      (s.model.state.stance_type = .lss → s'.model.state.feet.left = s.model.state.feet.left ∧
        Beside s0.model.params (-1) s'.model.state.feet.left s'.model.state.feet.right) ∧
      (s.model.state.stance_type = .rss → s'.model.state.feet.right = s.model.state.feet.right ∧
        Beside s0.model.params 1 s'.model.state.feet.right s'.model.state.feet.left)) := by
  obtain ⟨⟨side, k, hh, hI⟩, hL⟩ := program_after hp hq hg hext h0 h
  have hpar : s.model.params = s0.model.params := loop_params hL
  obtain ⟨P1, P2⟩ := program_step hp hq hg hext hI u w
  by_cases hn : n * T + N * T ≤ walkMs p
  · rcases P2 hn with ⟨s1, mpc, st, k', hr, hG, hI'⟩ | ⟨hr, -⟩
    · cases iteration_unique hs hr
      have hR := updated_ready (loop_updated hp hq hI.loop hG.update).1
      have hB : MeetsFirstBounds mpc.horizon (entries s'.solution) := by
        have hst := hG.best.allowed.steps
        cases hfix : o.fixed with
        | false =>
          rw [hfix] at hst
          exact C81_first hst
        | true =>
          rw [hfix] at hst
          obtain ⟨o1, o2⟩ := hord hfix
          refine C81_first (C81_fixed_within (fun k hk s1 hs1 a => ?_) hst)
          obtain ⟨t, ht, -⟩ := horizon_bounds hp hq hI.loop hG.update (hR.steps k hk).2 hs1
          have hpar' : (loopOf s).model.params = s0.model.params := hpar
          rw [hpar'] at ht
          exact footBounds_ordered o1 o2 ht a
      rw [← hpar]
      exact ⟨fun hn => C80_step hp hq h0.loop hpl hL hG.update hG.solution hB hG.completes ht hn,
        fun hn => C80_last hp hq h0.loop hpl hL hG.update hG.solution hB hG.completes ht hn⟩
    · cases iteration_unique hs hr
  · cases iteration_unique hs (P1 (by omega))

/-- **C84.** The program terminates for every contents of the memory, with a unique outcome: either it has made all iterations, or it is
stopped by an exception for one of the two reasons. -/
theorem C84_run (hp : LoopParameters p N T) (hq : MPCParameters.make N T T T = .ok q) (hg : o.terminal = true → o.terminalGain ≠ 0)
    (hext : TrustedSolver ext) (h0 : ProgramStart p q o s0) (u : ℕ → Memory) (w : WalkParameters) :
    ∃ r, ProgramReturns ext nan T u w s0 r ∧ (∀ r', ProgramReturns ext nan T u w s0 r' → r' = r) ∧
      ((∃ s, r = .ok (s, iterations p N T) ∧ ProgramAfter ext nan T s0 (iterations p N T) s) ∨
        (r = .error .thrown ∧ Stopped ext o nan T w s0 u)) := by
  obtain ⟨side, hI⟩ := program_start (nan := nan) hp h0
  rcases run_outcome hp hq hg hext w (iterations p N T) u hI (.inl (by omega)) with ⟨s, h1, h2⟩ | ⟨h1, h2⟩
  · exact ⟨_, h1, fun r' h' => run_unique' h' h1, .inl ⟨s, rfl, h2⟩⟩
  · exact ⟨_, h1, fun r' h' => run_unique' h' h1, .inr ⟨rfl, h2⟩⟩

/-- **C84.** Without the terminal constraint there is always an allowed motion: if qpOASES solves feasible problems, then the program
makes all iterations, and the robot stands in the last double support after all steps. -/
theorem C84_completes (hp : LoopParameters p N T) (hq : MPCParameters.make N T T T = .ok q) (ht : o.terminal = false)
    (hext : TrustedSolver ext) (hcomplete : CompleteSolver ext) (h0 : ProgramStart p q o s0) (hf : SaneFeet s0.model.params)
    (u : ℕ → Memory) (w : WalkParameters) :
    ∃ s, ProgramReturns ext nan T u w s0 (.ok (s, iterations p N T)) ∧ ProgramAfter ext nan T s0 (iterations p N T) s ∧
      s.model.state.stance_type = .ds ∧ s.fsm.left = 0 := by
  have hg : o.terminal = true → o.terminalGain ≠ 0 := fun e => by rw [ht] at e; cases e
  obtain ⟨r, h1, -, ⟨s, rfl, h3⟩ | ⟨rfl, n, s, mpc, h3, h4, h5⟩⟩ := C84_run (nan := nan) hp hq hg hext h0 u w
  · refine ⟨s, h1, h3, (C84_stops hp hq hg hext h0 h3 ?_ (u 0) w).2⟩
    by_contra hc
    have := (iterations_lt (p := p) (N := N) hp.sampling (iterations p N T)).2 (by omega)
    omega
  · exfalso
    obtain ⟨⟨side, k, h, hI⟩, hL⟩ := program_after hp hq hg hext h0 h3
    have hpar : (loopOf s).model.params = s0.model.params := loop_params hL
    obtain ⟨x, hx1, hx2⟩ := allowed_exists hp hq hI.loop h4 (by rw [hpar]; exact hf) ht
    rcases h5 with h5 | ⟨a, g, gs, hd, hs⟩
    · exact h5 x hx1 hx2
    · exact hs (hcomplete a g gs hd.accepted (hd.bounds trivial).1 (hd.bounds trivial).2 ⟨x, hd.complete x hx2 hx1⟩)

end

/-! ### The hypotheses are met -/

theorem feet20_sane : SaneFeet feet20 := by
  constructor <;> norm_num [feet20]

/-- The program at the beginning of the default walk. -/
theorem default_program (nan : ℝ) {q : MPCParameters} (fixed terminal : Bool) :
    ∃ s, ProgramStart FSMParams.default q (defaultSetup fixed terminal) s ∧ s.model = standing20 nan .ds := by
  obtain ⟨f, hf⟩ : ∃ f, FSM.construct FSMParams.default = .ok f ∧ f.cur.type = .ds := ⟨_, rfl, rfl⟩
  obtain ⟨p, hp⟩ := C82_setup (defaultSetup fixed terminal) ⟨[], []⟩
  refine ⟨⟨standing20 nan .ds, f, Mpc.make q, p, ⟨SolverParameters.default, ⟨⟨⟨Mat.const 0 0 0, Vec.const 0 0, .undefined⟩,
    ⟨⟨0, Mat.const 0 0 0, Vec.const 0 0, Vec.const 0 0⟩, ⟨0, ⟨0, fun _ => 0⟩, Vec.const 0 0, Vec.const 0 0⟩, Vec.const 0 0,
      Vec.const 0 0⟩⟩, none, none, none⟩⟩, ⟨.empty, [], .undefined⟩, ⟨.empty, [], .undefined⟩, ⟨.empty, [], .undefined⟩⟩,
    ⟨⟨hf.1, rfl, hf.2.symm, one_pos⟩, ⟨_, hp⟩, rfl, rfl⟩, rfl⟩

/-- The default walk: with a solver which does what is expected the program makes 74 iterations. -/
example (nan : ℝ) (u : ℕ → Memory) (w : WalkParameters) (fixed : Bool) : ∃ ext q s0, TrustedSolver ext ∧ CompleteSolver ext ∧
    MPCParameters.make 16 100 100 100 = .ok q ∧ ProgramStart FSMParams.default q (defaultSetup fixed false) s0 ∧ Stands s0.model ∧
    SaneFeet s0.model.params ∧ ∃ s, ProgramReturns ext nan 100 u w s0 (.ok (s, 74)) := by
  obtain ⟨ext, h1, h2⟩ := exists_solver
  obtain ⟨q, hq⟩ : ∃ q, MPCParameters.make 16 100 100 100 = .ok q := ⟨_, rfl⟩
  obtain ⟨s0, h0, hm⟩ := default_program nan (q := q) fixed false
  have hf : SaneFeet s0.model.params := by rw [hm]; exact feet20_sane
  obtain ⟨s, hs, -⟩ := C84_completes (nan := nan) default_loop hq rfl h1 h2 h0 hf u w
  exact ⟨ext, q, s0, h1, h2, hq, h0, by rw [hm]; exact default_stands nan, hf, s, hs⟩

end Humoto.Wpg
