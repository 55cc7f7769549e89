import Verif.Spec.WpgPlain
import Verif.Props.WpgHotstart

/-!
# Invariants of the walking program with other solvers
-/

namespace Humoto.Wpg

open Spec Spec.Wpg Bridge

variable {σ : Type} {B : PlainSolver σ}

theorem plain_mono {a b : ℕ} {nan : ℝ} {T : ℕ} {u : Memory} {w : WalkParameters} {s : PlainProgram σ}
    {r : Res (Option (PlainProgram σ))} (h : s.iterate B a nan T u w = some r) (hab : a ≤ b) : s.iterate B b nan T u w = some r := by
  unfold PlainProgram.iterate at h ⊢
  cases hu : s.mpc.update a nan u.horizon u.matrices u.indices s.model s.fsm w with
  | none => rw [hu] at h; cases h
  | some r' =>
    rw [hu] at h
    rw [update_mono hu hab]
    rcases r' with e | ⟨mpc, st⟩
    · exact h
    · cases st with
      | stopped => exact h
      | ok =>
        simp only at h ⊢
        cases hs : s.solveProblem B u mpc with
        | error e => rw [hs] at h; exact h
        | ok s1 =>
          rw [hs] at h
          simp only at h ⊢
          cases hf : FSM.shiftTime a s1.fsm T with
          | none => rw [hf] at h; cases h
          | some r'' => rw [hf] at h; rw [shiftTime_mono hf hab]; exact h

/-- The outcome of an iteration is unique. -/
theorem plain_unique {nan : ℝ} {T : ℕ} {u : Memory} {w : WalkParameters} {s : PlainProgram σ}
    {r r' : Res (Option (PlainProgram σ))} (h : PlainReturns B nan T u w s r) (h' : PlainReturns B nan T u w s r') : r = r' := by
  obtain ⟨a, ha⟩ := h
  obtain ⟨b, hb⟩ := h'
  have h1 := plain_mono ha (Nat.le_max_left a b)
  have h2 := plain_mono hb (Nat.le_max_right a b)
  exact Option.some.inj (h1.symm.trans h2)

/-- What the solver does with the problems of the walk. -/
def Answers (B : PlainSolver σ) (o : ProblemSetup) (Fails : Horizon → Model → Prop) : Prop :=
  ∀ (model : Model) (mpc : Mpc) (p : Problem), Updated model mpc → FormedProblem o model mpc p → ∀ (u : Memory) (sol : Solution ℝ),
    SolutionFor mpc.horizon sol → ∀ s : SolverState σ, s.params = SolverParameters.default →
    (∃ sol' sv, (B u).solve sol p.hierarchy .plain s = (.ok (sol', none), sv) ∧ sv.params = SolverParameters.default ∧
      SolutionFor mpc.horizon sol' ∧ BestMotion o mpc.horizon model 0 (ModerateSolution mpc.horizon) (Spec.Wpg.entries sol')) ∨
    ∃ sv, (B u).solve sol p.hierarchy .plain s = (.error .thrown, sv) ∧ Fails mpc.horizon model

/-- A program with qpOASES in the same state. -/
def PlainProgram.qpoases (s : PlainProgram σ) (m : QpoasesMem ℝ) : Program :=
  ⟨s.model, s.fsm, s.mpc, s.problem, ⟨SolverParameters.default, m⟩, s.solution, s.solution, s.solution⟩

/-- No guesses. -/
abbrev cold : Hotstart := ⟨false, false⟩

section
variable {p : FSMParams} {N T : ℕ} {q : MPCParameters} {o : ProblemSetup} {nan : ℝ} {n : ℕ} {s : PlainProgram σ} {side : StanceType} {k : ℕ}
  {u : Memory} {w : WalkParameters} {mpc : Mpc} {Fails : Horizon → Model → Prop}

/-- The invariant of the program. -/
structure PlainInv (p : FSMParams) (N T : ℕ) (q : MPCParameters) (o : ProblemSetup) (n : ℕ) (s : PlainProgram σ) (side : StanceType)
    (k : ℕ) : Prop where
  loop : LoopInv p N T q n (plainLoop s) side k
  problem : ProblemAfter o false s.problem
  solver : s.solver.params = SolverParameters.default

theorem PlainInv.qpoases (h : PlainInv p N T q o n s side k) (m : QpoasesMem ℝ) :
    HotInv cold p N T q o nan n (s.qpoases m) side k none :=
  ⟨h.loop, fun e => (by cases e), fun _ => h.problem, rfl, fun e => (by cases e), fun _ hH => by cases hH⟩

theorem plain_start (hp : LoopParameters p N T) (h : PlainStart p q o s) : ∃ side, PlainInv p N T q o 0 s side 0 := by
  obtain ⟨side, hI⟩ := loop_start hp h.loop
  obtain ⟨P, hP⟩ := h.problem
  exact ⟨side, hI, .setup hP, h.solver⟩

theorem plain_solve (hp : LoopParameters p N T) (hq : MPCParameters.make N T T T = .ok q) (hB : Answers B o Fails)
    (hI : PlainInv p N T q o n s side k)
    (hu : UpdateReturns nan u.horizon u.matrices u.indices s.model s.fsm w s.mpc (.ok (mpc, .ok))) :
    (∃ p1 sv sol, s.solveProblem B u mpc = .ok { s with mpc := mpc, problem := p1, solver := sv, solution := sol } ∧
      ProblemAfter o false p1 ∧ sv.params = SolverParameters.default ∧ SolutionFor mpc.horizon sol ∧
      BestMotion o mpc.horizon s.model 0 (ModerateSolution mpc.horizon) (Spec.Wpg.entries sol)) ∨
    (s.solveProblem B u mpc = .error .thrown ∧ Fails mpc.horizon s.model) := by
  obtain ⟨hU, hN⟩ := loop_updated hp hq hI.loop hu
  have hR : Ready s.model mpc := updated_ready hU
  have hst : mpc.matrices.solution = solutionStructure mpc.horizon.intervals.n mpc.horizon.variable_steps.length := hR.structure_
  have hnv : mpc.matrices.solution.nvars = problemSize mpc := hR.nvars
  obtain ⟨sol, e1, hsol⟩ : ∃ sol, initSolutionStructure mpc.matrices.solution s.solution u.solution = .ok sol ∧
      SolutionFor mpc.horizon sol := by
    refine ⟨s.solution.resize mpc.matrices.solution u.solution, ?_, hst, ?_⟩
    · unfold initSolutionStructure
      rw [assertThat_true (by rw [hst]; rfl)]
      rfl
    · show (if _ then _ else _ : List ℝ).length = problemSize mpc
      split
      · rename_i h; rw [h, hnv]
      · rw [List.length_map, List.length_range, hnv]
  obtain ⟨p1, e2⟩ := walk_form (guessing := false) hR (problem_after hI.problem) u.tasks u.taskIndices fun _ _ h => h
  have hF : FormedProblem o s.model mpc p1 := ⟨_, _, _, _, .inr hI.problem, e2⟩
  rcases hB s.model mpc p1 hU hF u sol hsol s.solver hI.solver with ⟨sol', sv, h1, h2, h3, h4⟩ | ⟨sv, h1, h2⟩
  · left
    refine ⟨p1, sv, sol', ?_, .form hI.problem hU e2, h2, h3, h4⟩
    unfold PlainProgram.solveProblem
    rw [e1, ok_bind, e2, ok_bind, h1]
    rfl
  · right
    refine ⟨?_, h2⟩
    unfold PlainProgram.solveProblem
    rw [e1, ok_bind, e2, ok_bind, h1]

/-- An iteration. -/
theorem plain_step (hp : LoopParameters p N T) (hq : MPCParameters.make N T T T = .ok q) (hB : Answers B o Fails)
    (hI : PlainInv p N T q o n s side k) (u : Memory) (w : WalkParameters) :
    (walkMs p < n * T + N * T → PlainReturns B nan T u w s (.ok none)) ∧
    (n * T + N * T ≤ walkMs p →
      (∃ s' mpc st k', PlainReturns B nan T u w s (.ok (some s')) ∧ GoodPlain o nan T u w s mpc st s' ∧
        PlainInv p N T q o (n + 1) s' side k') ∨
      (PlainReturns B nan T u w s (.error .thrown) ∧
        ∃ mpc, UpdateReturns nan u.horizon u.matrices u.indices s.model s.fsm w s.mpc (.ok (mpc, .ok)) ∧ Fails mpc.horizon s.model)) := by
  obtain ⟨U1, U2⟩ := loop_update hp hq hI.loop nan u.horizon u.matrices u.indices w
  rw [hI.loop.over hp] at U1 U2
  refine ⟨fun hn => ?_, fun hn => ?_⟩
  · obtain ⟨mpc, fuel, hu⟩ := U2 hn
    refine ⟨fuel, ?_⟩
    have hu : s.mpc.update fuel nan u.horizon u.matrices u.indices s.model s.fsm w = some (.ok (mpc, .stopped)) := hu
    unfold PlainProgram.iterate
    rw [hu]
  · obtain ⟨mpc, hu⟩ := U1 (by omega)
    have hu : UpdateReturns nan u.horizon u.matrices u.indices s.model s.fsm w s.mpc (.ok (mpc, .ok)) := hu
    rcases plain_solve hp hq hB hI hu with ⟨p1, sv, sol, e1, h1, h2, h3, h4⟩ | ⟨e1, hno⟩
    · left
      obtain ⟨s', st, P, cop, X, k', hC, hX, hSt, hI', hk⟩ := loop_step hp hq hI.loop hu h3 u.parsing
      have hC0 := hC
      obtain ⟨⟨f2, c1⟩, c2, c3⟩ := hC
      obtain ⟨f1, hu1⟩ := id hu
      refine ⟨⟨s'.model, s'.fsm, s'.mpc, p1, sv, sol⟩, mpc, st, k', ⟨max f1 f2, ?_⟩, ⟨hu, h3, h4, hC0⟩, ⟨hI', h1, h2⟩⟩
      unfold PlainProgram.iterate
      rw [update_mono hu1 (le_max_left _ _)]
      simp only [e1]
      have c1 : FSM.shiftTime f2 s.fsm T = some (.ok s'.fsm) := c1
      rw [shiftTime_mono c1 (le_max_right _ _)]
      simp only
      unfold PlainProgram.advance
      have c2 : mpc.parseAndGetNextModelState nan u.parsing sol s'.fsm s.model = .ok (s'.mpc, st) := c2
      have c3 : s.model.updateState st = .ok s'.model := c3
      simp only [c2, ok_bind, c3]
      rfl
    · right
      obtain ⟨f1, hu1⟩ := id hu
      refine ⟨⟨f1, ?_⟩, mpc, hu, hno⟩
      unfold PlainProgram.iterate
      rw [hu1]
      simp only [e1]

theorem plain_after (hp : LoopParameters p N T) (hq : MPCParameters.make N T T T = .ok q) (hB : Answers B o Fails)
    {s0 : PlainProgram σ} (h0 : PlainStart p q o s0) {w : ℕ → WalkParameters} (h : PlainAfter B nan T w s0 n s) :
    (∃ side k, PlainInv p N T q o n s side k) ∧ LoopAfter nan T (plainLoop s0) n (plainLoop s) := by
  induction h with
  | start =>
    obtain ⟨side, h⟩ := plain_start hp h0
    exact ⟨⟨side, 0, h⟩, .start⟩
  | @step n a b u _ hs ih =>
    obtain ⟨⟨side, k, hI⟩, hL⟩ := ih
    obtain ⟨P1, P2⟩ := plain_step (nan := nan) hp hq hB hI u (w n)
    by_cases hn : n * T + N * T ≤ walkMs p
    · rcases P2 hn with ⟨s', mpc, st, k', hr, hG, hI'⟩ | ⟨hr, -⟩
      · cases plain_unique hs hr
        exact ⟨⟨side, k', hI'⟩, .step hL ⟨_, _, _, _, _, _, _, _, hG.update, hG.solution, hG.completes⟩⟩
      · cases plain_unique hs hr
    · cases plain_unique hs (P1 (by omega))

/-- A good iteration, seen as an iteration of a program with qpOASES. -/
theorem _root_.Humoto.Spec.Wpg.GoodPlain.qpoases {s' : PlainProgram σ} {st : ModelState} (h : GoodPlain o nan T u w s mpc st s')
    (m m' : QpoasesMem ℝ) : GoodIteration o nan T u w (s.qpoases m) mpc st (s'.qpoases m') :=
  ⟨h.update, h.solution, h.best, h.completes⟩

/-- The program goes where the program with qpOASES goes, with the same solutions. -/
theorem plain_same (hp : LoopParameters p N T) (hq : MPCParameters.make N T T T = .ok q) (hg : o.terminal = true → o.terminalGain ≠ 0)
    (ho : OneMinimum o) (hB : Answers B o Fails) {s0 : PlainProgram σ} (h0 : PlainStart p q o s0) (v : Hotstart) {ext : Qpoases ℝ}
    (hext : TrustedSolver ext) (hcomplete : CompleteSolver ext) {s0' : Program} (h0' : ProgramStart p q o s0')
    (hm : s0'.model = s0.model) (hf : SaneFeet s0.model.params) (hb : FeetBelowInfinity s0.model.params) {w : ℕ → WalkParameters}
    (h : PlainAfter B nan T w s0 n s) :
    ∃ s', RunAfter v ext nan T w s0' n s' ∧ s'.model = s.model ∧ s'.fsm = s.fsm ∧ (0 < n → s'.solution.x = s.solution.x) := by
  have m : QpoasesMem ℝ := s0'.solver.mem
  induction h with
  | start => exact ⟨s0', .start, hm, Except.ok.inj (h0'.loop.machine.symm.trans h0.loop.machine), fun e => absurd e (lt_irrefl _)⟩
  | @step n a b u1 ha hs ih =>
    obtain ⟨a', ha', e1, e2, -⟩ := ih
    obtain ⟨⟨side, k, hI⟩, hL⟩ := plain_after hp hq hB h0 ha
    obtain ⟨⟨side', k', hh', hI'⟩, -⟩ := hot_after hp hq hg hext h0' ha'
    have hpar : a.model.params = s0.model.params := loop_params hL
    have hf' : SaneFeet a.model.params := by rw [hpar]; exact hf
    have hb' : FeetBelowInfinity a.model.params := by rw [hpar]; exact hb
    have hw : SameWalk a' (a.qpoases m) := ⟨e1.symm, e2.symm⟩
    obtain ⟨P1, P2⟩ := plain_step (nan := nan) hp hq hB hI u1 (w n)
    by_cases hn : n * T + N * T ≤ walkMs p
    · rcases P2 hn with ⟨c, mpc, st, -, hr, hG, -⟩ | ⟨hr, -⟩
      · cases plain_unique hs hr
        have hG1 := hG.qpoases m m
        obtain ⟨-, P2'⟩ := hot_step hp hq hg hext hI' u1 (w n)
        rcases P2' hn with ⟨b', mpc', st', -, hr', hG', -⟩ | ⟨hr', mpc', hu', hno⟩
        · obtain ⟨h1, h2⟩ := good_same hp hq ho hI'.loop (hI.qpoases (nan := nan) m).loop (by rw [e1]; exact hf') (by rw [e1]; exact hb')
            hw hG' hG1
          exact ⟨b', .step ha' hr', h1.model.symm, h1.machine.symm, fun _ => h2.symm⟩
        · exact (thrown_same hcomplete (hI.loop.parameters.trans hI'.loop.parameters.symm) hw hu' hno
            (fun x hx => allowed_moderate hp hq hI'.loop hu' (by rw [show (loopOf a').model = a.model from e1]; exact hf')
              (by rw [show (loopOf a').model = a.model from e1]; exact hb') hx) hG1).elim
      · cases plain_unique hs hr
    · cases plain_unique hs (P1 (by omega))

end

end Humoto.Wpg
