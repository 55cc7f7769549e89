import Verif.Model.WpgProblem
import Verif.Model.QpoasesSolver

/-!
# The walking program: modules/wpg04/tests/test_000.cpp

One iteration of the loop, lines 102-170: the control problem is updated, the optimization problem is formed with guesses of the solution
and of the active set, it is solved with qpOASES, the next state is computed. Reading of the configuration, logging and time measurement
are not modelled.
-/

namespace Humoto.Wpg

open Bridge

/-- Contents of memory which is not initialised: during the update of the control problem (`horizon`, `matrices`, `indices`), during
forming of the problem (`solution`, `tasks`, `taskIndices`), in the solver (`objective`, `constraints`), and while the solution is being
parsed (`parsing`). -/
structure Memory where
  horizon : ℕ → Interval
  matrices : ℕ → ℕ → ℕ → ℕ → ℝ
  indices : ℕ → ℕ → ℕ
  solution : ℕ → ℝ
  tasks : ℕ → ℕ → ℕ → ℝ
  taskIndices : ℕ → ℕ → ℕ
  objective : ℕ → ℕ → ℝ
  constraints : Junk ℝ
  parsing : ℕ → ℕ → ℝ

/-- The objects of the program which survive from iteration to iteration, test_000.cpp:52-99. The active sets are overwritten before they
are read. -/
structure Program where
  model : Model
  fsm : FSM
  mpc : Mpc
  problem : Problem
  solver : SolverState (QpoasesMem ℝ)
  solution : Solution ℝ
  oldSolution : Solution ℝ
  solutionGuess : Solution ℝ

/-- `OptimizationProblem::form` with guesses, hierarchy.h:127-137: the problem, the solution, the guess of the solution, the guess of the
active set. -/
def Problem.formWithGuesses (u : Memory) (p : Problem) (solution guess old : Solution ℝ) (model : Model) (mpc : Mpc) :
    Res (Problem × Solution ℝ × Solution ℝ × ActiveSetH) := do
  let solution ← initSolutionStructure mpc.matrices.solution solution u.solution
  let p ← p.form u.tasks u.taskIndices true model mpc
  let guess ← mpc.guessSolution guess old
  let a ← p.hierarchy.guessActiveSet
  pure (p, solution, guess, a)

/-- Forming and solving, test_000.cpp:118-142; `mpc` is the updated control problem. -/
noncomputable def Program.solveProblem (ext : Qpoases ℝ) (u : Memory) (s : Program) (mpc : Mpc) : Res Program := do
  let (p, solution, guess, a) ← s.problem.formWithGuesses u s.solution s.solutionGuess s.oldSolution s.model mpc
  match (qpoasesBackend ext u.objective u.constraints).solve solution p.hierarchy (.guessActiveSetInOut guess a) s.solver with
  | (.ok (solution, some actual), solver) => do
    let p ← p.processActiveSet actual
    pure { s with mpc := mpc, problem := p, solver := solver, solution := solution, oldSolution := solution, solutionGuess := guess }
  | (.ok (_, none), _) => .error .ub
  | (.error e, _) => .error e

/-- The end of an iteration, test_000.cpp:163-165; `f` is the machine after `shiftTime`. -/
noncomputable def Program.advance (nan : ℝ) (u : Memory) (s : Program) (f : FSM) : Res Program := do
  let (c, st) ← s.mpc.parseAndGetNextModelState nan u.parsing s.solution f s.model
  let m ← s.model.updateState st
  pure { s with fsm := f, mpc := c, model := m }

/-- An iteration, test_000.cpp:102-170. The result `none` of the outer type: some loop in the machine is still running after `fuel`
iterations; the result `.ok none`: the loop of the program is left (line 113). -/
noncomputable def Program.iterate (ext : Qpoases ℝ) (fuel : ℕ) (nan : ℝ) (T : ℕ) (u : Memory) (w : WalkParameters) (s : Program) :
    Option (Res (Option Program)) :=
  match s.mpc.update fuel nan u.horizon u.matrices u.indices s.model s.fsm w with
  | none => none
  | some (.error e) => some (.error e)
  | some (.ok (mpc, .ok)) =>
    match s.solveProblem ext u mpc with
    | .error e => some (.error e)
    | .ok s1 =>
      match FSM.shiftTime fuel s1.fsm T with
      | none => none
      | some (.error e) => some (.error e)
      | some (.ok f) => some (do
        let s2 ← s1.advance nan u f
        pure (some s2))
  | some (.ok (_, _)) => some (.ok none)

/-- The loop, test_000.cpp:102-170: at most `fuel` iterations; the memory is different in each of them. The result is the last state of the
objects and the number of completed iterations. -/
noncomputable def Program.run (ext : Qpoases ℝ) (fuel : ℕ) (nan : ℝ) (T : ℕ) (u : ℕ → Memory) (w : WalkParameters) :
    ℕ → Program → Option (Res (Program × ℕ))
  | 0, _ => none
  | left + 1, s =>
    match s.iterate ext fuel nan T (u 0) w with
    | none => none
    | some (.error e) => some (.error e)
    | some (.ok none) => some (.ok (s, 0))
    | some (.ok (some s')) =>
      match Program.run ext fuel nan T (fun i => u (i + 1)) w left s' with
      | none => none
      | some (.error e) => some (.error e)
      | some (.ok (r, n)) => some (.ok (r, n + 1))

end Humoto.Wpg
