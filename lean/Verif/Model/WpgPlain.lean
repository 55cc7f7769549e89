import Verif.Model.WpgHotstart

/-!
# The walking program with other solvers: modules/wpg04/tests/test_009.cpp, regression_test_000_body.h

The loop without guesses, with QuadProg++ and with qpmad. The progress messages and the log are not modelled.
-/

namespace Humoto.Bridge

variable {E K : Type}

section
variable [Field K] [LinearOrder K]

/-- `quadprogpp::Solver`, QuadProgpp/solver.h:55-112, with `QPSolverMixin`, core/include/humoto/solver.h:460-490. The member is
`qp_problem_`, which is changed by regularization (79-82). The solver has no overloads with guesses: the corresponding methods do not
exist. -/
def quadprogBackend (ext : QuadProgArgs K → QuadProgStatus × List K) (reg : K) (z : ℕ → ℕ → K) (zc : Junk K) :
    Backend (Hierarchy E K) ActiveSetH K (QPObjective K × QPConstraintsABAL K) where
  checkInputs P := fun s => (qpCheckInputs s.params P, s)
  init P str := changing fun m => do
    let m ← quadprogInitialize z zc m P str.nvars
    pure ((), m)
  setSolutionGuess _ := fun s => (.error .ub, s)
  setActiveSet _ _ := fun s => (.error .ub, s)
  solveHierarchy sol _ := changing fun m => do
    let sol ← quadprogSolve ext reg m sol
    let o ← regularizeIf reg m.1
    pure (sol, (o, m.2))
  getActiveSet _ := fun s => (.error .ub, s)

/-- `qpmad::Solver`, qpmad/solver.h:79-150, with `QPSolverMixin`. -/
def qpmadBackend (ext : QpmadArgs K → QpmadStatus × List K) (reg : K) (z : ℕ → ℕ → K) (zc : Junk K) :
    Backend (Hierarchy E K) ActiveSetH K (QPObjective K × QPConstraintsILUALU K) where
  checkInputs P := fun s => (qpCheckInputs s.params P, s)
  init P str := changing fun m => do
    let m ← qpmadInitialize z zc m P str.nvars
    pure ((), m)
  setSolutionGuess _ := fun s => (.error .ub, s)
  setActiveSet _ _ := fun s => (.error .ub, s)
  solveHierarchy sol _ := changing fun m => do
    let sol ← qpmadSolve ext reg m sol
    let o ← regularizeIf reg m.1
    pure (sol, (o, m.2))
  getActiveSet _ := fun s => (.error .ub, s)

end

end Humoto.Bridge

namespace Humoto.Wpg

open Bridge

/-- A solver with the members `σ`; it reads uninitialised memory. -/
abbrev PlainSolver (σ : Type) := Memory → Backend (Hierarchy ProblemEnv ℝ) ActiveSetH ℝ σ

/-- The solver with the default regularization factor, QuadProgpp/solver.h:34-37. -/
noncomputable def quadprogSolver (ext : QuadProgArgs ℝ → QuadProgStatus × List ℝ) : PlainSolver (QPObjective ℝ × QPConstraintsABAL ℝ) :=
  fun u => quadprogBackend ext 0 u.objective u.constraints

/-- The solver with the default regularization factor, qpmad/solver.h:60-63. -/
noncomputable def qpmadSolver (ext : QpmadArgs ℝ → QpmadStatus × List ℝ) : PlainSolver (QPObjective ℝ × QPConstraintsILUALU ℝ) :=
  fun u => qpmadBackend ext 0 u.objective u.constraints

/-- The objects of the program which survive from iteration to iteration, test_009.cpp:44-70, regression_test_000_body.h:24-41. -/
structure PlainProgram (σ : Type) where
  model : Model
  fsm : FSM
  mpc : Mpc
  problem : Problem
  solver : SolverState σ
  solution : Solution ℝ

variable {σ : Type}

/-- Forming and solving, test_009.cpp:88-91, regression_test_000_body.h:78-81; `form` without guesses is hierarchy.h:106-111. -/
noncomputable def PlainProgram.solveProblem (B : PlainSolver σ) (u : Memory) (s : PlainProgram σ) (mpc : Mpc) : Res (PlainProgram σ) := do
  let solution ← initSolutionStructure mpc.matrices.solution s.solution u.solution
  let p ← s.problem.form u.tasks u.taskIndices false s.model mpc
  match (B u).solve solution p.hierarchy .plain s.solver with
  | (.ok (solution, _), solver) => pure { s with mpc := mpc, problem := p, solver := solver, solution := solution }
  | (.error e, _) => .error e

/-- The end of an iteration, test_009.cpp:108-109, regression_test_000_body.h:85-86; `f` is the machine after `shiftTime`. -/
noncomputable def PlainProgram.advance (nan : ℝ) (u : Memory) (s : PlainProgram σ) (f : FSM) : Res (PlainProgram σ) := do
  let (c, st) ← s.mpc.parseAndGetNextModelState nan u.parsing s.solution f s.model
  let m ← s.model.updateState st
  pure { s with fsm := f, mpc := c, model := m }

/-- An iteration, test_009.cpp:76-110, regression_test_000_body.h:69-87. The result `none` of the outer type: some loop in the machine is
still running after `fuel` iterations; the result `.ok none`: the loop is left. -/
noncomputable def PlainProgram.iterate (B : PlainSolver σ) (fuel : ℕ) (nan : ℝ) (T : ℕ) (u : Memory) (w : WalkParameters)
    (s : PlainProgram σ) : Option (Res (Option (PlainProgram σ))) :=
  match s.mpc.update fuel nan u.horizon u.matrices u.indices s.model s.fsm w with
  | none => none
  | some (.error e) => some (.error e)
  | some (.ok (mpc, .ok)) =>
    match s.solveProblem B u mpc with
    | .error e => some (.error e)
    | .ok s1 =>
      match FSM.shiftTime fuel s1.fsm T with
      | none => none
      | some (.error e) => some (.error e)
      | some (.ok f) => some (do
        let s2 ← s1.advance nan u f
        pure (some s2))
  | some (.ok (_, _)) => some (.ok none)

end Humoto.Wpg
