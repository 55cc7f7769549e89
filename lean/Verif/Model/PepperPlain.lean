import Verif.Model.WpgPlain
import Verif.Model.PepperProgram

/-!
# The programs of Pepper with other solvers: modules/pepper_mpc/tests/regression_test_000_body.h, test_001_body.h

The loops without guesses, with QuadProg++ and with qpmad. The timers, the progress messages and the log are not modelled.
-/

namespace Humoto.Pepper

open Bridge

/-- A solver with the members `σ`; it reads uninitialised memory. -/
abbrev PlainSolver (σ : Type) := Memory ℝ → Backend (Hierarchy (ProblemEnv ℝ) ℝ) ActiveSetH ℝ σ

/-- The solver with the default regularization factor, QuadProgpp/solver.h:34-37. -/
noncomputable def quadprogSolver (ext : QuadProgArgs ℝ → QuadProgStatus × List ℝ) : PlainSolver (QPObjective ℝ × QPConstraintsABAL ℝ) :=
  fun u => quadprogBackend ext 0 u.objective u.constraints

/-- The solver with the default regularization factor, qpmad/solver.h:60-63. -/
noncomputable def qpmadSolver (ext : QpmadArgs ℝ → QpmadStatus × List ℝ) : PlainSolver (QPObjective ℝ × QPConstraintsILUALU ℝ) :=
  fun u => qpmadBackend ext 0 u.objective u.constraints

/-- The objects of the programs which survive from iteration to iteration, regression_test_000_body.h:49-70, test_001_body.h:20-38. -/
structure PlainProgram (σ : Type) where
  model : Model ℝ
  motion : MotionParameters ℝ
  mpc : Mpc ℝ
  problem : Problem ℝ
  solver : SolverState σ
  solution : Solution ℝ

variable {σ : Type}

/-- Forming and solving, regression_test_000_body.h:95-98, test_001_body.h:75-81; `form` without guesses is hierarchy.h:106-111. `mpc` is the
updated control problem, `m` are the shifted parameters of the motion. -/
noncomputable def PlainProgram.solveProblem (B : PlainSolver σ) (u : Memory ℝ) (s : PlainProgram σ) (mpc : Mpc ℝ) (m : MotionParameters ℝ) :
    Res (PlainProgram σ) := do
  let solution ← initSolutionStructure mpc.matrices.solution s.solution u.solution
  let p ← s.problem.form u.tasks u.taskIndices false mpc
  match (B u).solve solution p.hierarchy .plain s.solver with
  | (.ok (solution, _), solver) => pure { s with motion := m, mpc := mpc, problem := p, solver := solver, solution := solution }
  | (.error e, _) => .error e

/-- The end of an iteration: regression_test_000_body.h:101-102, or, if `sub`, test_001_body.h:86-88. -/
noncomputable def PlainProgram.advance (sub : Bool) (s : PlainProgram σ) : Res (PlainProgram σ) := do
  let (c, st) ← (if sub then (do
      let c ← s.mpc.parseSolution s.solution
      let st ← c.getModelStateMs s.model c.parameters.subsampling_time_ms
      pure (c, st))
    else s.mpc.parseAndGetNextModelState s.solution s.model)
  pure { s with
    mpc := c
    model := s.model.updateState st }

/-- An iteration, regression_test_000_body.h:86-103, or, if `sub`, test_001_body.h:65-92. The result `none`: the loop is left. -/
noncomputable def PlainProgram.iterate (sub : Bool) (B : PlainSolver σ) (tr : Trig ℝ) (u : Memory ℝ) (s : PlainProgram σ) :
    Res (Option (PlainProgram σ)) := do
  let (mpc, st, m) ← s.mpc.updateAndShift u.matrices tr u.horizon s.motion s.model
    (if sub then s.mpc.parameters.subsampling_time_ms else s.mpc.parameters.sampling_time_ms)
  if st = .ok then do
    let s1 ← s.solveProblem B u mpc m
    let s2 ← s1.advance sub
    pure (some s2)
  else pure none

end Humoto.Pepper
