import Verif.Model.PepperProblem
import Verif.Model.QpoasesSolver

/-!
# The programs of Pepper: modules/pepper_mpc/tests/test_000.cpp, modules/pepper_mpc/tests/test_001_body.h

Both programs use the same loop: the control problem is updated and the motion is shifted, the optimization problem is formed and solved with
qpOASES, the next state is computed. Reading of the configuration, logging and time measurement are not modelled.
-/

namespace Humoto.Pepper

open Bridge

variable {K : Type}

/-- Variants of the loop: whether the active set and the solution are guessed, and whether an iteration advances by the subsampling time.
The program test_000.cpp makes no guesses and advances by the sampling time. The four classes in test_001_body.h advance by the subsampling
time: `SolverPerformanceNoHotstarting` (lines 59-94) makes no guesses, `SolverPerformanceActiveSetGuess` (98-138),
`SolverPerformanceActiveSetAndSolutionGuess` (141-187), `SolverPerformanceSolutionGuess` (190-232). -/
structure ProgramKind where
  activeSet : Bool
  solution : Bool
  subsampling : Bool

/-- The time by which an iteration advances. -/
def ProgramKind.step (v : ProgramKind) (p : MPCParameters) : ℕ := if v.subsampling then p.subsampling_time_ms else p.sampling_time_ms

/-- Contents of memory which is not initialised: during the update of the control problem (`horizon`, `matrices`), during forming of the
problem (`solution`, `tasks`, `taskIndices`), and in the solver (`objective`, `constraints`). -/
structure Memory (K : Type) where
  horizon : Interval K
  matrices : ℕ → ℕ → ℕ → ℕ → K
  solution : ℕ → K
  tasks : ℕ → ℕ → ℕ → K
  taskIndices : ℕ → ℕ → ℕ
  objective : ℕ → ℕ → K
  constraints : Junk K

/-- The objects of the programs which survive from iteration to iteration, test_000.cpp:50-92, test_001_body.h:20-38. The active sets are
overwritten before they are read. -/
structure Program (K : Type) where
  model : Model K
  motion : MotionParameters K
  mpc : Mpc K
  problem : Problem K
  solver : SolverState (QpoasesMem K)
  solution : Solution K
  oldSolution : Solution K
  solutionGuess : Solution K

/-- The overload of `solve`: test_000.cpp:127, test_001_body.h:81, 124, 172, 218. -/
def ProgramKind.entry (v : ProgramKind) (g : Solution K) (a : ActiveSetH) : Entry ActiveSetH K :=
  if v.activeSet then (if v.solution then .guessActiveSetInOut g a else .activeSetInOut a)
  else if v.solution then .guess g else .plain

section
variable [Field K]

/-- `OptimizationProblem::form`, hierarchy.h:106-111, 122-129, 142-151, 163-171: the problem, the solution, the guess of the solution, the
guess of the active set. -/
def Problem.formFor (v : ProgramKind) (u : Memory K) (p : Problem K) (solution guess old : Solution K) (mpc : Mpc K) :
    Res (Problem K × Solution K × Solution K × ActiveSetH) := do
  let solution ← initSolutionStructure mpc.matrices.solution solution u.solution
  let p ← p.form u.tasks u.taskIndices v.activeSet mpc
  let guess ← (if v.solution then mpc.guessSolution guess old else pure guess)
  let a ← (if v.activeSet then p.hierarchy.guessActiveSet else pure [])
  pure (p, solution, guess, a)

variable [LinearOrder K]

/-- Forming and solving, test_000.cpp:123-127, test_001_body.h:75-81, 117-128, 165-176, 211-221; `mpc` is the updated control problem, `m`
are the shifted parameters of the motion. -/
def Program.solveProblem (v : ProgramKind) (ext : Qpoases K) (u : Memory K) (s : Program K) (mpc : Mpc K) (m : MotionParameters K) :
    Res (Program K) := do
  let (p, solution, guess, a) ← s.problem.formFor v u s.solution s.solutionGuess s.oldSolution mpc
  match (qpoasesBackend ext u.objective u.constraints).solve solution p.hierarchy (v.entry guess a) s.solver with
  | (.ok (solution, actual), solver) => do
    let p ← (match actual with
      | some b => p.processActiveSet b
      | none => pure p)
    pure { s with
      motion := m
      mpc := mpc
      problem := p
      solver := solver
      solution := solution
      oldSolution := if v.solution then solution else s.oldSolution
      solutionGuess := guess }
  | (.error e, _) => .error e

/-- The end of an iteration: test_000.cpp:143-144, or test_001_body.h:86-88, 131-133, 180-182, 225-227. -/
def Program.advance (v : ProgramKind) (s : Program K) : Res (Program K) := do
  let (c, st) ← (if v.subsampling then (do
      let c ← s.mpc.parseSolution s.solution
      let st ← c.getModelStateMs s.model c.parameters.subsampling_time_ms
      pure (c, st))
    else s.mpc.parseAndGetNextModelState s.solution s.model)
  pure { s with
    mpc := c
    model := s.model.updateState st }

/-- An iteration, test_000.cpp:108-145, test_001_body.h:65-92. The result `none`: the loop is left. -/
def Program.iterate (v : ProgramKind) (ext : Qpoases K) (tr : Trig K) (u : Memory K) (s : Program K) : Res (Option (Program K)) := do
  let (mpc, st, m) ← s.mpc.updateAndShift u.matrices tr u.horizon s.motion s.model (v.step s.mpc.parameters)
  if st = .ok then do
    let s1 ← s.solveProblem v ext u mpc m
    let s2 ← s1.advance v
    pure (some s2)
  else pure none

/-- The loop: at most `left` iterations; the memory is different in each of them. The result is the last state of the objects and the number
of completed iterations; the parameters of the motion are not used after the loop. -/
def Program.run (v : ProgramKind) (ext : Qpoases K) (tr : Trig K) (u : ℕ → Memory K) : ℕ → Program K → Option (Res (Program K × ℕ))
  | 0, _ => none
  | left + 1, s =>
    match s.iterate v ext tr (u 0) with
    | .error e => some (.error e)
    | .ok none => some (.ok (s, 0))
    | .ok (some s') =>
      match Program.run v ext tr (fun i => u (i + 1)) left s' with
      | none => none
      | some (.error e) => some (.error e)
      | some (.ok (r, n)) => some (.ok (r, n + 1))

end

end Humoto.Pepper
