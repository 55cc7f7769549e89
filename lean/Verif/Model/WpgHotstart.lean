import Verif.Model.WpgProgram

/-!
# Measuring the walking program: modules/wpg04/tests/test_006_body.h, core/tests_include/solver_performance_test.h

The same loop as in test_000.cpp, with four ways to start the solver. Only qpOASES is modelled; the second instance of the test, with LexLS,
is not. The progress dots and the log are not modelled.
-/

namespace Humoto.Wpg

open Bridge

/-- What is given to the solver besides the problem: `SolverPerformanceNoHotstarting`, test_006_body.h:57-92,
`SolverPerformanceActiveSetGuess`, 96-136, `SolverPerformanceActiveSetAndSolutionGuess`, 139-183, `SolverPerformanceSolutionGuess`,
186-226. -/
structure Hotstart where
  activeSet : Bool
  solution : Bool

/-- The overload of `solve`, test_006_body.h:80, 122, 168, 212. -/
def Hotstart.entry (v : Hotstart) (g : Solution ℝ) (a : ActiveSetH) : Entry ActiveSetH ℝ :=
  if v.activeSet then (if v.solution then .guessActiveSetInOut g a else .activeSetInOut a)
  else if v.solution then .guess g else .plain

/-- The overload of `OptimizationProblem::form`, hierarchy.h:106-111, 122-129, 142-152, 164-172; test_006_body.h:75, 117, 163, 207. -/
def Problem.formFor (v : Hotstart) (u : Memory) (p : Problem) (solution guess old : Solution ℝ) (model : Model) (mpc : Mpc) :
    Res (Problem × Solution ℝ × Solution ℝ × ActiveSetH) := do
  let solution ← initSolutionStructure mpc.matrices.solution solution u.solution
  let p ← p.form u.tasks u.taskIndices v.activeSet model mpc
  let guess ← (if v.solution then mpc.guessSolution guess old else pure guess)
  let a ← (if v.activeSet then p.hierarchy.guessActiveSet else pure [])
  pure (p, solution, guess, a)

/-- Forming and solving, test_006_body.h:74-81, 116-125, 162-172, 206-215. -/
noncomputable def Program.solveAs (v : Hotstart) (ext : Qpoases ℝ) (u : Memory) (s : Program) (mpc : Mpc) : Res Program := do
  let (p, solution, guess, a) ← s.problem.formFor v u s.solution s.solutionGuess s.oldSolution s.model mpc
  match (qpoasesBackend ext u.objective u.constraints).solve solution p.hierarchy (v.entry guess a) s.solver with
  | (.ok (solution, actual), solver) => do
    let p ← (match actual with
      | some b => p.processActiveSet b
      | none => pure p)
    pure { s with
      mpc := mpc
      problem := p
      solver := solver
      solution := solution
      oldSolution := if v.solution then solution else s.oldSolution
      solutionGuess := guess }
  | (.error e, _) => .error e

/-- An iteration, test_006_body.h:64-90, 106-134, 152-181, 196-224. The result `none` of the outer type: some loop in the machine is still
running after `fuel` iterations; the result `.ok none`: the loop is left. -/
noncomputable def Program.iterateAs (v : Hotstart) (ext : Qpoases ℝ) (fuel : ℕ) (nan : ℝ) (T : ℕ) (u : Memory) (w : WalkParameters)
    (s : Program) : Option (Res (Option Program)) :=
  match s.mpc.update fuel nan u.horizon u.matrices u.indices s.model s.fsm w with
  | none => none
  | some (.error e) => some (.error e)
  | some (.ok (mpc, .ok)) =>
    match s.solveAs v ext u mpc with
    | .error e => some (.error e)
    | .ok s1 =>
      match FSM.shiftTime fuel s1.fsm T with
      | none => none
      | some (.error e) => some (.error e)
      | some (.ok f) => some (do
        let s2 ← s1.advance nan u f
        pure (some s2))
  | some (.ok (_, _)) => some (.ok none)

/-- `run`, test_006_body.h:60-91, 99-135, 142-182, 189-225: at most `left` iterations. The result is the last state of the objects and the
measures, one for each completed iteration; `clock i` is what the timers show in the iteration `i`. -/
noncomputable def Program.runAs (v : Hotstart) (ext : Qpoases ℝ) (fuel : ℕ) (nan : ℝ) (T : ℕ) (u : ℕ → Memory) (w : WalkParameters)
    (clock : ℕ → Fin 3 → ℝ) : ℕ → Program → Option (Res (Program × List (Fin 3 → ℝ)))
  | 0, _ => none
  | left + 1, s =>
    match s.iterateAs v ext fuel nan T (u 0) w with
    | none => none
    | some (.error e) => some (.error e)
    | some (.ok none) => some (.ok (s, []))
    | some (.ok (some s')) =>
      match Program.runAs v ext fuel nan T (fun i => u (i + 1)) w (fun i => clock (i + 1)) left s' with
      | none => none
      | some (.error e) => some (.error e)
      | some (.ok (r, l)) => some (.ok (r, clock 0 :: l))

/-- The matrix `all_measures[i]`, solver_performance_test.h:50-54: one column for each measure. -/
def measureMatrix (l : List (Fin 3 → ℝ)) : Mat ℝ := ⟨3, l.length, fun r c => if h : r < 3 then (l.getD c 0) ⟨r, h⟩ else 0⟩

/-- `all_measures_sum += all_measures[i]`, solver_performance_test.h:63: Eigen requires equal sizes. -/
def addMeasures (a b : Mat ℝ) : Res (Mat ℝ) := do
  require (a.rows = b.rows ∧ a.cols = b.cols)
  pure ⟨a.rows, a.cols, fun r c => a.e r c + b.e r c⟩

/-- The averages, solver_performance_test.h:60-71: the rows are logged. -/
noncomputable def averageMeasures (all : List (Mat ℝ)) : Res (Mat ℝ) :=
  match all with
  | [] => .error .ub
  | first :: rest => do
    let sum ← rest.foldlM addMeasures first
    pure ⟨sum.rows, sum.cols, fun r c => 1 / (all.length : ℝ) * sum.e r c⟩

/-- The loop over the simulations, solver_performance_test.h:41-57: `run i` is the outcome of `single_run.run(measures)` in the simulation
`i`. -/
noncomputable def allMeasures (run : ℕ → Option (Res (Program × List (Fin 3 → ℝ)))) : (n i : ℕ) → Option (Res (List (Mat ℝ)))
  | 0, _ => some (.ok [])
  | n + 1, i =>
    match run i with
    | none => none
    | some (.error e) => some (.error e)
    | some (.ok (_, l)) =>
      match allMeasures run n (i + 1) with
      | none => none
      | some (.error e) => some (.error e)
      | some (.ok all) => some (.ok (measureMatrix l :: all))

/-- `SolverPerformanceMultiRun::run`, solver_performance_test.h:33-74. -/
noncomputable def multiRun (run : ℕ → Option (Res (Program × List (Fin 3 → ℝ)))) (n : ℕ) : Option (Res (Mat ℝ)) :=
  match allMeasures run n 0 with
  | none => none
  | some (.error e) => some (.error e)
  | some (.ok all) => some (averageMeasures all)

end Humoto.Wpg
