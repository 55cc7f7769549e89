import Verif.Model.WpgProgram
import Verif.Spec.WpgLoop
import Verif.Spec.WpgProblem
import Verif.Spec.QpoasesSolver

/-!
# What is expected from the walking program
-/

namespace Humoto.Spec.Wpg

open Humoto.Wpg Humoto.Bridge

/-- The robot, the machine and the controller of the program. -/
def loopOf (s : Program) : LoopState := ⟨s.model, s.fsm, s.mpc⟩

/-- The beginning: the objects of the loop of control at the beginning of a walk, a hierarchy which was set up, a solver with default
parameters, an empty old solution. The other solutions and the memory of the solver are arbitrary. -/
structure ProgramStart (p : FSMParams) (q : MPCParameters) (o : ProblemSetup) (s : Program) : Prop where
  loop : LoopStart p q (loopOf s)
  problem : ∃ P, setupHierarchy o P = .ok s.problem
  solver : s.solver.params = SolverParameters.default
  old : s.oldSolution.structure_ = .empty

/-- An iteration of the program ends with the given outcome: `.ok none` if the loop is left. -/
def IterationReturns (ext : Qpoases ℝ) (nan : ℝ) (T : ℕ) (u : Memory) (w : WalkParameters) (s : Program)
    (r : Res (Option Program)) : Prop := ∃ fuel, s.iterate ext fuel nan T u w = some r

/-- The program ends with the given outcome. -/
def ProgramReturns (ext : Qpoases ℝ) (nan : ℝ) (T : ℕ) (u : ℕ → Memory) (w : WalkParameters) (s : Program)
    (r : Res (Program × ℕ)) : Prop := ∃ fuel left, s.run ext fuel nan T u w left = some r

/-- States of the program after `n` iterations; what is in memory and the parameters of the walk may be different in each of them. -/
inductive ProgramAfter (ext : Qpoases ℝ) (nan : ℝ) (T : ℕ) (s : Program) : ℕ → Program → Prop
  | start : ProgramAfter ext nan T s 0 s
  | step {n : ℕ} {a b : Program} {u : Memory} {w : WalkParameters} : ProgramAfter ext nan T s n a →
      IterationReturns ext nan T u w a (.ok (some b)) → ProgramAfter ext nan T s (n + 1) b

/-- What an iteration does: the controller is updated, the solution is the best of the motions which are allowed at this moment, the robot
moves as the beginning of this motion says. -/
structure GoodIteration (o : ProblemSetup) (nan : ℝ) (T : ℕ) (u : Memory) (w : WalkParameters) (s : Program) (mpc : Mpc) (st : ModelState)
    (s' : Program) : Prop where
  update : UpdateReturns nan u.horizon u.matrices u.indices s.model s.fsm w s.mpc (.ok (mpc, .ok))
  solution : SolutionFor mpc.horizon s'.solution
  best : BestMotion o mpc.horizon s.model 0 (ModerateSolution mpc.horizon) (entries s'.solution)
  completes : Completes nan u.parsing T mpc s'.solution (loopOf s) st (loopOf s')

/-- qpOASES has been given arguments which describe the problem of the best motion, with bounds on all variables, and it has not reported
success. -/
def SolverFails (ext : Qpoases ℝ) (o : ProblemSetup) (H : Horizon) (model : Model) : Prop :=
  ∃ a g s, QpoasesDescribes a (2 * H.intervals.n + 2 * H.variable_steps.length) (AllowedMotion o H model) (ModerateSolution H)
    (IsCost o H model) True ∧ (ext a g s).status ≠ .successfulReturn

/-- Why the program was stopped by an exception: at some iteration either there was no allowed motion or qpOASES has failed. -/
def Stopped (ext : Qpoases ℝ) (o : ProblemSetup) (nan : ℝ) (T : ℕ) (w : WalkParameters) (s0 : Program) (u : ℕ → Memory) : Prop :=
  ∃ n s mpc, ProgramAfter ext nan T s0 n s ∧
    UpdateReturns nan (u n).horizon (u n).matrices (u n).indices s.model s.fsm w s.mpc (.ok (mpc, .ok)) ∧
    ((∀ x, ModerateSolution mpc.horizon x → ¬ AllowedMotion o mpc.horizon s.model x) ∨ SolverFails ext o mpc.horizon s.model)

/-- The number of iterations: those which begin while the rest of the walk covers the horizon. -/
def iterations (p : FSMParams) (N T : ℕ) : ℕ := (walkMs p + T - N * T) / T

/-- Ordered parameters of the feet, below the library infinity. -/
structure SaneFeet (p : FootParameters ℝ) : Prop where
  step : 0 ≤ p.maxStepLen ∧ p.maxStepLen ≤ 10 ^ 20
  distances : p.minFeetDist ≤ p.maxFeetDist ∧ -10 ^ 20 ≤ p.minFeetDist ∧ p.maxFeetDist ≤ 10 ^ 20
  default : 0 ≤ p.feetDistDefault ∧ p.feetDistDefault ≤ 10 ^ 20
  size : 0 ≤ p.footLength ∧ 0 ≤ p.footWidth

end Humoto.Spec.Wpg
