import Verif.Model.WpgPlain
import Verif.Spec.WpgHotstart

/-!
# What is expected of the walking program with other solvers
-/

namespace Humoto.Spec.Wpg

open Humoto.Wpg Humoto.Bridge

variable {σ : Type}

/-- The robot, the machine and the controller of the program. -/
def plainLoop (s : PlainProgram σ) : LoopState := ⟨s.model, s.fsm, s.mpc⟩

/-- The beginning: the objects of the loop of control at the beginning of a walk, a hierarchy which was set up, a solver with default
parameters. The solution and the memory of the solver are arbitrary. -/
structure PlainStart (p : FSMParams) (q : MPCParameters) (o : ProblemSetup) (s : PlainProgram σ) : Prop where
  loop : LoopStart p q (plainLoop s)
  problem : ∃ P, setupHierarchy o P = .ok s.problem
  solver : s.solver.params = SolverParameters.default

/-- An iteration ends with the given outcome: `.ok none` if the loop is left. -/
def PlainReturns (B : PlainSolver σ) (nan : ℝ) (T : ℕ) (u : Memory) (w : WalkParameters) (s : PlainProgram σ)
    (r : Res (Option (PlainProgram σ))) : Prop := ∃ fuel, s.iterate B fuel nan T u w = some r

/-- States of the program after `n` iterations, of which the iteration `i` has the parameters of the walk `w i`; what is in memory may be
different in each of them. -/
inductive PlainAfter (B : PlainSolver σ) (nan : ℝ) (T : ℕ) (w : ℕ → WalkParameters) (s : PlainProgram σ) : ℕ → PlainProgram σ → Prop
  | start : PlainAfter B nan T w s 0 s
  | step {n : ℕ} {a b : PlainProgram σ} {u : Memory} : PlainAfter B nan T w s n a → PlainReturns B nan T u (w n) a (.ok (some b)) →
      PlainAfter B nan T w s (n + 1) b

/-- What an iteration does: the controller is updated, the solution is the best of the motions which are allowed at this moment, the robot
moves as the beginning of this motion says. -/
structure GoodPlain (o : ProblemSetup) (nan : ℝ) (T : ℕ) (u : Memory) (w : WalkParameters) (s : PlainProgram σ) (mpc : Mpc) (st : ModelState)
    (s' : PlainProgram σ) : Prop where
  update : UpdateReturns nan u.horizon u.matrices u.indices s.model s.fsm w s.mpc (.ok (mpc, .ok))
  solution : SolutionFor mpc.horizon s'.solution
  best : BestMotion o mpc.horizon s.model 0 (ModerateSolution mpc.horizon) (Wpg.entries s'.solution)
  completes : Completes nan u.parsing T mpc s'.solution (plainLoop s) st (plainLoop s')

/-- QuadProg++ has been given arguments which describe the problem of the best motion, and it has not reported success. -/
def QuadProgFails (ext : QuadProgArgs ℝ → QuadProgStatus × List ℝ) (o : ProblemSetup) (H : Horizon) (model : Model) : Prop :=
  ∃ a, QuadProgSizes a (2 * H.intervals.n + 2 * H.variable_steps.length) ∧ (∀ x, QuadProgFeasible a x ↔ AllowedMotion o H model x) ∧
    (∀ x y c d, IsCost o H model x c → IsCost o H model y d →
      2 * ((quadratic a.G x / 2 + linear a.g0 x) - (quadratic a.G y / 2 + linear a.g0 y)) = c - d) ∧
    (ext a).1 ≠ .ok

/-- QuadProg++ solves all problems which have a solution. -/
def CompleteQuadProg (ext : QuadProgArgs ℝ → QuadProgStatus × List ℝ) : Prop :=
  ∀ a nv x, QuadProgSizes a nv → QuadProgFeasible a x →
    (∀ y, QuadProgFeasible a y → quadratic a.G x / 2 + linear a.g0 x ≤ quadratic a.G y / 2 + linear a.g0 y) → (ext a).1 = .ok

/-- qpmad has been given arguments which describe the problem of the best motion among the motions below the library infinity, and it has
not reported success. -/
def QpmadFails (ext : QpmadArgs ℝ → QpmadStatus × List ℝ) (o : ProblemSetup) (H : Horizon) (model : Model) : Prop :=
  ∃ a, QpmadSizes a (2 * H.intervals.n + 2 * H.variable_steps.length) ∧ (∀ x, QpmadFeasible a x → AllowedMotion o H model x) ∧
    (∀ x, AllowedMotion o H model x → ModerateSolution H x → QpmadFeasible a x) ∧
    (∀ x y c d, IsCost o H model x c → IsCost o H model y d →
      2 * ((lowerQuadratic a.H x / 2 + linear a.h x) - (lowerQuadratic a.H y / 2 + linear a.h y)) = c - d) ∧
    (ext a).1 ≠ .ok

/-- qpmad solves all problems which have a solution. -/
def CompleteQpmad (ext : QpmadArgs ℝ → QpmadStatus × List ℝ) : Prop :=
  ∀ a nv x, QpmadSizes a nv → QpmadFeasible a x →
    (∀ y, QpmadFeasible a y → lowerQuadratic a.H x / 2 + linear a.h x ≤ lowerQuadratic a.H y / 2 + linear a.h y) → (ext a).1 = .ok

/-- The matrix of the problem is positive definite without regularization. -/
def RegularSetup (o : ProblemSetup) : Prop := o.copPositionGain ≠ 0 ∧ o.copVelocityGain ≠ 0

end Humoto.Spec.Wpg
