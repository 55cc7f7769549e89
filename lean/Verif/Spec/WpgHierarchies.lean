import Verif.Model.WpgHierarchies
import Verif.Spec.WpgProblem
import Verif.Spec.WpgProgram
import Verif.Spec.QpoasesSolver

/-!
# What is expected of hierarchies which cannot be solved
-/

namespace Humoto.Spec.Wpg

open Humoto.Wpg Humoto.Bridge

/-- Problems which a program can have in its hands while no solution has been found: after a setup, and after forming for any controllers
which were updated successfully. Guesses are made always or never. -/
inductive UnsolvedAfter (guessing : Bool) (start : Problem) : Problem → Prop
  | setup : UnsolvedAfter guessing start start
  | form {p p' : Problem} {junk : ℕ → ℕ → ℕ → ℝ} {junkI : ℕ → ℕ → ℕ} {model : Model} {mpc : Mpc} : UnsolvedAfter guessing start p →
      Updated model mpc → p.form junk junkI guessing model mpc = .ok p' → UnsolvedAfter guessing start p'

/-- The solver throws an exception, whatever is in its memory. -/
def SolvingThrows (ext : Qpoases ℝ) (p : Problem) (sol : Solution ℝ) (e : Entry ActiveSetH ℝ) (s : SolverState (QpoasesMem ℝ)) : Prop :=
  ∀ z zc, ∃ s', (qpoasesBackend ext z zc).solve sol p.hierarchy e s = (.error .thrown, s')

/-- A solution of the size of the problem. -/
def SolutionSized (mpc : Mpc) (sol : Solution ℝ) : Prop :=
  sol.structure_.nvars = 2 * mpc.horizon.intervals.n + 2 * mpc.horizon.variable_steps.length ∧ sol.x.length = sol.structure_.nvars

/-- A new program with one of the hierarchies which cannot be solved. -/
structure UnsolvableStart (p : FSMParams) (q : MPCParameters) (o : ProblemSetup) (s : Program) : Prop where
  loop : LoopStart p q (loopOf s)
  problem : ∃ P, setupHierarchy3 o P = .ok s.problem ∨ setupHierarchy4 o P = .ok s.problem
  solver : s.solver.params = SolverParameters.default
  old : s.oldSolution.structure_ = .empty

end Humoto.Spec.Wpg
