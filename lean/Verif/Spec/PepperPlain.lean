import Verif.Model.PepperPlain
import Verif.Spec.PepperHotstart
import Verif.Spec.WpgPlain

/-!
# What is expected from the programs of Pepper with other solvers
-/

namespace Humoto.Spec

open Pepper Bridge

/-- No guesses; an iteration advances by the subsampling time or by the sampling time. -/
def plainKind (sub : Bool) : ProgramKind := ⟨false, false, sub⟩

variable {σ : Type}

/-- The beginning: a robot with symmetric bounds on the position of the body, whose masses do not cancel, the motion to be made, a new
controller, a hierarchy which was set up, a solver with default parameters. The solution and the memory of the solver are arbitrary. -/
structure PepperPlainStart (q : MPCParameters) (o : ProblemSetup ℝ) (m : MotionParameters ℝ) (s : Pepper.PlainProgram σ) : Prop where
  masses : s.model.state.base_mass + s.model.state.body_mass ≠ 0
  symmetric : ∀ a, s.model.robot_parameters.body_bounds a 0 = -s.model.robot_parameters.body_bounds a 1
  motion : s.motion = m
  proper : ProperMotion m
  controller : s.mpc = Mpc.make q
  problem : ∃ P, setupHierarchy o P = .ok s.problem
  solver : s.solver.params = SolverParameters.default

/-- States of the program after `n` iterations; what is in memory is different in each of them. -/
inductive PepperPlainAfter (sub : Bool) (B : Pepper.PlainSolver σ) (tr : Trig ℝ) (s : Pepper.PlainProgram σ) : ℕ → Pepper.PlainProgram σ → Prop
  | start : PepperPlainAfter sub B tr s 0 s
  | step {n : ℕ} {a b : Pepper.PlainProgram σ} {u : Memory ℝ} : PepperPlainAfter sub B tr s n a → a.iterate sub B tr u = .ok (some b) →
      PepperPlainAfter sub B tr s (n + 1) b

/-- What an iteration does: the controller is updated for what remains of the motion, the solution is the best of the motions which are
allowed at this moment, the robot moves as the beginning of this motion says. -/
structure PepperPlainIteration (sub : Bool) (tr : Trig ℝ) (q : MPCParameters) (o : ProblemSetup ℝ) (u : Memory ℝ) (s : Pepper.PlainProgram σ)
    (mpc : Mpc ℝ) (s' : Pepper.PlainProgram σ) : Prop where
  update : s.mpc.update u.matrices tr u.horizon s.motion s.model = .ok (mpc, .ok)
  horizon : HorizonFor tr q s.model [s.motion] mpc.intervals
  size : s'.solution.x.length = 4 * mpc.intervals.length
  best : PepperBest o mpc.intervals s.model.getMPCState 0 (PepperModerate mpc.intervals) (entries s'.solution.x)
  moves : ∃ iv, mpc.intervals[0]? = some iv ∧ StateWithin iv (s.model.state.base_state.rpy 2) (((plainKind sub).step q : ℝ) / 1000)
    s.model.getMPCState (controlAt mpc.intervals.length (entries s'.solution.x) 0) s'.model.state
  robot : s'.model.robot_parameters = s.model.robot_parameters
  motion : s'.motion = remainingMotion s.motion ((plainKind sub).step q)

/-- QuadProg++ has been given arguments which describe the problem of the best motion, and it has not reported success. -/
def PepperQuadProgFails (ext : QuadProgArgs ℝ → QuadProgStatus × List ℝ) (o : ProblemSetup ℝ) (intervals : List (Interval ℝ)) (x0 : Vec ℝ) :
    Prop :=
  ∃ a, QuadProgSizes a (4 * intervals.length) ∧ (∀ x, QuadProgFeasible a x ↔ PepperFeasible intervals x0 x) ∧
    (∀ x y X Y, Simulates intervals x0 x X → Simulates intervals x0 y Y →
      2 * ((quadratic a.G x / 2 + linear a.g0 x) - (quadratic a.G y / 2 + linear a.g0 y)) =
        pepperCost o intervals X - pepperCost o intervals Y) ∧
    (ext a).1 ≠ .ok

/-- qpmad has been given arguments which describe the problem of the best motion among the motions below the library infinity, and it has
not reported success. -/
def PepperQpmadFails (ext : QpmadArgs ℝ → QpmadStatus × List ℝ) (o : ProblemSetup ℝ) (intervals : List (Interval ℝ)) (x0 : Vec ℝ) : Prop :=
  ∃ a, QpmadSizes a (4 * intervals.length) ∧ (∀ x, QpmadFeasible a x → PepperFeasible intervals x0 x) ∧
    (∀ x, PepperFeasible intervals x0 x → PepperModerate intervals x → QpmadFeasible a x) ∧
    (∀ x y X Y, Simulates intervals x0 x X → Simulates intervals x0 y Y →
      2 * ((lowerQuadratic a.H x / 2 + linear a.h x) - (lowerQuadratic a.H y / 2 + linear a.h y)) =
        pepperCost o intervals X - pepperCost o intervals Y) ∧
    (ext a).1 ≠ .ok

end Humoto.Spec
