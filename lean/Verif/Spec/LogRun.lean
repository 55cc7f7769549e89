import Verif.Spec.LogTree
import Verif.Spec.WpgProgram
import Verif.Spec.PepperProgram

/-!
# Logs of programs which run: which objects are logged in an iteration
-/

namespace Humoto.LogTree.Spec

open Humoto.Wpg Humoto.Spec Humoto.Spec.Wpg Bridge

/-- In iteration `i` of the walking program the objects are logged after the problem was solved (modules/wpg04/tests/test_000.cpp:112-166);
the strings in tasks contain no apostrophes, active sets fit in memory. -/
def WalkLogged (ext : Qpoases ℝ) (nan : ℝ) (T : ℕ) (s0 : Wpg.Program) (i : ℕ) (x : WpgStep) : Prop :=
  (∃ a u w mpc, ProgramAfter ext nan T s0 i a ∧ UpdateReturns nan u.horizon u.matrices u.indices a.model a.fsm w a.mpc (.ok (mpc, .ok)) ∧
    a.solveProblem ext u mpc = .ok x.program) ∧
  (∀ i j, Plain (x.labels i j)) ∧ x.activeSetGuess.length < 2 ^ 64 ∧ x.activeSetActual.length < 2 ^ 64

/-- In iteration `i` of the program of Pepper the objects are logged after the problem was solved
(modules/pepper_mpc/tests/test_000.cpp:112-138). -/
def PepperLogged {K : Type} [Field K] [LinearOrder K] [IsStrictOrderedRing K] (v : Pepper.ProgramKind) (ext : Qpoases K) (tr : Pepper.Trig K)
    (s0 : Pepper.Program K) (i : ℕ) (x : MgStep K) : Prop :=
  (∃ a u mpc m, PepperAfter v ext tr s0 i a ∧ a.mpc.update u.matrices tr u.horizon a.motion a.model = .ok (mpc, .ok) ∧
    a.solveProblem v ext u mpc m = .ok x.program) ∧
  ∀ i j, Plain (x.labels i j)

end Humoto.LogTree.Spec
