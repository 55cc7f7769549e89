import Verif.Model.QpoasesSolver
import Verif.Spec.Bridges

/-!
# What is expected from the solver which uses qpOASES
-/

namespace Humoto.Spec

open Humoto Bridge

variable {E K : Type} [Field K] [LinearOrder K]

/-- The guess of the solution which is passed to an entry point. -/
def Entry.solutionGuess {AS : Type} : Entry AS K → Option (Solution K)
  | .guess g => some g
  | .guessActiveSetInOut g _ => some g
  | .guessActiveSetIn g _ => some g
  | .guessActiveSetOut g => some g
  | _ => none

/-- The guess of the active set. -/
def Entry.activeSetGuess {AS : Type} : Entry AS K → Option AS
  | .activeSetInOut a => some a
  | .activeSetIn a => some a
  | .guessActiveSetInOut _ a => some a
  | .guessActiveSetIn _ a => some a
  | _ => none

/-- The entry points which return an active set. -/
def Entry.returnsActiveSet {AS : Type} : Entry AS K → Bool
  | .activeSetInOut _ => true
  | .activeSetOut => true
  | .guessActiveSetInOut _ _ => true
  | .guessActiveSetOut _ => true
  | _ => false

/-- Parameters in use: they may be given together with the problem. -/
def Entry.parameters {AS : Type} (old : SolverParameters) : Entry AS K → SolverParameters
  | .params p => p
  | _ => old

/-- Guesses of the right size; there are no undefined entries in the active set of the first level. -/
structure GuessesFit (L0 : Level E K) (nv : ℕ) (e : Entry ActiveSetH K) : Prop where
  solution : ∀ g, Entry.solutionGuess e = some g → nv ≤ g.x.length
  active : ∀ a, Entry.activeSetGuess e = some a → ∃ c, a[0]? = some c ∧ c.length = L0.nConstraints ∧ ∀ x ∈ c, x ≠ .undefined

/-- What is trusted about qpOASES for any guesses: a successful return comes with an optimal point and with working sets which consist
of `-1`, `0` and `1`. -/
structure TrustedSolver (ext : Qpoases K) : Prop where
  optimal : ∀ g s, TrustedQpoases fun a => ((ext a g s).status, (ext a g s).x)
  bounds : ∀ a g s, (ext a g s).status = .successfulReturn → ∀ v, v < a.nV → WorkingValue ((ext a g s).bounds v)
  constraints : ∀ a g s, (ext a g s).status = .successfulReturn → ∀ i, i < a.nC → WorkingValue ((ext a g s).constraints i)

/-- Feasible problems with bounds on all variables are solved. -/
def CompleteSolver (ext : Qpoases K) : Prop :=
  ∀ a g s, QpoasesAccepts a → a.lb.isSome → a.ub.isSome → (∃ x, QpoasesFeasible a x) → (ext a g s).status = .successfulReturn

/-- The arguments describe the problem with the solutions `S`, of which those in `M` must not be lost, and with the costs `C`. If `B` holds,
then there are bounds on all variables. -/
structure QpoasesDescribes (a : QpoasesArgs K) (nv : ℕ) (S M : (ℕ → K) → Prop) (C : (ℕ → K) → K → Prop) (B : Prop) : Prop where
  size : a.nV = nv
  accepted : QpoasesAccepts a
  sound : ∀ x, QpoasesFeasible a x → S x
  complete : ∀ x, S x → M x → QpoasesFeasible a x
  cost : ∀ x y c d, C x c → C y d → 2 * (qpoasesObjective a x - qpoasesObjective a y) = c - d
  bounds : B → a.lb.isSome ∧ a.ub.isSome

/-- The answer to a hierarchy with the levels `L0` and `L1`. -/
structure SolverAnswer (L0 L1 : Level E K) (nv : ℕ) (sol sol' : Solution K) (withSet : Bool) (a : Option ActiveSetH) : Prop where
  structure_ : sol'.structure_ = sol.structure_
  size : sol'.x.length = nv
  status : sol'.status = .ok
  optimal : Optimal L0 L1.tasks nv 0 (Moderate L0 nv) (entries sol'.x)
  returned : a.isSome = withSet
  activeSet : ∀ s, a = some s → s.map List.length = [L0.nConstraints, L1.nConstraints] ∧ ∀ c ∈ s, ∀ x ∈ c, x ≠ .undefined

end Humoto.Spec
