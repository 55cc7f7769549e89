import Verif.Model.Bridges
import Verif.Model.Solver

/-!
# The solver which uses qpOASES, bridges/qpOASES/interface/qpoases/solver.h

The virtual methods together with the members of the object. qpOASES itself is a parameter.
-/

namespace Humoto.Bridge

variable {E K : Type}

/-- What is read from `qpOASES::QProblem` after `init`: the returned value, the primal solution (`getPrimalSolution`) and the working
sets (`getWorkingSetBounds`, `getWorkingSetConstraints`). -/
structure QpoasesAnswer (K : Type) where
  status : QpoasesStatus
  x : ℕ → K
  bounds : ℕ → K
  constraints : ℕ → K

/-- `qpOASES::QProblem::init`: the arguments, the guess of the solution, the guess of the active set (constraints and bounds); `none` is
a null pointer. Options, the limit on the number of iterations and the limit on time are not modelled: any answer may depend on them. -/
abbrev Qpoases (K : Type) := QpoasesArgs K → Option (ℕ → K) → Option (Vec Status × Vec Status) → QpoasesAnswer K

/-- Members of `qpoases::Solver`, qpOASES/solver.h:136-162: `qp_problem_`, `solution_guess_` (a pointer to a vector of another object),
the guess of the active set with the flag `active_set_guess_provided_`, and the results which are kept in `qp_`. -/
structure QpoasesMem (K : Type) where
  problem : QPObjective K × QPConstraintsILUALU K
  solutionGuess : Option (List K)
  activeSetGuess : Option (Vec Status × Vec Status)
  answer : Option (QpoasesAnswer K)

/-- `reset`, qpOASES/solver.h:474-488. -/
def QpoasesMem.reset (m : QpoasesMem K) : QpoasesMem K := ⟨m.problem, none, none, none⟩

section
variable [Field K] [LinearOrder K]

/-- `initialize`, qpOASES/solver.h:166-178. `z` and `zc` are the contents of uninitialised memory. After an exception the problem is in
an unknown state: here it is left as it was. -/
def QpoasesMem.initialize (z : ℕ → ℕ → K) (zc : Junk K) (P : Hierarchy E K) (nv : ℕ) (m : QpoasesMem K) : Res (QpoasesMem K) := do
  let q ← qpoasesInitialize z zc m.problem P nv
  pure ⟨q, none, none, none⟩

/-- `setActiveSet`, qpOASES/solver.h:404-463. -/
def QpoasesMem.setActiveSet (a : ActiveSetH) (m : QpoasesMem K) : Res (QpoasesMem K) := do
  let g ← Bridge.setActiveSet m.problem.2 a
  pure { m with activeSetGuess := some g }

/-- `solveHierarchy`, qpOASES/solver.h:182-291: the guesses are dropped at the end (289-290). The solver reads as many numbers from the
guess of the solution as there are variables. -/
def QpoasesMem.solve (ext : Qpoases K) (sol : Solution K) (m : QpoasesMem K) : Res (Solution K × QpoasesMem K) := do
  require (∀ g ∈ m.solutionGuess, sol.structure_.nvars ≤ g.length)
  let guess := m.solutionGuess.map fun g i => g.getD i 0
  let r := ext (qpoasesArgs sol.structure_.nvars m.problem) guess m.activeSetGuess
  let sol' ← qpoasesSolve (fun _ => (r.status, r.x)) m.problem sol
  pure (sol', ⟨m.problem, none, none, some r⟩)

/-- `getActiveSet`, qpOASES/solver.h:296-394: only after `solveHierarchy` there is a `qp_` with working sets. -/
def QpoasesMem.getActiveSet (P : Hierarchy E K) (m : QpoasesMem K) : Res ActiveSetH :=
  match m.answer with
  | none => .error .ub
  | some r => Bridge.getActiveSet m.problem.2 r.bounds r.constraints P

/-- A method which changes the members; they are left as they were by an exception. -/
def changing {σ α : Type} (f : σ → Res (α × σ)) : SM (SolverState σ) α := fun s =>
  match f s.mem with
  | .ok (a, m) => (.ok a, { s with mem := m })
  | .error e => (.error e, s)

/-- `qpoases::Solver`, qpOASES/solver.h:134-489, with `QPSolverMixin`, core/include/humoto/solver.h:460-490. -/
def qpoasesBackend (ext : Qpoases K) (z : ℕ → ℕ → K) (zc : Junk K) : Backend (Hierarchy E K) ActiveSetH K (QpoasesMem K) where
  checkInputs P := fun s => (qpCheckInputs s.params P, s)
  init P str := changing fun m => do
    let m ← m.initialize z zc P str.nvars
    pure ((), m)
  setSolutionGuess g := changing fun m => pure ((), { m with solutionGuess := some g.x })
  setActiveSet a _ := changing fun m => do
    let m ← m.setActiveSet a
    pure ((), m)
  solveHierarchy sol _ := changing fun m => m.solve ext sol
  getActiveSet P := fun s => (s.mem.getActiveSet P, s)

end

end Humoto.Bridge
