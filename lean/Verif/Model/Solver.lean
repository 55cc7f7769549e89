import Verif.Model.Level
import Verif.Model.Solution

/-!
# Solver interface, core/include/humoto/solver.h

The methods which a particular solver implements (`initialize`, `solveHierarchy`, `setSolutionGuess`, `setActiveSet`,
`getActiveSet`) are parameters; what is modelled is the order in which the entry points call them, the checks, and the
parameters which survive from call to call.
-/

namespace Humoto

/-- A computation which changes a state and may throw; the changes which were made before the exception are kept. -/
def SM (σ α : Type) := σ → Res α × σ

namespace SM

variable {σ α β : Type}

/-- `return`. -/
def ret (a : α) : SM σ α := fun s => (.ok a, s)

/-- Sequence; an exception skips the rest. -/
def andThen (m : SM σ α) (f : α → SM σ β) : SM σ β := fun s =>
  match m s with
  | (.ok a, s') => f a s'
  | (.error e, s') => (.error e, s')

instance : Monad (SM σ) where
  pure := ret
  bind := andThen

/-- A computation which does not touch the state. -/
def lift (r : Res α) : SM σ α := fun s => (r, s)

theorem pure_apply (a : α) (s : σ) : (pure a : SM σ α) s = (.ok a, s) := rfl

theorem bind_apply (m : SM σ α) (f : α → SM σ β) (s : σ) :
    (m >>= f) s = match m s with
      | (.ok a, s') => f a s'
      | (.error e, s') => (.error e, s') := rfl

end SM

/-- `SolverParametersBase`, solver.h:17-53. -/
structure SolverParameters where
  crashOnAnyFailure : Bool
  solveTwoLevelsAsQp : Bool
  deriving DecidableEq, Repr

/-- `setDefaults`, solver.h:28-32. -/
def SolverParameters.default : SolverParameters := ⟨true, true⟩

/-- State of a solver: the parameters and whatever a particular solver stores. -/
structure SolverState (σ : Type) where
  params : SolverParameters
  mem : σ

/-- The virtual methods of a solver. `H` stands for the hierarchy, `AS` for active sets. -/
structure Backend (H AS K σ : Type) where
  /-- `checkInputs`, solver.h:102-104. -/
  checkInputs : H → SM (SolverState σ) Unit
  /-- `initialize`, solver.h:121-122. -/
  init : H → SolutionStructure → SM (SolverState σ) Unit
  /-- `setSolutionGuess`, solver.h:215. -/
  setSolutionGuess : Solution K → SM (SolverState σ) Unit
  /-- `setActiveSet`, solver.h:272-273. -/
  setActiveSet : AS → H → SM (SolverState σ) Unit
  /-- `solveHierarchy`, solver.h:130-131; returns the changed solution. -/
  solveHierarchy : Solution K → H → SM (SolverState σ) (Solution K)
  /-- `getActiveSet`, solver.h:281-282. -/
  getActiveSet : H → SM (SolverState σ) AS

/-- The overloads of `solve` with their arguments. -/
inductive Entry (AS K : Type)
  /-- solver.h:155-162 -/
  | plain
  /-- solver.h:173-183 -/
  | params (p : SolverParameters)
  /-- solver.h:230-239 -/
  | guess (g : Solution K)
  /-- solver.h:297-308 -/
  | activeSetInOut (a : AS)
  /-- solver.h:319-328 -/
  | activeSetIn (a : AS)
  /-- solver.h:339-348 -/
  | activeSetOut
  /-- solver.h:393-406 -/
  | guessActiveSetInOut (g : Solution K) (a : AS)
  /-- solver.h:418-429 -/
  | guessActiveSetIn (g : Solution K) (a : AS)
  /-- solver.h:441-452 -/
  | guessActiveSetOut (g : Solution K)

namespace Backend

variable {H AS K σ : Type}

/-- `checkResults`, solver.h:85-93. -/
def checkResults (sol : Solution K) : SM (SolverState σ) Unit := fun s =>
  if s.params.crashOnAnyFailure = true ∧ sol.status ≠ .ok then (.error .thrown, s) else (.ok (), s)

/-- `parameters_ = parameters`, solver.h:177. -/
def setParams (p : SolverParameters) : SM (SolverState σ) Unit := fun s => (.ok (), { s with params := p })

/-- The overloads of `solve`. The first component of the result is the solution, the second one is the active set which
is handed out, if any. -/
def solve (B : Backend H AS K σ) (sol : Solution K) (h : H) : Entry AS K → SM (SolverState σ) (Solution K × Option AS)
  | .plain => do
    B.checkInputs h
    B.init h sol.structure_
    let sol' ← B.solveHierarchy sol h
    checkResults sol'
    pure (sol', none)
  | .params p => do
    setParams p
    B.checkInputs h
    B.init h sol.structure_
    let sol' ← B.solveHierarchy sol h
    checkResults sol'
    pure (sol', none)
  | .guess g => do
    B.checkInputs h
    B.init h sol.structure_
    B.setSolutionGuess g
    let sol' ← B.solveHierarchy sol h
    checkResults sol'
    pure (sol', none)
  | .activeSetInOut a => do
    B.checkInputs h
    B.init h sol.structure_
    B.setActiveSet a h
    let sol' ← B.solveHierarchy sol h
    checkResults sol'
    let a' ← B.getActiveSet h
    pure (sol', some a')
  | .activeSetIn a => do
    B.checkInputs h
    B.init h sol.structure_
    B.setActiveSet a h
    let sol' ← B.solveHierarchy sol h
    checkResults sol'
    pure (sol', none)
  | .activeSetOut => do
    B.checkInputs h
    B.init h sol.structure_
    let sol' ← B.solveHierarchy sol h
    checkResults sol'
    let a' ← B.getActiveSet h
    pure (sol', some a')
  | .guessActiveSetInOut g a => do
    B.checkInputs h
    B.init h sol.structure_
    B.setSolutionGuess g
    B.setActiveSet a h
    let sol' ← B.solveHierarchy sol h
    checkResults sol'
    let a' ← B.getActiveSet h
    pure (sol', some a')
  | .guessActiveSetIn g a => do
    B.checkInputs h
    B.init h sol.structure_
    B.setSolutionGuess g
    B.setActiveSet a h
    let sol' ← B.solveHierarchy sol h
    checkResults sol'
    pure (sol', none)
  | .guessActiveSetOut g => do
    B.checkInputs h
    B.init h sol.structure_
    B.setSolutionGuess g
    let sol' ← B.solveHierarchy sol h
    checkResults sol'
    let a' ← B.getActiveSet h
    pure (sol', some a')

end Backend

/-- `QPSolverMixin::checkInputs`, solver.h:469-487. -/
def qpCheckInputs {E K : Type} (p : SolverParameters) (P : Hierarchy E K) : Res Unit := do
  assertThat (p.solveTwoLevelsAsQp = true)
  assertThat (P.levels.length ≤ 2 ∧ P.levels.length ≥ 1)
  match P.levels[P.levels.length - 1]? with
  | none => .error .ub
  | some L => do
    assertThat (L.isEquality = true)
    assertThat (L.nConstraints > 0)

end Humoto
