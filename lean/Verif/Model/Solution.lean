import Verif.Model.ActiveSet

/-!
# Solution structure and solution, core/include/humoto/solution.h
-/

namespace Humoto

/-- `SolverStatus::Status`, solution.h:20-26. -/
inductive SolverStatus
  | undefined
  | ok
  | maxIter
  | other
  deriving DecidableEq, Repr

/-- `SolutionStructure`, solution.h:33-37. The `std::map` is a list of pairs with distinct keys; the order of the list is
not the order of iteration (see `Solution.initializeFrom`). -/
structure SolutionStructure where
  nvars : ℕ
  parts : List (String × Location)
  deriving DecidableEq, Repr

namespace SolutionStructure

/-- `reset`, solution.h:59-63, and the constructor, solution.h:50-53. -/
def empty : SolutionStructure := ⟨0, []⟩

/-- `std::map::find`. -/
def find (s : SolutionStructure) (id : String) : Option Location := s.parts.lookup id

/-- `addSolutionPart`, solution.h:72-80. `std::map::insert` does nothing if the key is there already. -/
def add (s : SolutionStructure) (id : String) (length : ℕ) : SolutionStructure :=
  let l : Location := ⟨s.nvars, length⟩
  match s.find id with
  | none => ⟨s.nvars + length, s.parts ++ [(id, l)]⟩
  | some _ => ⟨s.nvars + length, s.parts⟩

/-- `isNonEmpty`, solution.h:88-98. -/
def isNonEmpty (s : SolutionStructure) : Bool := if s.parts.length = 0 then false else true

/-- `getSolutionPartLocation`, solution.h:122-136. -/
def location (s : SolutionStructure) (id : String) : Location :=
  match s.find id with
  | none => ⟨0, 0⟩
  | some l => l

/-- A sequence of `addSolutionPart` calls. -/
def addAll (s : SolutionStructure) (adds : List (String × ℕ)) : SolutionStructure :=
  adds.foldl (fun s a => s.add a.1 a.2) s

end SolutionStructure

/-- `Solution`, solution.h:176-187. -/
structure Solution (K : Type) where
  structure_ : SolutionStructure
  x : List K
  status : SolverStatus
  deriving DecidableEq, Repr

namespace Solution

variable {K : Type}

/-- `initialize(sol_structure)`, solution.h:214-219. `x_.resize` keeps the values if the size does not change, otherwise
they are not initialised: `junk` stands for them. -/
def resize (sol : Solution K) (s : SolutionStructure) (junk : ℕ → K) : Solution K :=
  ⟨s, if sol.x.length = s.nvars then sol.x else (List.range s.nvars).map junk, sol.status⟩

/-- `initialize(sol_structure, value)`, solution.h:229-242. -/
def initializeValue (sol : Solution K) (s : SolutionStructure) (value : K) : Solution K :=
  ⟨s, List.replicate s.nvars value, sol.status⟩

/-- `getData`, solution.h:323-328. -/
def getData (sol : Solution K) (l : Location) : Res (List K) := do
  assertThat (l.checkLength sol.x.length = true)
  pure ((sol.x.drop l.offset).take l.length)

/-- `getData(location) = values`, solution.h:294-299 (the result is a reference into the vector). -/
def setData (sol : Solution K) (l : Location) (v : List K) : Res (Solution K) := do
  assertThat (l.checkLength sol.x.length = true)
  let x ← copyInto sol.x l.offset v
  pure { sol with x := x }

/-- `getSolutionPart`, solution.h:309-312. -/
def getPart (sol : Solution K) (id : String) : Res (List K) := sol.getData (sol.structure_.location id)

/-- Body of the loop in `initialize(sol_structure, old_solution)`, solution.h:261-268. -/
def copyPart (old : Solution K) (sol : Solution K) (p : String × Location) : Res (Solution K) :=
  let oldPart := old.structure_.location p.1
  if oldPart.length = p.2.length then do
    let v ← old.getData oldPart
    sol.setData p.2 v
  else pure sol

/-- `initialize(sol_structure, old_solution)`, solution.h:251-270. `order` is the order in which `std::map` is traversed: a
permutation of its entries. -/
def initializeFrom [Zero K] (sol : Solution K) (s : SolutionStructure) (order : List (String × Location))
    (old : Solution K) : Res (Solution K) :=
  order.foldlM (copyPart old) (sol.initializeValue s 0)

end Solution

/-- `ControlProblem::initSolutionStructure`, control_problem.h:64-69. -/
def initSolutionStructure {K : Type} (s : SolutionStructure) (sol : Solution K) (junk : ℕ → K) : Res (Solution K) := do
  assertThat (s.isNonEmpty = true)
  pure (sol.resize s junk)

end Humoto
