import Verif.Model.Level
import Verif.Model.Solution

/-!
# Predefined tasks, core/include/humoto/task_generic.h
-/

namespace Humoto

variable {K : Type}

/-- Members of `TaskZeroVariables`, task_generic.h:34-37, and the gain of its parent class, task.h:393. -/
structure ZeroVariables (K : Type) where
  location : Location
  variables_id : String
  gain : K

namespace ZeroVariables

/-- Constructor, task_generic.h:59-68. -/
def make (gain : K) (id : String) : ZeroVariables K := ⟨⟨0, 0⟩, id, gain⟩

/-- `setVariablesID`, task_generic.h:46-49. -/
def setVariablesID (t : ZeroVariables K) (id : String) : ZeroVariables K := { t with variables_id := id }

/-- `setGain`, task.h:452-455; the entry `gain` of a configuration (task.h:399) does the same. -/
def setGain (t : ZeroVariables K) (gain : K) : ZeroVariables K := { t with gain := gain }

/-- The location of the variables, task_generic.h:82-91. -/
def locate (t : ZeroVariables K) (s : SolutionStructure) : Location :=
  if t.variables_id.length = 0 then ⟨0, s.nvars⟩ else s.location t.variables_id

/-- `form`, task_generic.h:78-118: the members, the constraints, and whether `markAsUnmodified` is called. -/
def form (t : ZeroVariables K) (s : SolutionStructure) (d : CtrData K) : ZeroVariables K × CtrData K × Bool :=
  let l := t.locate s
  if l ≠ t.location then
    ({ t with location := l }, { d with gains := ⟨l.length, fun _ => t.gain⟩, idx := ⟨l.length, fun i => l.offset + i⟩ }, false)
  else (t, d, true)

end ZeroVariables

/-- `TaskZeroSelectedVariables::form`, task_generic.h:163-171. -/
def zeroSelected (indices : Vec ℕ) (gain : K) (d : CtrData K) : CtrData K :=
  { d with idx := indices, gains := ⟨indices.n, fun _ => gain⟩ }

/-- `TaskInfeasibleInequality::form`, task_generic.h:208-232: `number_of_variables_`, the constraints, and whether `markAsUnmodified`
is called. -/
def infeasibleForm [One K] [Neg K] (number_of_variables : ℕ) (s : SolutionStructure) (d : CtrData K) : ℕ × CtrData K × Bool :=
  if number_of_variables ≠ s.nvars then
    (s.nvars, { d with A := ⟨1, s.nvars, fun _ _ => 1⟩, lb := ⟨1, fun _ => 1⟩, ub := ⟨1, fun _ => -1⟩ }, false)
  else (number_of_variables, d, true)

end Humoto
