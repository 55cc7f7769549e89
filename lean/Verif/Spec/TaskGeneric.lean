import Verif.Model.TaskGeneric
import Verif.Spec.Objective

/-!
# What predefined tasks are expected to do
-/

namespace Humoto.Spec

variable {K : Type}

/-- What a user can do with a task which penalises variables. -/
inductive ZeroOp (K : Type)
  | setGain (gain : K)
  | setVariablesID (id : String)
  | form (s : SolutionStructure)

/-- Effect of an operation on the task and its constraints. -/
def ZeroOp.apply (y : ZeroVariables K × CtrData K) : ZeroOp K → ZeroVariables K × CtrData K
  | .setGain g => (y.1.setGain g, y.2)
  | .setVariablesID id => (y.1.setVariablesID id, y.2)
  | .form s => ((y.1.form s y.2).1, (y.1.form s y.2).2.1)

/-- Effect of a history. -/
def afterOps (y : ZeroVariables K × CtrData K) (ops : List (ZeroOp K)) : ZeroVariables K × CtrData K := ops.foldl ZeroOp.apply y

/-- The variables which are meant by an id: those of the part with this id, no variables if there is no such part, all variables if the
id is empty. -/
def Means (s : SolutionStructure) (id : String) (v : ℕ) : Prop :=
  if id = "" then v < s.nvars else ∃ l, s.find id = some l ∧ l.offset ≤ v ∧ v < l.offset + l.length

/-- The task penalises exactly the given variables with the given gain: each of them has one row, whose residual is the gain times the
variable. -/
structure Penalises [Field K] (c : Ctr K) (V : ℕ → Prop) (gain : K) : Prop where
  only : ∀ i < rows c, ∃ v, V v ∧ ∀ x, lhs c x i - target c i = gain * x v
  covers : ∀ v, V v → ∃ i < rows c, ∀ x, lhs c x i - target c i = gain * x v
  once : ∀ i < rows c, ∀ j < rows c, c.data.idx.e i = c.data.idx.e j → i = j

/-- The infeasible task and its constraints after forming for one more structure. -/
def thenInfeasible [One K] [Neg K] (y : ℕ × CtrData K) (s : SolutionStructure) : ℕ × CtrData K :=
  ((infeasibleForm y.1 s y.2).1, (infeasibleForm y.1 s y.2).2.1)

end Humoto.Spec
