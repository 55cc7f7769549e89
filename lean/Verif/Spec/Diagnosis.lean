import Verif.Model.Diagnosis
import Verif.Spec.Level

/-!
# Violations and active sets of a hierarchy: what is expected
-/

namespace Humoto.Spec

variable {E K : Type} [Field K] [LinearOrder K]

/-- The hierarchy has been formed, for `nv` variables. -/
def FormedHierarchy (P : Hierarchy E K) (nv : ℕ) : Prop :=
  ∃ (P0 : Hierarchy E K) (env : E) (guessing : Bool), (∀ L ∈ P0.levels, Reachable L) ∧ P0.form nv env guessing = .ok P ∧
    ∀ L ∈ P.levels, ∀ ti ∈ L.tasks, InRange ti.task.ctr

/-- Row `i` of a task on level `l` is row `r` of the level. -/
def RowOf (P : Hierarchy E K) (l : ℕ) (ti : TaskInfo E K) (i r : ℕ) : Prop :=
  (∃ L, P.levels[l]? = some L ∧ ti ∈ L.tasks) ∧ i < rows ti.task.ctr ∧ r = ti.loc.offset + i

/-- The difference to a bound, `0` if there is no bound, violations.h:68-71. -/
def Difference (value : K) : Option K → K
  | some b => value - b
  | none => 0

/-- An entry of an active set which is tolerated at `x`: it is correct, or it is a bound which is at most `1e-10` away, or the lower bound of
an equality. -/
def Tolerated (c : Ctr K) (x : ℕ → K) (i : ℕ) (a : Act) : Prop :=
  ActivationCorrect c x i a ∨
  a = .lowerBound ∧ (IsEqualityRow c i ∨ |Difference (lhs c x i) (lower c i)| < 1 / 10 ^ 10 ∨
    |Difference (lhs c x i) (upper c i)| < 1 / 10 ^ 10) ∨
  a = .upperBound ∧ |Difference (lhs c x i) (upper c i)| < 1 / 10 ^ 10

/-- An entry of an active set of an exact solver: active bounds are attained, a row which is not active is strictly within its bounds. -/
def ExactEntry (c : Ctr K) (x : ℕ → K) (i : ℕ) : Act → Prop
  | .lowerBound => lower c i = some (lhs c x i)
  | .upperBound => upper c i = some (lhs c x i)
  | .inactive => ¬ IsEqualityRow c i ∧ (∀ l, lower c i = some l → l < lhs c x i) ∧ ∀ u, upper c i = some u → lhs c x i < u
  | .equality => IsEqualityRow c i
  | .undefined => False

/-- Entry `r` on level `l` of an active set. -/
def EntryAt (s : ActiveSetH) (l r : ℕ) (a : Act) : Prop :=
  ∃ t : ActiveSetC, s[l]? = some t ∧ t[r]? = some a

/-- Sizes of an active set are those of the hierarchy. -/
def SizesOf (P : Hierarchy E K) (s : ActiveSetH) : Prop :=
  s.length = P.levels.length ∧ ∀ (l : ℕ) (L : Level E K) (a : ActiveSetC), P.levels[l]? = some L → s[l]? = some a →
    a.length = L.nConstraints

end Humoto.Spec
