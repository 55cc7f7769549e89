import Verif.Spec.Constraints
import Verif.Model.Level

/-!
# Specification of hierarchy levels

What the containers and objectives which are assembled from a level have to mean.
-/

namespace Humoto.Spec

variable {E K : Type}

/-- Levels which a program can have in its hands: an empty level, a level with one more task, a level after forming, and
a level whose tasks were changed by anything which does not change their classes (reconfiguration, setting of gains,
processing of active sets, a `form` which was left by an exception). -/
inductive Reachable : Level E K → Prop
  | empty : Reachable Level.empty
  | push {L : Level E K} (t : Task E K) : Reachable L → Reachable (L.pushTask t)
  | form {L L' : Level E K} {nv : ℕ} {env : E} {guessing : Bool} :
      Reachable L → L.form nv env guessing = .ok L' → Reachable L'
  | change {L L' : Level E K} : Reachable L →
      L'.tasks.map (fun ti => ti.task.ctr.ctype) = L.tasks.map (fun ti => ti.task.ctr.ctype) → Reachable L'

/-- The tasks occupy consecutive blocks of rows starting with row `o`. -/
def Consecutive [Field K] : ℕ → List (TaskInfo E K) → Prop
  | _, [] => True
  | o, ti :: rest => ti.loc = ⟨o, rows ti.task.ctr⟩ ∧ Consecutive (o + rows ti.task.ctr) rest

/-- Number of rows of all tasks of a list. -/
def totalRows [Field K] (ts : List (TaskInfo E K)) : ℕ := (ts.map fun ti => rows ti.task.ctr).sum

/-- Row `r` belongs to the block of the task. -/
def Owns (ti : TaskInfo E K) (r : ℕ) : Prop := ti.loc.offset ≤ r ∧ r < ti.loc.offset + ti.loc.length

/-- What `checkConsistency` does not check: the indices of simple constraints refer to existing variables, the offset of a
constraint on a part of the vector is not negative. -/
def InRange (c : Ctr K) : Prop :=
  match c.ctype with
  | .ilu | .il | .iu | .ib | .ib0 | .gilu | .gil | .giu | .gib | .gib0 =>
      ∀ i, i < c.data.idx.n → c.data.idx.e i < c.nvars
  | .alu | .al | .au | .ab | .ab0 => True
  | .aslu | .asl | .asu | .asb | .asb0 => 0 ≤ c.data.offset

section

variable [Field K] [LinearOrder K]

/-- All tasks of the level are satisfied at `x`. -/
def LevelSatisfied (L : Level E K) (x : ℕ → K) : Prop := ∀ ti ∈ L.tasks, Satisfied ti.task.ctr x

/-- `lb <= A*x <= ub` -/
def ALUHolds (k : ContainerALU K) (x : ℕ → K) : Prop :=
  ∀ i, i < k.A.rows → k.lb.e i ≤ ∑ j ∈ Finset.range k.A.cols, k.A.e i j * x j ∧
    ∑ j ∈ Finset.range k.A.cols, k.A.e i j * x j ≤ k.ub.e i

/-- `lb <= A*x` -/
def ALHolds (k : ContainerAL K) (x : ℕ → K) : Prop :=
  ∀ i, i < k.A.rows → k.lb.e i ≤ ∑ j ∈ Finset.range k.A.cols, k.A.e i j * x j

/-- `A*x = b` -/
def ABHolds (k : ContainerAB K) (x : ℕ → K) : Prop :=
  ∀ i, i < k.A.rows → ∑ j ∈ Finset.range k.A.cols, k.A.e i j * x j = k.b.e i

/-- Missing bounds of the constraint are not exceeded by the library infinity: a missing bound is replaced by `±1e20` in
two-sided containers. -/
def WithinInfinity (c : Ctr K) (x : ℕ → K) : Prop :=
  ∀ i, i < rows c → (lower c i = none → -10 ^ 20 ≤ lhs c x i) ∧ (upper c i = none → lhs c x i ≤ 10 ^ 20)

/-- `m` is the largest lower bound on the variable `v` over the rows of the simple tasks, but not less than minus the
library infinity. -/
structure TightestLower (ts : List (TaskInfo E K)) (v : ℕ) (m : K) : Prop where
  clamp : -10 ^ 20 ≤ m
  bound : ∀ ti ∈ ts, ti.task.ctr.ctype.isSimple = true → ∀ i, i < rows ti.task.ctr → ti.task.ctr.data.idx.e i = v →
    ∀ l, lower ti.task.ctr i = some l → l ≤ m
  attained : m = -10 ^ 20 ∨ ∃ ti ∈ ts, ti.task.ctr.ctype.isSimple = true ∧ ∃ i, i < rows ti.task.ctr ∧
    ti.task.ctr.data.idx.e i = v ∧ lower ti.task.ctr i = some m

/-- `m` is the smallest upper bound on the variable `v` over the rows of the simple tasks, but not more than the
library infinity. -/
structure TightestUpper (ts : List (TaskInfo E K)) (v : ℕ) (m : K) : Prop where
  clamp : m ≤ 10 ^ 20
  bound : ∀ ti ∈ ts, ti.task.ctr.ctype.isSimple = true → ∀ i, i < rows ti.task.ctr → ti.task.ctr.data.idx.e i = v →
    ∀ u, upper ti.task.ctr i = some u → m ≤ u
  attained : m = 10 ^ 20 ∨ ∃ ti ∈ ts, ti.task.ctr.ctype.isSimple = true ∧ ∃ i, i < rows ti.task.ctr ∧
    ti.task.ctr.data.idx.e i = v ∧ upper ti.task.ctr i = some m

end

end Humoto.Spec
