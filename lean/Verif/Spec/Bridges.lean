import Verif.Model.Bridges
import Verif.Spec.Kkt

/-!
# Specification of interfaces to QP solvers

What the external solvers are trusted to do with their arguments, and what active sets have to mean.
-/

namespace Humoto.Spec

open Bridge

variable {E K : Type} [Field K] [LinearOrder K]

/-! ## QuadProg++ -/

/-- `CE'*x + ce0 = 0` and `CI'*x + ci0 >= 0`, as in the documentation of QuadProg++. -/
def QuadProgFeasible (a : QuadProgArgs K) (x : ℕ → K) : Prop :=
  (∀ k, k < a.CE.cols → ∑ j ∈ Finset.range a.CE.rows, a.CE.e j k * x j + a.ce0.e k = 0) ∧
  ∀ k, k < a.CI.cols → 0 ≤ ∑ j ∈ Finset.range a.CI.rows, a.CI.e j k * x j + a.ci0.e k

/-- Sizes of the arguments fit together. -/
structure QuadProgSizes (a : QuadProgArgs K) (nv : ℕ) : Prop where
  grows : a.G.rows = nv
  gcols : a.G.cols = nv
  g0 : a.g0.n = nv
  ce : a.CE.rows = nv
  ce0 : a.ce0.n = a.CE.cols
  ci : a.CI.rows = nv
  ci0 : a.ci0.n = a.CI.cols

/-- What is trusted about QuadProg++ (up to rounding): with a positive definite matrix, `OK` comes with a point which
minimises `1/2*x'*G*x + g0'*x` on the feasible set. -/
def TrustedQuadProg (ext : QuadProgArgs K → QuadProgStatus × List K) : Prop :=
  ∀ a nv, QuadProgSizes a nv → PositiveDefinite a.G → (ext a).1 = .ok →
    (ext a).2.length = nv ∧ QuadProgFeasible a (entries (ext a).2) ∧
    ∀ y, QuadProgFeasible a y → quadratic a.G (entries (ext a).2) / 2 + linear a.g0 (entries (ext a).2) ≤
      quadratic a.G y / 2 + linear a.g0 y

/-! ## qpmad -/

/-- `lb <= x <= ub`, unless these vectors are empty, and `Alb <= A*x <= Aub`. -/
def QpmadFeasible (a : QpmadArgs K) (x : ℕ → K) : Prop :=
  (∀ v, v < a.lb.n → a.lb.e v ≤ x v) ∧ (∀ v, v < a.ub.n → x v ≤ a.ub.e v) ∧
  ∀ k, k < a.A.rows → a.Alb.e k ≤ ∑ j ∈ Finset.range a.A.cols, a.A.e k j * x j ∧
    ∑ j ∈ Finset.range a.A.cols, a.A.e k j * x j ≤ a.Aub.e k

/-- Sizes of the arguments fit together; bounds on variables may be missing. -/
structure QpmadSizes (a : QpmadArgs K) (nv : ℕ) : Prop where
  hrows : a.H.rows = nv
  hcols : a.H.cols = nv
  h : a.h.n = nv
  lb : a.lb.n = 0 ∨ a.lb.n = nv
  ub : a.ub.n = a.lb.n
  cols : a.A.cols = nv
  alb : a.Alb.n = a.A.rows
  aub : a.Aub.n = a.A.rows

/-- What is trusted about qpmad (up to rounding): only the lower triangle of the Hessian counts; when the matrix with this
triangle is positive definite, `OK` comes with a point which minimises the objective on the feasible set. -/
def TrustedQpmad (ext : QpmadArgs K → QpmadStatus × List K) : Prop :=
  ∀ a nv, QpmadSizes a nv → (∀ x, (∃ j, j < nv ∧ x j ≠ 0) → 0 < lowerQuadratic a.H x) → (ext a).1 = .ok →
    (ext a).2.length = nv ∧ QpmadFeasible a (entries (ext a).2) ∧
    ∀ y, QpmadFeasible a y → lowerQuadratic a.H (entries (ext a).2) / 2 + linear a.h (entries (ext a).2) ≤
      lowerQuadratic a.H y / 2 + linear a.h y

/-! ## qpOASES -/

/-- Objective of qpOASES: matrices are stored by rows. -/
def qpoasesObjective (a : QpoasesArgs K) (x : ℕ → K) : K :=
  (∑ i ∈ Finset.range a.nV, ∑ j ∈ Finset.range a.nV, a.H (i * a.nV + j) * x i * x j) / 2 +
    ∑ i ∈ Finset.range a.nV, a.g i * x i

/-- Constraints of qpOASES: null pointers mean that there are no bounds. -/
def QpoasesFeasible (a : QpoasesArgs K) (x : ℕ → K) : Prop :=
  (∀ lb, a.lb = some lb → ∀ v, v < a.nV → lb v ≤ x v) ∧ (∀ ub, a.ub = some ub → ∀ v, v < a.nV → x v ≤ ub v) ∧
  ∀ A, a.A = some A →
    (∀ lbA, a.lbA = some lbA → ∀ k, k < a.nC → lbA k ≤ ∑ j ∈ Finset.range a.nV, A (k * a.nV + j) * x j) ∧
    ∀ ubA, a.ubA = some ubA → ∀ k, k < a.nC → ∑ j ∈ Finset.range a.nV, A (k * a.nV + j) * x j ≤ ubA k

/-- Problems which qpOASES is able to solve: the matrix is symmetric and positive semidefinite, general constraints are given if
there are any. -/
structure QpoasesAccepts (a : QpoasesArgs K) : Prop where
  symmetric : ∀ i j, i < a.nV → j < a.nV → a.H (i * a.nV + j) = a.H (j * a.nV + i)
  semidefinite : ∀ x : ℕ → K, 0 ≤ ∑ i ∈ Finset.range a.nV, ∑ j ∈ Finset.range a.nV, a.H (i * a.nV + j) * x i * x j
  pointers : a.nC > 0 → a.A.isSome ∧ a.lbA.isSome ∧ a.ubA.isSome

/-- What is trusted about qpOASES (up to rounding): with a symmetric positive semidefinite matrix, a successful return comes
with a point which minimises the objective on the feasible set. -/
def TrustedQpoases (ext : QpoasesArgs K → QpoasesStatus × (ℕ → K)) : Prop :=
  ∀ a : QpoasesArgs K, (∀ i j, i < a.nV → j < a.nV → a.H (i * a.nV + j) = a.H (j * a.nV + i)) →
    (∀ x : ℕ → K, 0 ≤ ∑ i ∈ Finset.range a.nV, ∑ j ∈ Finset.range a.nV, a.H (i * a.nV + j) * x i * x j) →
    (a.nC > 0 → a.A.isSome ∧ a.lbA.isSome ∧ a.ubA.isSome) → (ext a).1 = .successfulReturn →
    QpoasesFeasible a (ext a).2 ∧ ∀ y, QpoasesFeasible a y → qpoasesObjective a (ext a).2 ≤ qpoasesObjective a y

/-! ## Hierarchies -/

/-- Only the zero vector makes all left hand sides of the tasks vanish. -/
def Determined (ts : List (TaskInfo E K)) (nv : ℕ) : Prop :=
  ∀ x : ℕ → K, (∀ ti ∈ ts, ∀ i, i < rows ti.task.ctr → lhs ti.task.ctr x i = 0) → ∀ j, j < nv → x j = 0

/-- There are constraints on single variables. -/
def BoundsVariables (L : Level E K) : Prop := ∃ ti ∈ L.tasks, ti.task.ctr.ctype.isSimple = true ∧ rows ti.task.ctr ≠ 0

/-- `x` satisfies the tasks `L0`, and gives the least value of the sum of squared residuals of `ts` plus `reg*|x|^2`
among the points which satisfy `L0` and `S`. -/
def Optimal (L0 : Level E K) (ts : List (TaskInfo E K)) (nv : ℕ) (reg : K) (S : (ℕ → K) → Prop) (x : ℕ → K) : Prop :=
  LevelSatisfied L0 x ∧ ∀ y, LevelSatisfied L0 y → S y →
    leastSquares ts x + reg * ∑ i ∈ Finset.range nv, x i ^ 2 ≤ leastSquares ts y + reg * ∑ i ∈ Finset.range nv, y i ^ 2

/-- Neither the variables nor the rows without bounds exceed the library infinity. -/
def Moderate (L0 : Level E K) (nv : ℕ) (x : ℕ → K) : Prop :=
  (∀ ti ∈ L0.tasks, WithinInfinity ti.task.ctr x) ∧ ∀ v, v < nv → -10 ^ 20 ≤ x v ∧ x v ≤ 10 ^ 20

/-! ## Working sets of qpOASES -/

/-- Values which qpOASES puts in working sets. -/
def WorkingValue (w : K) : Prop := w = -1 ∨ w = 0 ∨ w = 1

/-- A working set of bounds: a variable is at its lower (upper) bound only if it has one. -/
structure WorkingBounds (ts : List (TaskInfo E K)) (nv : ℕ) (wb : ℕ → K) : Prop where
  value : ∀ v, v < nv → WorkingValue (wb v)
  lower : ∀ v, v < nv → wb v = -1 → ∀ m, TightestLower ts v m → -10 ^ 20 < m
  upper : ∀ v, v < nv → wb v = 1 → ∀ m, TightestUpper ts v m → m < 10 ^ 20

/-- The activation reported for row `i` of a general task whose constraint has the value `w` in the working set. -/
def ReportsGeneral (w : K) (a : Act) : Prop :=
  (a = .lowerBound ↔ w = -1) ∧ (a = .inactive ↔ w = 0) ∧ (a = .upperBound ↔ w = 1)

/-- The activation reported for row `i` of a simple task: its bound is reported only if the variable is at the bound, and
the bound is the tightest one. -/
def ReportsSimple (ts : List (TaskInfo E K)) (c : Ctr K) (i : ℕ) (w : K) (a : Act) : Prop :=
  (a = .lowerBound ↔ w = -1 ∧ ∃ m, TightestLower ts (c.data.idx.e i) m ∧ lower c i = some m) ∧
  (a = .upperBound ↔ w = 1 ∧ ∃ m, TightestUpper ts (c.data.idx.e i) m ∧ upper c i = some m) ∧
  (a = .inactive ↔ ¬ (a = .lowerBound ∨ a = .upperBound))

/-- Status which corresponds to a value of the working set. -/
def StatusOf (w : K) (s : Status) : Prop :=
  (s = .lower ↔ w = -1) ∧ (s = .inactive ↔ w = 0) ∧ (s = .upper ↔ w = 1)

end Humoto.Spec
