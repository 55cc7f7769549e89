import Verif.Spec.Level

/-!
# Specification of objectives
-/

namespace Humoto.Spec

variable {E K : Type} [Field K]

/-- Classes of equality tasks which can be instantiated: the code of `ConstraintsIB` does not compile. -/
def CanMinimise (c : Ctr K) : Prop := c.ctype.isEquality = true ∧ c.ctype ≠ .ib

/-- Right hand side of row `i` of an equality. -/
def target (c : Ctr K) (i : ℕ) : K :=
  match c.ctype with
  | .ab | .asb | .gib | .ib => c.data.b.e i
  | _ => 0

/-- `|A*x - b|^2` of a task. -/
def residualSq (c : Ctr K) (x : ℕ → K) : K := ∑ i ∈ Finset.range (rows c), (lhs c x i - target c i) ^ 2

/-- Sum of `|A*x - b|^2` over the tasks. -/
def leastSquares (ts : List (TaskInfo E K)) (x : ℕ → K) : K := (ts.map fun ti => residualSq ti.task.ctr x).sum

/-- `x'*H*x`. -/
def quadratic (H : Mat K) (x : ℕ → K) : K :=
  ∑ i ∈ Finset.range H.rows, ∑ j ∈ Finset.range H.cols, H.e i j * x i * x j

/-- `x'*H*x` when only the lower triangle of a symmetric matrix is stored. -/
def lowerQuadratic (H : Mat K) (x : ℕ → K) : K :=
  ∑ i ∈ Finset.range H.rows, ∑ j ∈ Finset.range H.cols, (if j ≤ i then H.e i j else H.e j i) * x i * x j

/-- `g'*x`. -/
def linear (g : Vec K) (x : ℕ → K) : K := ∑ i ∈ Finset.range g.n, g.e i * x i

/-- The objective `1/2*x'*H*x + g'*x` of a QP is half the sum of squared residuals of the tasks, up to the constant which
makes it vanish at zero. The value is taken from the lower triangle of the Hessian; the upper triangle counts only when it was requested. The
type of the Hessian does not promise too much. -/
structure Minimises (q : QPObjective K) (ts : List (TaskInfo E K)) (nv : ℕ) (upper : Bool) : Prop where
  rows : q.H.rows = nv
  cols : q.H.cols = nv
  n : q.g.n = nv
  value : ∀ x, lowerQuadratic q.H x / 2 + linear q.g x = leastSquares ts x / 2 - leastSquares ts (fun _ => 0) / 2
  full : upper = true → ∀ x, quadratic q.H x / 2 + linear q.g x = leastSquares ts x / 2 - leastSquares ts (fun _ => 0) / 2
  symmetric : upper = true → ∀ i j, i < nv → j < nv → q.H.e i j = q.H.e j i
  diagonal : q.hessianType = .diagonal → ∀ i j, i < nv → j < i → q.H.e i j = 0
  generic : q.hessianType = .generic → upper = true
  defined : q.hessianType ≠ .undefined

end Humoto.Spec
