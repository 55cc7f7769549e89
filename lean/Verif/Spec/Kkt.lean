import Verif.Model.Kkt
import Verif.Spec.Objective

/-!
# Specification of the KKT solver
-/

namespace Humoto.Spec

variable {K : Type} [Field K] [LinearOrder K]

/-- Only the zero vector is mapped to zero. -/
def Injective (M : Mat K) : Prop :=
  ∀ x : ℕ → K, (∀ i, i < M.rows → ∑ j ∈ Finset.range M.cols, M.e i j * x j = 0) → ∀ j, j < M.cols → x j = 0

/-- No row is a combination of other rows. -/
def IndependentRows (A : Mat K) : Prop :=
  ∀ l : ℕ → K, (∀ j, j < A.cols → ∑ k ∈ Finset.range A.rows, A.e k j * l k = 0) → ∀ k, k < A.rows → l k = 0

/-- `H(i, j) = H(j, i)`. -/
def Symmetric (H : Mat K) : Prop := ∀ i j, i < H.rows → j < H.rows → H.e i j = H.e j i

/-- Symmetric and `x'*H*x > 0` unless `x = 0`. -/
def PositiveDefinite (H : Mat K) : Prop :=
  H.rows = H.cols ∧ Symmetric H ∧ ∀ x, (∃ j, j < H.cols ∧ x j ≠ 0) → 0 < quadratic H x

/-- `x'*H*x >= 0`. -/
def PositiveSemidefinite (H : Mat K) : Prop := H.rows = H.cols ∧ Symmetric H ∧ ∀ x, 0 ≤ quadratic H x

/-- What is trusted about the decompositions of Eigen (up to rounding): LU and QR solve every square system with a regular
matrix, LLT every system with a positive definite matrix. Nothing is known about the other systems. -/
structure Trusted (D : Decompositions K) : Prop where
  lu : ∀ M v, M.rows = M.cols → v.n = M.rows → Injective M → (D.lu M v).n = M.cols ∧
    ∀ i, i < M.rows → ∑ j ∈ Finset.range M.cols, M.e i j * (D.lu M v).e j = v.e i
  qr : ∀ M v, M.rows = M.cols → v.n = M.rows → Injective M → (D.qr M v).n = M.cols ∧
    ∀ i, i < M.rows → ∑ j ∈ Finset.range M.cols, M.e i j * (D.qr M v).e j = v.e i
  llt : ∀ M v, v.n = M.rows → PositiveDefinite M → (D.llt M v).n = M.cols ∧
    ∀ i, i < M.rows → ∑ j ∈ Finset.range M.cols, M.e i j * (D.llt M v).e j = v.e i

/-- `A*x = b`. -/
def Feasible (A : Mat K) (b : Vec K) (x : ℕ → K) : Prop :=
  ∀ k, k < A.rows → ∑ j ∈ Finset.range A.cols, A.e k j * x j = b.e k

/-- `x` satisfies `A*x = b` and minimises `1/2*x'*H*x + g'*x` among all such points. -/
def IsMinimiser (H : Mat K) (g : Vec K) (A : Mat K) (b : Vec K) (x : ℕ → K) : Prop :=
  Feasible A b x ∧ ∀ y, Feasible A b y → quadratic H x / 2 + linear g x ≤ quadratic H y / 2 + linear g y

/-- Values of a vector of a solution. -/
def entries (l : List K) : ℕ → K := fun i => l.getD i 0

/-- Sizes of the matrices of a QP with equality constraints fit together. -/
structure SizesFit (q : KktProblem K) (n : ℕ) : Prop where
  hrows : q.objective.H.rows = n
  hcols : q.objective.H.cols = n
  g : q.objective.g.n = n
  acols : q.equalities.A.cols = n
  b : q.equalities.b.n = q.equalities.A.rows

/-- `H + f*I`. -/
def regularised (H : Mat K) (f : K) : Mat K := ⟨H.rows, H.cols, fun i j => if i = j then H.e i j + f else H.e i j⟩

end Humoto.Spec
