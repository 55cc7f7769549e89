import Verif.Model.Basic

/-!
# Specification of the matrix tools
-/

namespace Humoto.Spec

variable {K : Type}

/-- Total number of rows. -/
def sumRows (l : List (Mat K)) : ℕ := (l.map Mat.rows).sum

/-- Total number of columns. -/
def sumCols (l : List (Mat K)) : ℕ := (l.map Mat.cols).sum

/-- Total number of rows of the matrices before the matrix `b`. -/
def rowsBefore (l : List (Mat K)) (b : ℕ) : ℕ := sumRows (l.take b)

/-- Total number of columns of the matrices before the matrix `b`. -/
def colsBefore (l : List (Mat K)) (b : ℕ) : ℕ := sumCols (l.take b)

/-- `R` is the block diagonal matrix with the blocks `l`. -/
structure BlockDiagonalOf [Zero K] (l : List (Mat K)) (R : Mat K) : Prop where
  rows : R.rows = sumRows l
  cols : R.cols = sumCols l
  diagonal : ∀ (b : ℕ) M, l[b]? = some M → ∀ i < M.rows, ∀ j < M.cols,
    R.e (rowsBefore l b + i) (colsBefore l b + j) = M.e i j
  zero : ∀ (b c : ℕ) M N, b ≠ c → l[b]? = some M → l[c]? = some N → ∀ i < M.rows, ∀ j < N.cols,
    R.e (rowsBefore l b + i) (colsBefore l c + j) = 0

/-- `R` consists of the matrices `l`, one below another. -/
structure StackOf (l : List (Mat K)) (R : Mat K) : Prop where
  rows : R.rows = sumRows l
  cols : ∀ M ∈ l, M.cols = R.cols
  entries : ∀ (b : ℕ) M, l[b]? = some M → ∀ i < M.rows, ∀ j < M.cols, R.e (rowsBefore l b + i) j = M.e i j

/-- `R` consists of the matrices `l`, one beside another. -/
structure SideBySide (l : List (Mat K)) (R : Mat K) : Prop where
  rows : ∀ M ∈ l, M.rows = R.rows
  cols : R.cols = sumCols l
  entries : ∀ (b : ℕ) M, l[b]? = some M → ∀ i < M.rows, ∀ j < M.cols, R.e i (colsBefore l b + j) = M.e i j

/-- A matrix without entries. -/
def Empty (M : Mat K) : Prop := M.rows = 0 ∨ M.cols = 0

instance (M : Mat K) : Decidable (Empty M) := inferInstanceAs (Decidable (_ ∨ _))

/-- The matrices which have entries. -/
def nonEmpty (l : List (Mat K)) : List (Mat K) := l.filter fun M => ¬ Empty M

/-- The matrices which have rows. -/
def withRows (l : List (Mat K)) : List (Mat K) := l.filter fun M => M.rows ≠ 0

/-- `R` is `A` without the row `i`; the order of other rows is preserved. -/
def WithoutRow (A : Mat K) (i : ℕ) (R : Mat K) : Prop :=
  R.rows + 1 = A.rows ∧ R.cols = A.cols ∧
    ∀ c < A.cols, (∀ r, r < i → R.e r c = A.e r c) ∧ (∀ r, i < r → r < A.rows → R.e (r - 1) c = A.e r c)

/-- `R` is `A` without the column `j`; the order of other columns is preserved. -/
def WithoutColumn (A : Mat K) (j : ℕ) (R : Mat K) : Prop :=
  R.rows = A.rows ∧ R.cols + 1 = A.cols ∧
    ∀ r < A.rows, (∀ c, c < j → R.e r c = A.e r c) ∧ (∀ c, j < c → c < A.cols → R.e r (c - 1) = A.e r c)

/-- `E` is the matrix `M`, which consists of blocks `br` times `bc`, where each block `B` is replaced by the block diagonal
matrix with `n` copies of `B`. -/
structure KroneckerOf [Zero K] (M : Mat K) (br bc n : ℕ) (E : Mat K) : Prop where
  rows : E.rows = n * M.rows
  cols : E.cols = n * M.cols
  entries : ∀ i j a b p q, (i + 1) * br ≤ M.rows → (j + 1) * bc ≤ M.cols → a < n → b < n → p < br → q < bc →
    E.e ((i * n + a) * br + p) ((j * n + b) * bc + q) = if a = b then M.e (i * br + p) (j * bc + q) else 0

/-- All blocks above the diagonal are zero. -/
def LowerTriangular [Zero K] (M : Mat K) (br bc : ℕ) : Prop :=
  ∀ i j p q, i < j → (i + 1) * br ≤ M.rows → (j + 1) * bc ≤ M.cols → p < br → q < bc → M.e (i * br + p) (j * bc + q) = 0

/-- All blocks outside of the diagonal are zero. -/
def Diagonal [Zero K] (M : Mat K) (br bc : ℕ) : Prop :=
  ∀ i j p q, i ≠ j → (i + 1) * br ≤ M.rows → (j + 1) * bc ≤ M.cols → p < br → q < bc → M.e (i * br + p) (j * bc + q) = 0

/-- `P` is the product of `A` and `B`. -/
def ProductOf [AddCommMonoid K] [Mul K] (A B P : Mat K) : Prop :=
  A.cols = B.rows ∧ P.rows = A.rows ∧ P.cols = B.cols ∧
    ∀ i < A.rows, ∀ j < B.cols, P.e i j = ∑ k ∈ Finset.range A.cols, A.e i k * B.e k j

/-- `y` is the product of `A` and `x`. -/
def VecProductOf [AddCommMonoid K] [Mul K] (A : Mat K) (x y : Vec K) : Prop :=
  A.cols = x.n ∧ y.n = A.rows ∧ ∀ i < A.rows, y.e i = ∑ k ∈ Finset.range A.cols, A.e i k * x.e k

end Humoto.Spec
