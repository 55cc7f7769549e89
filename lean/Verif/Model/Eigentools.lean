import Verif.Model.BlockMat

/-!
# Matrix tools, core/include/eigentools/eigentools.h

`std::ptrdiff_t` indices which are not checked against negative values are modelled by `ℤ`, sizes by `ℕ`.
`EIGENTOOLS_ASSERT` is `HUMOTO_ASSERT` (humoto.h defines it so). Matrices are stored column by column.
-/

namespace Humoto

variable {K : Type}

/-- `M.size() == 0`. -/
def Mat.isEmpty (M : Mat K) : Bool := decide (M.rows * M.cols = 0)

/-- `transform`, eigentools.h:336-346: `(rotation*matrix).colwise() + translation`. -/
def transform [AddCommMonoid K] [Mul K] (M R : Mat K) (t : Vec K) : Res (Mat K) := do
  let P ← R.mul M
  require (t.n = P.rows)
  pure ⟨P.rows, P.cols, fun i j => P.e i j + t.e i⟩

/-- The second loop of `makeBlockDiagonal(vector)`, eigentools.h:393-403: state is the output with `cumulative_row` and
`cumulative_col`. -/
def blockDiagonalLoop (s : Mat K × ℕ × ℕ) (M : Mat K) : Res (Mat K × ℕ × ℕ) := do
  let O ← s.1.setBlock s.2.1 s.2.2 M.rows M.cols M
  pure (O, s.2.1 + M.rows, s.2.2 + M.cols)

/-- `makeBlockDiagonal(input_matrices)`, eigentools.h:362-407. -/
def makeBlockDiagonal [Zero K] (l : List (Mat K)) : Res (Mat K) :=
  match l with
  | [] => .ok ⟨0, 0, fun _ _ => 0⟩
  | [M] => .ok M
  | l => do
    let rows := (l.map Mat.rows).foldl (· + ·) 0
    let cols := (l.map Mat.cols).foldl (· + ·) 0
    let s ← l.foldlM blockDiagonalLoop (⟨rows, cols, fun _ _ => 0⟩, 0, 0)
    pure s.1

/-- `makeBlockDiagonal(input_matrix, num_copies)`, eigentools.h:421-450. Negative numbers of copies are not modelled. -/
def makeBlockDiagonalCopies [Zero K] (M : Mat K) (n : ℕ) : Res (Mat K) :=
  match n with
  | 0 => .ok ⟨0, 0, fun _ _ => 0⟩
  | 1 => .ok M
  | n =>
    forRange n ⟨n * M.rows, n * M.cols, fun _ _ => 0⟩ fun O i =>
      O.setBlock (i * M.rows) (i * M.cols) M.rows M.cols M

/-- The loop which removes empty matrices in `concatenateMatricesVertically`, eigentools.h:482-489. The index is
incremented after an erasure as well. -/
def eraseEmpty (l : List (Mat K)) (i : ℕ) : List (Mat K) :=
  if h : i < l.length then
    if l[i].isEmpty then eraseEmpty (l.eraseIdx i) (i + 1) else eraseEmpty l (i + 1)
  else l
termination_by l.length - i
decreasing_by
  · rw [List.length_eraseIdx_of_lt h]; omega
  · omega

/-- The loop which checks the columns and counts the rows, eigentools.h:498-503. -/
def countRows (cols : ℕ) (n : ℕ) (M : Mat K) : Res ℕ := do
  assertThat (cols = M.cols)
  pure (n + M.rows)

/-- The loop which copies the matrices, eigentools.h:507-512: state is the result with `row_index`. -/
def stackLoop (cols : ℕ) (s : Mat K × ℕ) (M : Mat K) : Res (Mat K × ℕ) := do
  let R ← s.1.setBlock s.2 0 M.rows cols M
  pure (R, s.2 + M.rows)

/-- `concatenateMatricesVertically`, eigentools.h:466-518. The result is resized, not initialised: `junk`. -/
def concatenateVertically (junk : ℕ → ℕ → K) (l : List (Mat K)) : Res (Mat K) :=
  match l with
  | [] => .ok ⟨0, 0, junk⟩
  | l =>
    match eraseEmpty l 0 with
    | [] => .ok ⟨0, 0, junk⟩
    | M :: rest => do
      let rows ← (M :: rest).foldlM (countRows M.cols) 0
      let s ← (M :: rest).foldlM (stackLoop M.cols) (⟨rows, M.cols, junk⟩, 0)
      pure s.1

/-- `result << matrix1, matrix2` for matrices with the same number of rows. -/
def Mat.beside (A B : Mat K) : Mat K :=
  ⟨A.rows, A.cols + B.cols, fun i j => if j < A.cols then A.e i j else B.e i (j - A.cols)⟩

/-- `concatenateMatricesHorizontally(result, matrix1, matrix2)`, eigentools.h:532-562. -/
def concatenateHorizontally2 (A B : Mat K) : Res (Mat K) :=
  if A.rows = 0 then .ok B
  else if B.rows = 0 then .ok A
  else do
    assertThat (A.rows = B.rows)
    pure (A.beside B)

/-- `concatenateMatricesHorizontally(result, matrix1, matrix2, matrix3)`, eigentools.h:579-620. -/
def concatenateHorizontally3 (A B C : Mat K) : Res (Mat K) :=
  if A.rows = 0 then concatenateHorizontally2 B C
  else if B.rows = 0 then concatenateHorizontally2 A C
  else if C.rows = 0 then concatenateHorizontally2 A B
  else do
    assertThat (A.rows = B.rows ∧ A.rows = C.rows)
    pure ((A.beside B).beside C)

/-- `removeRow`, eigentools.h:635-652. The overlapping assignment copies rows upwards one after another, hence acts as a
shift. -/
def removeRow (A : Mat K) (i : ℤ) : Res (Mat K) := do
  assertThat (i ≤ (A.rows : ℤ))
  if i < (A.rows : ℤ) - 1 then do
    require (0 ≤ i)
    pure ⟨A.rows - 1, A.cols, fun r c => if (r : ℤ) < i then A.e r c else A.e (r + 1) c⟩
  else do
    require (1 ≤ A.rows)
    pure ⟨A.rows - 1, A.cols, A.e⟩

/-- `removeColumn`, eigentools.h:667-684. The index is compared with the number of *rows*. -/
def removeColumn (A : Mat K) (i : ℤ) : Res (Mat K) := do
  assertThat (i ≤ (A.rows : ℤ))
  if i < (A.cols : ℤ) - 1 then do
    require (0 ≤ i)
    pure ⟨A.rows, A.cols - 1, fun r c => if (c : ℤ) < i then A.e r c else A.e r (c + 1)⟩
  else do
    require (1 ≤ A.cols)
    pure ⟨A.rows, A.cols - 1, A.e⟩

/-- `multiplyBlockKroneckerIdentity`, eigentools.h:700-738. A remainder modulo zero is undefined behaviour. -/
def multiplyBlockKroneckerIdentity [Zero K] (A : Mat K) (br bc n : ℕ) : Res (Mat K) := do
  require (br ≠ 0)
  assertThat (A.rows % br = 0)
  require (bc ≠ 0)
  assertThat (A.cols % bc = 0)
  forRange (A.rows / br) ⟨n * A.rows, n * A.cols, fun _ _ => 0⟩ fun O i =>
    forRange (A.cols / bc) O fun O j =>
      forRange n O fun O k => do
        let B ← A.block (i * br) (j * bc) br bc
        O.setBlock (i * (n * br) + k * br) (j * (n * bc) + k * bc) br bc B

/-- Element `k` of `matrix.data()`: column by column. -/
def Mat.data (A : Mat K) (k : ℕ) : Res K :=
  if k < A.rows * A.cols then .ok (A.e (k % A.rows) (k / A.rows)) else .error .ub

/-- An `Eigen::Map` with outer stride `outer` and inner stride `inner` which starts at element `first` of the data. -/
structure MapView (K : Type) where
  base : Mat K
  first : ℕ
  rows : ℕ
  cols : ℕ
  outer : ℕ
  inner : ℕ

/-- Coefficient of a map. -/
def MapView.get (V : MapView K) (i j : ℕ) : Res K :=
  if i < V.rows ∧ j < V.cols then V.base.data (V.first + i * V.inner + j * V.outer) else .error .ub

/-- `selectRows`, eigentools.h:758-772. `ceil(static_cast<double>(rows - first)/step)` is modelled as the exact quotient
rounded upwards (sizes below `2^53`); `rows - first` wraps and `step = 0` divides by zero: undefined behaviour. -/
def selectRows (A : Mat K) (step first : ℕ) : Res (MapView K) := do
  require (first ≤ A.rows ∧ 0 < step)
  pure ⟨A, first, (A.rows - first + step - 1) / step, A.cols, A.rows, step⟩

/-- `SelectionMatrix`, eigentools.h:778-808. -/
structure SelectionMatrix where
  step : ℕ
  first : ℕ

/-- `operator*(SelectionMatrix, matrix)`, eigentools.h:820-827. -/
def SelectionMatrix.mul (s : SelectionMatrix) (A : Mat K) : Res (MapView K) := selectRows A s.step s.first

end Humoto
