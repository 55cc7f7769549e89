import Verif.Model.PepperMpc

/-!
# Block matrices as objects: core/include/eigentools/blockmatrix_base.h, core/include/eigentools/blockmatrix.h

Sizes of blocks are given by the template parameters or at run time; the numbers of blocks are stored, and they are stale when an operation is
left by an exception. The matrix is stored inside (`BlockMatrix`, blockmatrix.h:169-198). Numbers are unbounded; indices and sizes are signed
(`std::ptrdiff_t`).
-/

namespace Humoto

variable {K : Type}

/-- `BlockMatrixAccessBase`: the template parameters `t_block_rows_num`, `t_block_cols_num`, blockmatrix_base.h:104-107 (`-1`: `DYNAMIC`,
`0`: `UNDEFINED`, lines 71-79), and the members, blockmatrix_base.h:408-414. The numbers of blocks are not initialised by the constructor unless
the size of the block is known: `none`. -/
structure BlockObject (K : Type) where
  tr : ℤ
  tc : ℤ
  m : Mat K
  nv : Option ℤ
  nh : Option ℤ
  br : ℤ
  bc : ℤ

namespace BlockObject

/-- An operation which may be left by an exception: the object, and whether the operation was completed. -/
abbrev Outcome (K : Type) := BlockObject K × Res Unit

/-- The next statement. -/
def Outcome.next (r : Outcome K) (f : BlockObject K → Outcome K) : Outcome K :=
  match r with
  | (o, .ok ()) => f o
  | (o, .error e) => (o, .error e)

/-- `EIGENTOOLS_BLOCKMATRIX_BLOCK_ROWS_NUM`, `getBlockRowsNum`, blockmatrix_base.h:81, 377-380. -/
def blockRows (o : BlockObject K) : ℤ := if 0 < o.tr then o.tr else o.br

/-- `EIGENTOOLS_BLOCKMATRIX_BLOCK_COLS_NUM`, `getBlockColsNum`, blockmatrix_base.h:82, 384-387. -/
def blockCols (o : BlockObject K) : ℤ := if 0 < o.tc then o.tc else o.bc

/-- A number which is read; it must have been initialised. -/
def read (n : Option ℤ) : Res ℤ :=
  match n with
  | some x => .ok x
  | none => .error .ub

/-- `getNumberOfBlocksVertical`, blockmatrix_base.h:129-132. -/
def getNumberOfBlocksVertical (o : BlockObject K) : Res ℤ := read o.nv

/-- `getNumberOfBlocksHorizontal`, blockmatrix_base.h:136-139. -/
def getNumberOfBlocksHorizontal (o : BlockObject K) : Res ℤ := read o.nh

/-- `getNumberOfRows`, blockmatrix_base.h:148-151. -/
def getNumberOfRows (o : BlockObject K) : Res ℤ := do
  let n ← read o.nv
  pure (o.blockRows * n)

/-- `getNumberOfColumns`, blockmatrix_base.h:155-158. -/
def getNumberOfColumns (o : BlockObject K) : Res ℤ := do
  let n ← read o.nh
  pure (o.blockCols * n)

/-- The first part of `finalize`, blockmatrix_base.h:506-516. -/
def finalizeRows (o : BlockObject K) : Outcome K :=
  if o.tr ≠ -1 ∨ o.br ≠ 0 then
    if 0 < o.blockRows then
      if (o.m.rows : ℤ) % o.blockRows = 0 then ({ o with nv := some ((o.m.rows : ℤ) / o.blockRows) }, .ok ())
      else (o, .error .thrown)
    else (o, .error .thrown)
  else (o, .ok ())

/-- The second part of `finalize`, blockmatrix_base.h:518-528. -/
def finalizeCols (o : BlockObject K) : Outcome K :=
  if o.tc ≠ -1 ∨ o.bc ≠ 0 then
    if 0 < o.blockCols then
      if (o.m.cols : ℤ) % o.blockCols = 0 then ({ o with nh := some ((o.m.cols : ℤ) / o.blockCols) }, .ok ())
      else (o, .error .thrown)
    else (o, .error .thrown)
  else (o, .ok ())

/-- `finalize`, blockmatrix_base.h:504-529. -/
def finalize (o : BlockObject K) : Outcome K := o.finalizeRows.next finalizeCols

/-- The first part of `initializeBlockSize`, blockmatrix_base.h:477-486. -/
def initializeRows (o : BlockObject K) (n : ℤ) : Outcome K :=
  if o.tr = -1 then ({ o with br := n }, .ok ())
  else if n = 0 then ({ o with br := o.tr }, .ok ())
  else (o, .error .thrown)

/-- The second part of `initializeBlockSize`, blockmatrix_base.h:488-497. -/
def initializeCols (o : BlockObject K) (n : ℤ) : Outcome K :=
  if o.tc = -1 then ({ o with bc := n }, .ok ())
  else if n = 0 then ({ o with bc := o.tc }, .ok ())
  else (o, .error .thrown)

/-- `initializeBlockSize`, blockmatrix_base.h:474-498. -/
def initializeBlockSize (o : BlockObject K) (rows cols : ℤ) : Outcome K := (o.initializeRows rows).next fun o => o.initializeCols cols

/-- The constructors, blockmatrix_base.h:428-467, 84-95, blockmatrix.h:246-261: `m` has no rows and no columns if it is not given, the sizes of the block are `0` if
they are not given. -/
def construct (tr tc : ℤ) (m : Mat K) (rows cols : ℤ) : Res (BlockObject K) :=
  match (initializeBlockSize ⟨tr, tc, m, none, none, 0, 0⟩ rows cols).next finalize with
  | (o, .ok ()) => .ok o
  | (_, .error e) => .error e

/-- Eigen: `matrix.resize(rows, cols)`, sizes which are not negative; the entries are given by `e`. -/
def resizeRaw (o : BlockObject K) (rows cols : ℤ) (e : ℕ → ℕ → K) : Outcome K :=
  if 0 ≤ rows ∧ 0 ≤ cols then ({ o with m := ⟨rows.toNat, cols.toNat, e⟩ }, .ok ()) else (o, .error .ub)

/-- `set`, blockmatrix_base.h:168-173. -/
def set (o : BlockObject K) (A : Mat K) : Outcome K := finalize { o with m := A }

/-- `resize`, blockmatrix_base.h:182-188, 211-214; the entries are not initialised. -/
def resize (o : BlockObject K) (junk : ℕ → ℕ → K) (nv nh : ℤ) : Outcome K :=
  (o.resizeRaw (nv * o.blockRows) (nh * o.blockCols) junk).next finalize

/-- `setZero`, blockmatrix_base.h:197-203, 222-225. -/
def setZero [Zero K] (o : BlockObject K) (nv nh : ℤ) : Outcome K :=
  (o.resizeRaw (nv * o.blockRows) (nh * o.blockCols) fun _ _ => 0).next finalize

/-- `setBlockSize`, blockmatrix_base.h:395-404. -/
def setBlockSize (o : BlockObject K) (rows cols : ℤ) : Outcome K :=
  if o.tr ≠ -1 ∨ 0 < rows then
    if o.tc ≠ -1 ∨ 0 < cols then (o.initializeBlockSize rows cols).next finalize
    else (o, .error .thrown)
  else (o, .error .thrown)

/-- Where a block of Eigen is: first row, first column, number of rows, number of columns. -/
structure Place where
  row : ℤ
  col : ℤ
  height : ℤ
  width : ℤ

/-- `operator()(index_row, index_col)`, blockmatrix_base.h:570-587, 629-646, 758-770. All variants of the template use the same
numbers: the size given by the template if there is one. A block of size 1x1 is an entry. -/
def at_ (o : BlockObject K) (i j : ℤ) : Place := ⟨i * o.blockRows, j * o.blockCols, o.blockRows, o.blockCols⟩

/-- `operator()(index)`, blockmatrix_base.h:596-606, 647-656, 780-790. -/
def diagonal (o : BlockObject K) (i : ℤ) : Place := o.at_ i i

/-- `column(index_col, index_row_first, index_num_rows)`, blockmatrix_base.h:238-247, 268-277. -/
def columnPart (o : BlockObject K) (j first num : ℤ) : Place := ⟨first * o.blockRows, j * o.blockCols, num * o.blockRows, o.blockCols⟩

/-- `column(index_col, index_row_first)`, blockmatrix_base.h:260-264, 281-285. -/
def column (o : BlockObject K) (j first : ℤ) : Res Place := do
  let n ← read o.nv
  pure (o.columnPart j first (n - first))

/-- `row(index_row, index_col_first, index_num_cols)`, blockmatrix_base.h:297-306, 327-336. -/
def rowPart (o : BlockObject K) (i first num : ℤ) : Place := ⟨i * o.blockRows, first * o.blockCols, o.blockRows, num * o.blockCols⟩

/-- `row(index_row, index_col_first)`, blockmatrix_base.h:319-323, 340-344. -/
def row (o : BlockObject K) (i first : ℤ) : Res Place := do
  let n ← read o.nh
  pure (o.rowPart i first (n - first))

/-- The requirement of Eigen: a block is within the matrix. -/
def Place.within (p : Place) (A : Mat K) : Prop :=
  0 ≤ p.row ∧ 0 ≤ p.col ∧ 0 ≤ p.height ∧ 0 ≤ p.width ∧ p.row + p.height ≤ A.rows ∧ p.col + p.width ≤ A.cols

instance (p : Place) (A : Mat K) : Decidable (p.within A) := by unfold Place.within; infer_instance

/-- The value of a block. -/
def get (o : BlockObject K) (p : Place) : Res (Mat K) := do
  require (p.within o.m)
  o.m.block p.row.toNat p.col.toNat p.height.toNat p.width.toNat

/-- Assignment to a block. -/
def put (o : BlockObject K) (p : Place) (B : Mat K) : Outcome K :=
  if p.within o.m then
    match o.m.setBlock p.row.toNat p.col.toNat p.height.toNat p.width.toNat B with
    | .ok A => ({ o with m := A }, .ok ())
    | .error e => (o, .error e)
  else (o, .error .ub)

/-- `selectRowInBlocksAsMatrix`, blockmatrix_base.h:366-369; the index is converted to `std::size_t`. -/
def selectRowInBlocksAsMatrix (o : BlockObject K) (r : ℤ) : Res (Mat K) := do
  require (0 ≤ r ∧ 0 ≤ o.blockRows)
  let V ← selectRows o.m o.blockRows.toNat r.toNat
  V.toMat

/-- `selectRowInBlocks`, blockmatrix.h:200-207: the second size which is passed is the number of *rows* in a block. -/
def selectRowInBlocks (o : BlockObject K) (r : ℤ) : Res (BlockObject K) := do
  let A ← o.selectRowInBlocksAsMatrix r
  construct 1 o.tc A 0 (if 0 < o.tr then 0 else o.br)

/-- `getBlockKroneckerProduct`, blockmatrix.h:217-235, 139-159, and the constructor, blockmatrix_kronecker.h:302-311: the block matrix in the
product; `identity_size` must be greater than `1`. -/
def getBlockKroneckerProduct (o : BlockObject K) (identity_size : ℤ) : Res (BlockObject K) := do
  let P ← construct o.tr o.tc o.m (if 0 < o.tr then 0 else o.br) (if 0 < o.tc then 0 else o.bc)
  assertThat (identity_size > 1)
  pure P

/-- Operations which change an object. -/
inductive Op (K : Type)
  | set (A : Mat K)
  | resize (junk : ℕ → ℕ → K) (nv nh : ℤ)
  | setZero (nv nh : ℤ)
  | setBlockSize (rows cols : ℤ)
  | putBlock (i j : ℤ) (B : Mat K)
  | putColumn (j first num : ℤ) (B : Mat K)
  | putRow (i first num : ℤ) (B : Mat K)

/-- Whether an operation computes the numbers of blocks. -/
def Op.sizing : Op K → Bool
  | .set _ | .resize _ _ _ | .setZero _ _ | .setBlockSize _ _ => true
  | _ => false

/-- One operation. -/
def apply [Zero K] (o : BlockObject K) : Op K → Outcome K
  | .set A => o.set A
  | .resize junk nv nh => o.resize junk nv nh
  | .setZero nv nh => o.setZero nv nh
  | .setBlockSize rows cols => o.setBlockSize rows cols
  | .putBlock i j B => o.put (o.at_ i j) B
  | .putColumn j first num B => o.put (o.columnPart j first num) B
  | .putRow i first num B => o.put (o.rowPart i first num) B

/-- A sequence of operations, all of them must be completed. -/
def run [Zero K] : List (Op K) → BlockObject K → Res (BlockObject K)
  | [], o => .ok o
  | op :: l, o =>
    match o.apply op with
    | (o', .ok ()) => run l o'
    | (_, .error e) => .error e

/-- A sequence of operations; exceptions are caught. -/
def runCaught [Zero K] : List (Op K) → BlockObject K → Res (BlockObject K)
  | [], o => .ok o
  | op :: l, o =>
    match o.apply op with
    | (o', .ok ()) => runCaught l o'
    | (o', .error .thrown) => runCaught l o'
    | (_, .error .ub) => .error .ub

end BlockObject

/-! ## Products -/

/-- `A.triangularView<Lower>()` as a matrix. -/
def Mat.lower [Zero K] (A : Mat K) : Mat K := ⟨A.rows, A.cols, fun i j => if j ≤ i then A.e i j else 0⟩

/-- Sparsity types, blockmatrix_base.h:817-827. -/
inductive Sparsity
  | none
  | diagonal
  | leftLowerTriangular
  deriving DecidableEq

/-- `multiplyRight(result, matrix)` of all sparsity types: blockmatrix_base.h:869-874, 916-934, 1048-1070, 1129-1137, 1192-1201. For left lower
triangular matrices with blocks 1x1 (given by the template) only the triangle is used. -/
def BlockMat.multiplyRight [AddCommMonoid K] [Mul K] (t : Sparsity) (static : Bool) (M : BlockMat K) (junk : ℕ → ℕ → K) (A : Mat K) : Res (Mat K) :=
  match t with
  | .none => M.m.mul A
  | .diagonal => M.diagMultiplyRight junk A
  | .leftLowerTriangular =>
    if static = true ∧ M.br = 1 ∧ M.bc = 1 then do
      assertThat (A.rows = M.m.cols)
      M.m.lower.mul A
    else M.m.mul A

/-- `operator*` for two block matrices, blockmatrix_base.h:975-987, 1259-1281, 1301-1323: the right matrix is block diagonal, or the left one is. The other
combinations are not functions: `multiplyRight` for a block matrix is only defined for block diagonal matrices. The number of
columns in the blocks of the left matrix must be equal to the number of rows in the blocks of the right matrix. -/
def BlockMat.times [AddCommMonoid K] [Mul K] (right_is_diagonal : Bool) (L R : BlockMat K) (junk : ℕ → ℕ → K) : Res (Mat K) :=
  if right_is_diagonal then R.diagMultiplyLeft junk L.m else L.diagMultiplyRight junk R.m

end Humoto
