import Verif.Model.BlockObject

/-!
# What a block matrix is
-/

namespace Humoto.Spec

open BlockObject

variable {K : Type}

/-- The reported numbers of an object describe a partition of its matrix: if the number of rows in a block is known, then it is positive, the
reported number of blocks and this number give the number of rows which is reported, and the matrix has this number of rows; if it is not known, then
the number of blocks is not initialised. -/
def RowsPartitioned (o : BlockObject K) : Prop :=
  (0 < o.blockRows ∧ ∃ n : ℕ, o.getNumberOfBlocksVertical = .ok n ∧ o.getNumberOfRows = .ok (o.m.rows : ℤ) ∧ o.blockRows * n = o.m.rows) ∨
    (o.tr = -1 ∧ o.blockRows = 0 ∧ o.getNumberOfBlocksVertical = .error .ub)

/-- The same for columns. -/
def ColsPartitioned (o : BlockObject K) : Prop :=
  (0 < o.blockCols ∧ ∃ n : ℕ, o.getNumberOfBlocksHorizontal = .ok n ∧ o.getNumberOfColumns = .ok (o.m.cols : ℤ) ∧ o.blockCols * n = o.m.cols) ∨
    (o.tc = -1 ∧ o.blockCols = 0 ∧ o.getNumberOfBlocksHorizontal = .error .ub)

/-- Both dimensions. -/
def Partitioned (o : BlockObject K) : Prop := RowsPartitioned o ∧ ColsPartitioned o

/-- The matrix consists of `nv` by `nh` blocks, each of them has `br` rows and `bc` columns. -/
def HasBlocks (o : BlockObject K) (nv nh br bc : ℕ) : Prop :=
  o.blockRows = br ∧ o.blockCols = bc ∧ 0 < br ∧ 0 < bc ∧ o.getNumberOfBlocksVertical = .ok (nv : ℤ) ∧ o.getNumberOfBlocksHorizontal = .ok (nh : ℤ) ∧
    o.m.rows = nv * br ∧ o.m.cols = nh * bc

/-- An object with some past; exceptions have been caught. -/
def ReachableObject [Zero K] (o : BlockObject K) : Prop :=
  ∃ (tr tc rows cols : ℤ) (m : Mat K) (start : BlockObject K) (past : List (Op K)),
    construct tr tc m rows cols = .ok start ∧ runCaught past start = .ok o

/-- `B` is the part of `A` which starts at the row `r` and the column `c` and has `h` rows and `w` columns. -/
def PartOf (A : Mat K) (r c h w : ℕ) (B : Mat K) : Prop :=
  B.rows = h ∧ B.cols = w ∧ ∀ i < h, ∀ j < w, B.e i j = A.e (r + i) (c + j)

/-- `A'` is `A` with this part replaced by `B`. -/
def Replaced (A : Mat K) (r c h w : ℕ) (B A' : Mat K) : Prop :=
  A'.rows = A.rows ∧ A'.cols = A.cols ∧ (∀ i < h, ∀ j < w, A'.e (r + i) (c + j) = B.e i j) ∧
    ∀ i j, ¬ ((r ≤ i ∧ i < r + h) ∧ (c ≤ j ∧ j < c + w)) → A'.e i j = A.e i j

end Humoto.Spec
