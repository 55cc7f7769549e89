import Verif.Model.Loop

/-!
# Block matrices, core/include/eigentools/blockmatrix_base.h

A block matrix is a dense matrix with the size of a block. The sparsity type of the C++ class does not change the storage
(the raw matrix is always full), only the multiplication functions.
-/

namespace Humoto

/-- `A.block(r, c, h, w)` as a value. -/
def Mat.block {K : Type} (A : Mat K) (r c h w : ℕ) : Res (Mat K) :=
  if r + h ≤ A.rows ∧ c + w ≤ A.cols then .ok ⟨h, w, fun i j => A.e (r + i) (c + j)⟩ else .error .ub

/-- `MatrixXd::Identity(n, n)`. -/
def Mat.identity {K : Type} [Zero K] [One K] (n : ℕ) : Mat K := ⟨n, n, fun i j => if i = j then 1 else 0⟩

/-- `v[i]` of a `std::vector`. -/
def vecAt {α : Type} (l : List α) (i : ℕ) : Res α :=
  match l[i]? with
  | some a => .ok a
  | none => .error .ub

/-- `BlockMatrixAccessBase`, blockmatrix_base.h:387-394: raw matrix and size of a block. The template sizes and the sizes
given at run time are not distinguished. -/
structure BlockMat (K : Type) where
  br : ℕ
  bc : ℕ
  m : Mat K

namespace BlockMat

variable {K : Type}

/-- `finalize`, blockmatrix_base.h:498-527. -/
def finalize (M : BlockMat K) : Res (BlockMat K) := do
  assertThat (M.br > 0)
  assertThat (M.m.rows % M.br = 0)
  assertThat (M.bc > 0)
  assertThat (M.m.cols % M.bc = 0)
  pure M

/-- `getNumberOfBlocksVertical`, blockmatrix_base.h:127-130, as computed by `finalize`. -/
def nVert (M : BlockMat K) : ℕ := M.m.rows / M.br

/-- `getNumberOfBlocksHorizontal`, blockmatrix_base.h:134-137, as computed by `finalize`. -/
def nHor (M : BlockMat K) : ℕ := M.m.cols / M.bc

/-- `resize`, blockmatrix_base.h:179-185; the entries are not initialised: `junk`. -/
def resize (M : BlockMat K) (junk : ℕ → ℕ → K) (nv nh : ℕ) : Res (BlockMat K) :=
  finalize { M with m := ⟨nv * M.br, nh * M.bc, junk⟩ }

/-- `setZero`, blockmatrix_base.h:194-200. -/
def setZero [Zero K] (M : BlockMat K) (nv nh : ℕ) : Res (BlockMat K) :=
  finalize { M with m := ⟨nv * M.br, nh * M.bc, fun _ _ => 0⟩ }

/-- `operator()(row, col)`, blockmatrix_base.h:570-586, 626-643. -/
def blk (M : BlockMat K) (i j : ℕ) : Res (Mat K) := M.m.block (i * M.br) (j * M.bc) M.br M.bc

/-- `M(row, col) = B`. -/
def setBlk (M : BlockMat K) (i j : ℕ) (B : Mat K) : Res (BlockMat K) := do
  let m ← M.m.setBlock (i * M.br) (j * M.bc) M.br M.bc B
  pure { M with m := m }

/-- `row(index, first, number)`, blockmatrix_base.h:297-306. -/
def row (M : BlockMat K) (i first num : ℕ) : Res (Mat K) := M.m.block (i * M.br) (first * M.bc) M.br (num * M.bc)

/-- `M.row(index, first, number) = B`. -/
def setRow (M : BlockMat K) (i first num : ℕ) (B : Mat K) : Res (BlockMat K) := do
  let m ← M.m.setBlock (i * M.br) (first * M.bc) M.br (num * M.bc) B
  pure { M with m := m }

/-- `column(index, first)`, blockmatrix_base.h:235-263, till the end of the column. -/
def column (M : BlockMat K) (j first : ℕ) : Res (Mat K) :=
  M.m.block (first * M.br) (j * M.bc) ((M.nVert - first) * M.br) M.bc

/-- `M.column(index, first) = B`. -/
def setColumn (M : BlockMat K) (j first : ℕ) (B : Mat K) : Res (BlockMat K) := do
  let m ← M.m.setBlock (first * M.br) (j * M.bc) ((M.nVert - first) * M.br) M.bc B
  pure { M with m := m }

end BlockMat

end Humoto
