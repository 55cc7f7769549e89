import Verif.Model.Eigentools

/-!
# Products of block matrices, core/include/eigentools/blockmatrix_base.h and blockmatrix_kronecker.h

Results are resized, but not initialised before they are filled: `junk`. The fixed size variants are not distinguished.
-/

namespace Humoto

variable {K : Type}

namespace BlockMat

/-- `BlockMatrixBase<DIAGONAL>::multiplyRight(result, matrix)`, blockmatrix_base.h:916-933. -/
def diagMultiplyRight [AddCommMonoid K] [Mul K] (D : BlockMat K) (junk : ℕ → ℕ → K) (A : Mat K) : Res (Mat K) := do
  assertThat (A.rows = D.m.cols)
  forRange D.nHor ⟨D.m.rows, A.cols, junk⟩ fun R i => do
    let d ← D.blk i i
    let a ← A.block (i * D.bc) 0 D.bc A.cols
    let p ← d.mul a
    R.setBlock (i * D.br) 0 D.br A.cols p

/-- `BlockMatrixBase<DIAGONAL>::multiplyLeft(result, matrix)`, blockmatrix_base.h:945-963. -/
def diagMultiplyLeft [AddCommMonoid K] [Mul K] (D : BlockMat K) (junk : ℕ → ℕ → K) (A : Mat K) : Res (Mat K) := do
  assertThat (A.cols = D.m.rows)
  forRange D.nVert ⟨A.rows, D.m.cols, junk⟩ fun R i => do
    let a ← A.block 0 (i * D.br) A.rows D.br
    let d ← D.blk i i
    let p ← a.mul d
    R.setBlock 0 (i * D.bc) A.rows D.bc p

end BlockMat

/-- `BlockKroneckerProductBase`, blockmatrix_kronecker.h:28-30: a block matrix and the size of the identity. -/
structure Kron (K : Type) where
  M : BlockMat K
  id : ℕ

namespace Kron

/-- Constructor, blockmatrix_kronecker.h:302-311, 509-518, 729-738, 962-971. -/
def construct (M : Mat K) (id br bc : ℕ) : Res (Kron K) := do
  let B ← BlockMat.finalize ⟨br, bc, M⟩
  assertThat (id > 1)
  pure ⟨B, id⟩

/-- Body of the loops of `evaluateWithoutInitialization`, blockmatrix_kronecker.h:65-71, 371-377. -/
def evaluateStep (X : Kron K) (O : Mat K) (i j k : ℕ) : Res (Mat K) := do
  let B ← X.M.blk i j
  O.setBlock ((i * X.id + k) * X.M.br) ((j * X.id + k) * X.M.bc) X.M.br X.M.bc B

/-- `evaluate`, blockmatrix_kronecker.h:52-74, 266-272, no sparsity. -/
def evaluate [Zero K] (X : Kron K) : Res (Mat K) :=
  forRange X.M.nHor ⟨X.id * X.M.m.rows, X.id * X.M.m.cols, fun _ _ => 0⟩ fun O j =>
    forRange X.M.nVert O fun O i =>
      forRange X.id O fun O k => X.evaluateStep O i j k

/-- `evaluate`, blockmatrix_kronecker.h:358-380, 474-480, left lower triangular: the row index starts from `j`. -/
def evaluateLLT [Zero K] (X : Kron K) : Res (Mat K) :=
  forRange X.M.nHor ⟨X.id * X.M.m.rows, X.id * X.M.m.cols, fun _ _ => 0⟩ fun O j =>
    forRange (X.M.nVert - j) O fun O i =>
      forRange X.id O fun O k => X.evaluateStep O (j + i) j k

/-- The vector `indices`, blockmatrix_kronecker.h:113-126, 418-431. `LinSpaced(n, low, high)` is the sequence of integers
from `low` to `high = low + n - 1`. -/
def indices (X : Kron K) (junk : ℕ → ℕ) : Res (Vec ℕ) :=
  forRange X.id ⟨X.id * X.M.m.rows, junk⟩ fun v i =>
    forRange X.M.nVert v fun v j =>
      v.setSegment (j * X.M.br * X.id + i * X.M.br) X.M.br ⟨X.M.br, fun r => i * X.M.m.rows + j * X.M.br + r⟩

/-- `PermutationWrapper(indices).transpose() * result`: row `i` of the product is row `indices(i)` of the matrix. -/
def permuteRows (v : Vec ℕ) (R : Mat K) : Res (Mat K) := do
  require (v.n = R.rows ∧ ∀ i < v.n, v.e i < R.rows)
  pure ⟨R.rows, R.cols, fun i j => R.e (v.e i) j⟩

/-- The checks of `multiplyRight`, blockmatrix_kronecker.h:102-107, 408-413. -/
def checkRight (X : Kron K) (D : BlockMat K) : Res Unit := do
  assertThat (D.br = X.M.bc * X.id)
  assertThat (X.M.nHor = D.nVert)
  assertThat (X.M.nHor * X.M.bc * X.id = D.m.rows)

/-- `multiplyRight(result, dbm)`, blockmatrix_kronecker.h:96-144, no sparsity. -/
def multiplyRight [AddCommMonoid K] [Mul K] (X : Kron K) (junk : ℕ → ℕ → K) (junkI : ℕ → ℕ) (D : BlockMat K) :
    Res (Mat K) := do
  X.checkRight D
  if X.M.nHor ≠ 0 then do
    let v ← X.indices junkI
    let w := D.m.cols / X.M.nHor
    let R ← forRange X.id ⟨X.id * X.M.m.rows, D.m.cols, junk⟩ fun R i =>
      forRange X.M.nHor R fun R j => do
        let c ← X.M.column j 0
        let b ← D.blk j j
        let b ← b.block (i * X.M.bc) 0 X.M.bc w
        let p ← c.mul b
        R.setBlock (i * X.M.m.rows) (w * j) X.M.m.rows w p
    permuteRows v R
  else pure ⟨X.id * X.M.m.rows, D.m.cols, junk⟩

/-- `multiplyRight(result, dbm)`, blockmatrix_kronecker.h:402-449, left lower triangular. -/
def multiplyRightLLT [AddCommMonoid K] [Mul K] (X : Kron K) (junkI : ℕ → ℕ) (D : BlockMat K) : Res (Mat K) := do
  X.checkRight D
  if X.M.nHor ≠ 0 then do
    let v ← X.indices junkI
    let w := D.m.cols / X.M.nHor
    let R ← forRange X.id ⟨X.id * X.M.m.rows, D.m.cols, fun _ _ => 0⟩ fun R i =>
      forRange X.M.nHor R fun R j => do
        let c ← X.M.column j j
        let b ← D.blk j j
        let b ← b.block (i * X.M.bc) 0 X.M.bc w
        let p ← c.mul b
        require (j ≤ X.M.nVert)
        R.setBlock (i * X.M.m.rows + j * X.M.br) (w * j) ((X.M.nVert - j) * X.M.br) w p
    permuteRows v R
  else pure ⟨X.id * X.M.m.rows, D.m.cols, fun _ _ => 0⟩

/-- `v.segment(off, len)` as a value. -/
def segment (v : Vec K) (off len : ℕ) : Res (Vec K) :=
  if off + len ≤ v.n then .ok ⟨len, fun i => v.e (off + i)⟩ else .error .ub

/-- `multiplyRight(result, vector)`, blockmatrix_kronecker.h:210-241. -/
def multiplyRightVec [AddCommMonoid K] [Mul K] (X : Kron K) (junk junk' : ℕ → K) (x : Vec K) : Res (Vec K) := do
  let s ← forRange X.id ((⟨X.id * X.M.m.rows, junk⟩ : Vec K), (⟨X.M.m.cols, junk'⟩ : Vec K)) fun s i => do
    let part ← forRange X.M.nHor s.2 fun part j => do
      let g ← segment x (j * X.M.bc * X.id + i * X.M.bc) X.M.bc
      part.setSegment (j * X.M.bc) X.M.bc g
    let y ← X.M.m.mulVec part
    let res ← forRange X.M.nVert s.1 fun res j => do
      let g ← segment y (j * X.M.br) X.M.br
      res.setSegment (j * X.M.br * X.id + i * X.M.br) X.M.br g
    pure (res, part)
  pure s.1

/-! ### Blocks of the size 1x1

The class is specialised for such blocks. -/

/-- `evaluate`, blockmatrix_kronecker.h:560-580, 693-699, blocks 1x1, no sparsity. -/
def evaluate1 [Zero K] (X : Kron K) : Res (Mat K) :=
  forRange X.M.nHor ⟨X.id * X.M.m.rows, X.id * X.M.m.cols, fun _ _ => 0⟩ fun O j =>
    forRange X.M.nVert O fun O i =>
      forRange X.id O fun O k => do
        let x ← X.M.m.get i j
        O.set (i * X.id + k) (j * X.id + k) x

/-- `evaluate`, blockmatrix_kronecker.h:777-797, 927-933, blocks 1x1, left lower triangular. -/
def evaluate1LLT [Zero K] (X : Kron K) : Res (Mat K) :=
  forRange X.M.nHor ⟨X.id * X.M.m.rows, X.id * X.M.m.cols, fun _ _ => 0⟩ fun O j =>
    forRange (X.M.nVert - j) O fun O i =>
      forRange X.id O fun O k => do
        let x ← X.M.m.get (j + i) j
        O.set ((j + i) * X.id + k) (j * X.id + k) x

/-- The checks of the products with a diagonal matrix, blockmatrix_kronecker.h:608-613, 825-830, 877-882. -/
def check1 (X : Kron K) (D : BlockMat K) : Res Unit := do
  assertThat (D.br = X.id)
  assertThat (X.M.nHor = D.nVert)
  assertThat (X.M.nHor * X.id = D.m.rows)

/-- `a * B` for a number. -/
def scale [Mul K] (a : K) (B : Mat K) : Mat K := ⟨B.rows, B.cols, fun i j => a * B.e i j⟩

/-- `B * a` for a number. -/
def scaleRight [Mul K] (B : Mat K) (a : K) : Mat K := ⟨B.rows, B.cols, fun i j => B.e i j * a⟩

/-- `multiplyRight(result, dbm)`, blockmatrix_kronecker.h:602-634, blocks 1x1, no sparsity. The block matrix `result_bmi`
is constructed over the matrix which is passed for the result: the constructor checks the sizes this matrix has *before*
it is resized. Only fixed block sizes of `dbm` are modelled. -/
def multiplyRight1 [Mul K] (X : Kron K) (result : Mat K) (junk : ℕ → ℕ → K) (D : BlockMat K) : Res (Mat K) := do
  X.check1 D
  let R ← BlockMat.finalize ⟨D.br, D.bc, result⟩
  let R ← R.resize junk X.M.nVert D.nHor
  if X.M.nHor ≠ 0 then do
    let R ← forRange D.nHor R fun R j =>
      forRange X.M.nVert R fun R i => do
        let x ← X.M.m.get i j
        let d ← D.blk j j
        R.setBlk i j (scale x d)
    pure R.m
  else pure R.m

/-- `multiplyRight(result, dbm)`, blockmatrix_kronecker.h:819-852, blocks 1x1, left lower triangular. -/
def multiplyRight1LLT [Zero K] [Mul K] (X : Kron K) (result : Mat K) (D : BlockMat K) : Res (Mat K) := do
  X.check1 D
  let R ← BlockMat.finalize ⟨D.br, D.bc, result⟩
  let R ← R.setZero X.M.nVert D.nHor
  if X.M.nHor ≠ 0 then do
    let R ← forRange D.nHor R fun R j =>
      forRange (X.M.nVert - j) R fun R i => do
        let x ← X.M.m.get (j + i) j
        let d ← D.blk j j
        R.setBlk (j + i) j (scale x d)
    pure R.m
  else pure R.m

/-- `multiplyLeft(result, dbm)`, blockmatrix_kronecker.h:871-902, blocks 1x1, left lower triangular. The checks are those
of the product from the other side. -/
def multiplyLeft1LLT [Zero K] [Mul K] (X : Kron K) (result : Mat K) (D : BlockMat K) : Res (Mat K) := do
  X.check1 D
  let R ← BlockMat.finalize ⟨D.br, D.bc, result⟩
  let R ← R.setZero X.M.nVert D.nHor
  if X.M.nHor ≠ 0 then do
    let R ← forRange X.M.nHor R fun R j =>
      forRange (D.nVert - j) R fun R i => do
        let d ← D.blk (j + i) (j + i)
        let x ← X.M.m.get (j + i) j
        R.setBlk (j + i) j (scaleRight d x)
    pure R.m
  else pure R.m

/-- `multiplyRight(result, vector)`, blockmatrix_kronecker.h:649-668, blocks 1x1. -/
def multiplyRightVec1 [AddCommMonoid K] [Mul K] (X : Kron K) (x : Vec K) : Res (Vec K) :=
  forRange X.M.nHor ⟨X.id * X.M.m.rows, fun _ => 0⟩ fun res j =>
    forRange X.M.nVert res fun res i => do
      let old ← segment res (i * X.id) X.id
      let a ← X.M.m.get i j
      let g ← segment x (j * X.id) X.id
      res.setSegment (i * X.id) X.id ⟨X.id, fun r => old.e r + a * g.e r⟩

end Kron

end Humoto
