import Verif.Model.Loop

/-!
# Products of a matrix with its transpose (core/include/eigentools/eigentools.h)

A matrix which was resized but not assigned has arbitrary content, the function `z`.
-/

namespace Humoto

variable {K : Type}

/-- `A.block(r, c, h, w) += B`. -/
def Mat.addBlock [Add K] (A : Mat K) (r c h w : ℕ) (B : Mat K) : Res (Mat K) :=
  if r + h ≤ A.rows ∧ c + w ≤ A.cols ∧ B.rows = h ∧ B.cols = w then
    .ok ⟨A.rows, A.cols, fun i j =>
      if (r ≤ i ∧ i < r + h) ∧ (c ≤ j ∧ j < c + w) then A.e i j + B.e (i - r) (j - c) else A.e i j⟩
  else .error .ub

variable [Field K]

/-- `A.transpose().bottomRows(A.cols() - i) * A.col(i)`, eigentools.h:211, 244, 268, 297. -/
def gramColumn (A : Mat K) (i : ℕ) : Mat K :=
  ⟨A.cols - i, 1, fun r _ => ∑ k ∈ Finset.range A.rows, A.e k (i + r) * A.e k i⟩

/-- `etools::getATA(result, A)`, eigentools.h:202-213. -/
def getATA (z : ℕ → ℕ → K) (A : Mat K) : Res (Mat K) :=
  forRange A.cols ⟨A.cols, A.cols, z⟩ fun R i => R.setBlock i i (A.cols - i) 1 (gramColumn A i)

/-- `etools::getATA(result, A, offset, num_el)`, eigentools.h:229-246. -/
def getATAOffset (z : ℕ → ℕ → K) (A : Mat K) (off : ℤ) (n : ℕ) : Res (Mat K) :=
  forRange A.cols ⟨n, n, fun i j => if j ≤ i then 0 else z i j⟩ fun R i => do
    require (0 ≤ off ∧ off + (A.cols : ℤ) ≤ (R.rows : ℤ) ∧ off + (A.cols : ℤ) ≤ (R.cols : ℤ))
    R.setBlock (off.toNat + i) (off.toNat + i) (A.cols - i) 1 (gramColumn A i)

/-- `etools::addATA(result, A)`, eigentools.h:260-270. -/
def addATA (H : Mat K) (A : Mat K) : Res (Mat K) :=
  forRange A.cols H fun R i => R.addBlock i i (A.cols - i) 1 (gramColumn A i)

/-- `etools::addATA(result, A, offset)`, eigentools.h:285-299. -/
def addATAOffset (H : Mat K) (A : Mat K) (off : ℤ) : Res (Mat K) :=
  forRange A.cols H fun R i => do
    require (0 ≤ off ∧ off + (A.cols : ℤ) ≤ (R.rows : ℤ) ∧ off + (A.cols : ℤ) ≤ (R.cols : ℤ))
    R.addBlock (off.toNat + i) (off.toNat + i) (A.cols - i) 1 (gramColumn A i)

/-- `etools::convertLLTtoSymmetric`, eigentools.h:310-319. -/
def convertLLTtoSymmetric (H : Mat K) : Res (Mat K) :=
  forRange (H.cols - 1) H fun R i => do
    let T := R.transpose
    require (i + 1 ≤ T.rows ∧ i + 1 + (H.cols - i - 1) ≤ T.cols)
    R.setBlock i (i + 1) 1 (H.cols - i - 1) ⟨1, H.cols - i - 1, fun r c => T.e (i + r) (i + 1 + c)⟩

end Humoto
