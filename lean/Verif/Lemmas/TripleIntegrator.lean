import Verif.Model.TripleIntegrator
import Verif.Spec.TripleIntegrator
import Verif.Lemmas.Eigentools
import Verif.Lemmas.Paint
import Mathlib.Tactic.FieldSimp
import Mathlib.Tactic.Ring

/-!
# Lemmas on the triple integrator
-/

namespace Humoto

open Spec TripleIntegrator

set_option linter.unusedSectionVars false

variable {K : Type}

/-- A row of the product of a block diagonal matrix with equal blocks and a vector. -/
theorem copies_row [Semiring K] {n : ℕ} {M R : Mat K} (hR : BlockDiagonalOf (List.replicate n M) R) (x : ℕ → K)
    {k r : ℕ} (hk : k < n) (hr : r < M.rows) :
    ∑ c ∈ Finset.range R.cols, R.e (k * M.rows + r) c * x c = ∑ c ∈ Finset.range M.cols, M.e r c * x (k * M.cols + c) := by
  have hc : R.cols = n * M.cols := by rw [hR.cols]; simp [sumCols]
  rw [hc, sum_blk, Finset.sum_eq_single k]
  · refine Finset.sum_congr rfl fun c hc => ?_
    have := hR.diagonal k M (by simp [hk]) r hr c (Finset.mem_range.mp hc)
    rw [rowsBefore_replicate _ _ _ hk.le, colsBefore_replicate _ _ _ hk.le] at this
    rw [this]
  · intro l hl hne
    have hl' := Finset.mem_range.mp hl
    refine Finset.sum_eq_zero fun c hc => ?_
    have := hR.zero k l M M (Ne.symm hne) (by simp [hk]) (by simp [hl']) r hr c (Finset.mem_range.mp hc)
    rw [rowsBefore_replicate _ _ _ hk.le, colsBefore_replicate _ _ _ hl'.le] at this
    rw [this, zero_mul]
  · intro h; exact absurd (Finset.mem_range.mpr hk) h

/-- Rows of the expression `A x + B u` for block diagonal matrices with equal blocks. -/
theorem affine_copies [Semiring K] {n : ℕ} {M N A B : Mat K} (hA : BlockDiagonalOf (List.replicate n M) A)
    (hB : BlockDiagonalOf (List.replicate n N) B) (hMN : M.rows = N.rows) {x u : Vec K} (hx : x.n = n * M.cols)
    (hu : u.n = n * N.cols) : ∃ y, affine A x B u = .ok y ∧ y.n = n * M.rows ∧ ∀ k < n, ∀ r < M.rows,
      y.e (k * M.rows + r) = ∑ c ∈ Finset.range M.cols, M.e r c * x.e (k * M.cols + c) +
        ∑ c ∈ Finset.range N.cols, N.e r c * u.e (k * N.cols + c) := by
  have a1 : A.rows = n * M.rows := by rw [hA.rows]; simp [sumRows]
  have a2 : A.cols = n * M.cols := by rw [hA.cols]; simp [sumCols]
  have b1 : B.rows = n * N.rows := by rw [hB.rows]; simp [sumRows]
  have b2 : B.cols = n * N.cols := by rw [hB.cols]; simp [sumCols]
  unfold affine Mat.mulVec Vec.add
  rw [if_pos (by rw [a2, hx]), ok_bind, if_pos (by rw [b2, hu]), ok_bind]
  refine ⟨_, if_pos (by simp only [a1, b1, hMN]), a1, ?_⟩
  intro k hk r hr
  have h2 := copies_row hB u.e hk (r := r) (by omega)
  simp only [copies_row hA x.e hk hr]
  rw [hMN, h2]

theorem scaledIdentity_copies [Field K] (n : ℕ) (x : K) :
    BlockDiagonalOf (List.replicate n (Mat.ofRows 1 [[x]])) (scaledIdentity n x) := by
  refine ⟨by simp [scaledIdentity, sumRows, Mat.ofRows], by simp [scaledIdentity, sumCols, Mat.ofRows], ?_, ?_⟩
  · intro b M hb i hi j hj
    simp only [List.getElem?_replicate] at hb
    split at hb
    · rename_i hbn
      cases hb
      rw [rowsBefore_replicate _ _ _ hbn.le, colsBefore_replicate _ _ _ hbn.le]
      simp only [Mat.ofRows, List.length] at hi hj ⊢
      obtain rfl : i = 0 := by omega
      obtain rfl : j = 0 := by omega
      simp [scaledIdentity]
    · cases hb
  · intro b c M N hne hb hc i hi j hj
    simp only [List.getElem?_replicate] at hb hc
    split at hb <;> split at hc
    · rename_i hbn hcn
      cases hb; cases hc
      rw [rowsBefore_replicate _ _ _ hbn.le, colsBefore_replicate _ _ _ hcn.le]
      simp only [Mat.ofRows, List.length] at hi hj ⊢
      obtain rfl : i = 0 := by omega
      obtain rfl : j = 0 := by omega
      simp [scaledIdentity, hne]
    · cases hc
    · cases hb
    · cases hc

/-- `A x + B u` for copies of a 3x3 and a 3x1 matrix. -/
theorem affine3 [Field K] {n : ℕ} {a00 a01 a02 a10 a11 a12 a20 a21 a22 b0 b1 b2 : K} {RA RB : Res (Mat K)}
    (hA : RA = makeBlockDiagonalCopies (Mat.ofRows 3 [[a00, a01, a02], [a10, a11, a12], [a20, a21, a22]]) n)
    (hB : RB = makeBlockDiagonalCopies (Mat.ofRows 1 [[b0], [b1], [b2]]) n) {x u : Vec K} (hx : x.n = 3 * n) (hu : u.n = n) :
    ∃ A B y, RA = .ok A ∧ RB = .ok B ∧ affine A x B u = .ok y ∧ y.n = 3 * n ∧ ∀ k < n,
      y.e (3 * k) = a00 * x.e (3 * k) + a01 * x.e (3 * k + 1) + a02 * x.e (3 * k + 2) + b0 * u.e k ∧
      y.e (3 * k + 1) = a10 * x.e (3 * k) + a11 * x.e (3 * k + 1) + a12 * x.e (3 * k + 2) + b1 * u.e k ∧
      y.e (3 * k + 2) = a20 * x.e (3 * k) + a21 * x.e (3 * k + 1) + a22 * x.e (3 * k + 2) + b2 * u.e k := by
  obtain ⟨A, hA', hA''⟩ := makeBlockDiagonalCopies_ok (Mat.ofRows 3 [[a00, a01, a02], [a10, a11, a12], [a20, a21, a22]]) n
  obtain ⟨B, hB', hB''⟩ := makeBlockDiagonalCopies_ok (Mat.ofRows 1 [[b0], [b1], [b2]]) n
  obtain ⟨y, hy, hyn, hye⟩ := affine_copies hA'' hB'' rfl (x := x) (u := u) (by simp [Mat.ofRows, hx, Nat.mul_comm])
    (by simp [Mat.ofRows, hu])
  refine ⟨A, B, y, hA.trans hA', hB.trans hB', hy, by rw [hyn]; simp [Mat.ofRows, Nat.mul_comm], ?_⟩
  intro k hk
  have h0 := hye k hk 0 (by simp [Mat.ofRows])
  have h1 := hye k hk 1 (by simp [Mat.ofRows])
  have h2 := hye k hk 2 (by simp [Mat.ofRows])
  simp only [Mat.ofRows, List.length, Finset.sum_range_succ, Finset.sum_range_zero, Nat.add_zero, Nat.mul_one,
    List.getD_cons_zero, List.getD_cons_succ, zero_add] at h0 h1 h2
  rw [Nat.mul_comm 3 k]
  exact ⟨h0, h1, h2⟩

/-- `D x + E u` for copies of a 1x3 matrix and a scaled identity. -/
theorem affine1 [Field K] {n : ℕ} {d0 d1 d2 e : K} {RD : Res (Mat K)} {E : Mat K}
    (hD : RD = makeBlockDiagonalCopies (Mat.ofRows 3 [[d0, d1, d2]]) n) (hE : E = scaledIdentity n e)
    {x u : Vec K} (hx : x.n = 3 * n) (hu : u.n = n) :
    ∃ D j, RD = .ok D ∧ affine D x E u = .ok j ∧ j.n = n ∧ ∀ k < n,
      j.e k = d0 * x.e (3 * k) + d1 * x.e (3 * k + 1) + d2 * x.e (3 * k + 2) + e * u.e k := by
  obtain ⟨D, hD', hD''⟩ := makeBlockDiagonalCopies_ok (Mat.ofRows 3 [[d0, d1, d2]]) n
  obtain ⟨y, hy, hyn, hye⟩ := affine_copies hD'' (scaledIdentity_copies n e) rfl (x := x) (u := u)
    (by simp [Mat.ofRows, hx, Nat.mul_comm]) (by simp [Mat.ofRows, hu])
  refine ⟨D, y, hD.trans hD', by rw [hE]; exact hy, by rw [hyn]; simp [Mat.ofRows], ?_⟩
  intro k hk
  have h0 := hye k hk 0 (by simp [Mat.ofRows])
  simp only [Mat.ofRows, List.length, Finset.sum_range_succ, Finset.sum_range_zero, Nat.add_zero, Nat.mul_one,
    List.getD_cons_zero, List.getD_cons_succ, zero_add] at h0
  rw [Nat.mul_comm 3 k]
  exact h0

/-- The jerk with which the commanded value is reached, and the motion. -/
theorem command [Field K] {n : ℕ} {a00 a01 a02 a10 a11 a12 a20 a21 a22 b0 b1 b2 d0 d1 d2 e t : K} {RA RB RD : Res (Mat K)}
    {E : Mat K}
    (hA : RA = makeBlockDiagonalCopies (Mat.ofRows 3 [[a00, a01, a02], [a10, a11, a12], [a20, a21, a22]]) n)
    (hB : RB = makeBlockDiagonalCopies (Mat.ofRows 1 [[b0], [b1], [b2]]) n)
    (hD : RD = makeBlockDiagonalCopies (Mat.ofRows 3 [[d0, d1, d2]]) n) (hE : E = scaledIdentity n e)
    (h0 : ∀ p v a u : K, a00 * p + a01 * v + a02 * a + b0 * u = positionAt p v a (d0 * p + d1 * v + d2 * a + e * u) t)
    (h1 : ∀ p v a u : K, a10 * p + a11 * v + a12 * a + b1 * u = velocityAt v a (d0 * p + d1 * v + d2 * a + e * u) t)
    (h2 : ∀ p v a u : K, a20 * p + a21 * v + a22 * a + b2 * u = accelerationAt a (d0 * p + d1 * v + d2 * a + e * u) t)
    {x u : Vec K} (hx : x.n = 3 * n) (hu : u.n = n) :
    ∃ A B D y j, RA = .ok A ∧ RB = .ok B ∧ RD = .ok D ∧ affine A x B u = .ok y ∧ affine D x E u = .ok j ∧
      Reaches n x j t y := by
  obtain ⟨A, B, y, hA', hB', hy, hyn, hye⟩ := affine3 hA hB hx hu
  obtain ⟨D, j, hD', hj, hjn, hje⟩ := affine1 hD hE hx hu
  refine ⟨A, B, D, y, j, hA', hB', hD', hy, hj, hx, hjn, hyn, ?_⟩
  intro k hk
  obtain ⟨e0, e1, e2⟩ := hye k hk
  rw [e0, e1, e2, hje k hk]
  exact ⟨h0 _ _ _ _, h1 _ _ _ _, h2 _ _ _ _⟩

end Humoto
