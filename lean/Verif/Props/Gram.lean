import Verif.Lemmas.Gram
import Mathlib.Tactic.NormNum

/-!
# Products of a matrix with its transpose: C42
-/

namespace Humoto

variable {K : Type} [Field K]

/-- `getATA`: the lower triangle of the result is that of `A'*A`, for every content `z` of the memory. -/
theorem C42_getATA (z : ℕ → ℕ → K) (A : Mat K) :
    ∃ R, getATA z A = .ok R ∧ R.rows = A.cols ∧ R.cols = A.cols ∧
      ∀ i j, j ≤ i → i < A.cols → R.e i j = ∑ k ∈ Finset.range A.rows, A.e k i * A.e k j := by
  obtain ⟨R, h, h1, h2, h3⟩ := getATA_ok z A
  exact ⟨R, h, h1, h2, fun i j hij hi => by rw [h3, if_pos ⟨hij, hi⟩]; rfl⟩

/-- `getATA` with an offset which fits: the lower triangle of the `n x n` result consists of `A'*A` at `(off, off)` and
zeros. -/
theorem C42_getATAOffset (z : ℕ → ℕ → K) (A : Mat K) (off n : ℕ) (h : off + A.cols ≤ n) :
    ∃ R, getATAOffset z A off n = .ok R ∧ R.rows = n ∧ R.cols = n ∧
      (∀ i j, j ≤ i → i < A.cols → R.e (off + i) (off + j) = ∑ k ∈ Finset.range A.rows, A.e k i * A.e k j) ∧
      (∀ i j, j ≤ i → i < n → (j < off ∨ off + A.cols ≤ i) → R.e i j = 0) := by
  obtain ⟨R, h0, h1, h2, h3⟩ := getATAOffset_ok z A off n (by omega) (by omega)
  simp only [Int.toNat_natCast] at h3
  refine ⟨R, h0, h1, h2, fun i j hij hi => ?_, fun i j hij hi hout => ?_⟩
  · rw [h3, if_pos (by omega), Nat.add_sub_cancel_left, Nat.add_sub_cancel_left]; rfl
  · rw [h3, if_neg (by omega), if_pos hij]

/-- `addATA`: `A'*A` is added to the lower triangle, the rest of the matrix is kept. -/
theorem C42_addATA (H A : Mat K) (hr : A.cols ≤ H.rows) (hc : A.cols ≤ H.cols) :
    ∃ R, addATA H A = .ok R ∧ R.rows = H.rows ∧ R.cols = H.cols ∧
      (∀ i j, j ≤ i → i < A.cols → R.e i j = H.e i j + ∑ k ∈ Finset.range A.rows, A.e k i * A.e k j) ∧
      (∀ i j, i < j ∨ A.cols ≤ i → R.e i j = H.e i j) := by
  obtain ⟨R, h0, h1, h2, h3⟩ := addATA_ok H A hr hc
  refine ⟨R, h0, h1, h2, fun i j hij hi => ?_, fun i j hout => ?_⟩
  · rw [h3, if_pos ⟨hij, hi⟩]; rfl
  · rw [h3, if_neg (by omega)]

/-- `addATA` with an offset which fits. -/
theorem C42_addATAOffset (H A : Mat K) (off : ℕ) (hr : off + A.cols ≤ H.rows) (hc : off + A.cols ≤ H.cols) :
    ∃ R, addATAOffset H A off = .ok R ∧ R.rows = H.rows ∧ R.cols = H.cols ∧
      (∀ i j, j ≤ i → i < A.cols →
        R.e (off + i) (off + j) = H.e (off + i) (off + j) + ∑ k ∈ Finset.range A.rows, A.e k i * A.e k j) ∧
      (∀ i j, i < j ∨ j < off ∨ off + A.cols ≤ i → R.e i j = H.e i j) := by
  obtain ⟨R, h0, h1, h2, h3⟩ := addATAOffset_ok H A off (by omega) (by omega) (by omega)
  simp only [Int.toNat_natCast] at h3
  refine ⟨R, h0, h1, h2, fun i j hij hi => ?_, fun i j hout => ?_⟩
  · rw [h3, if_pos (by omega), Nat.add_sub_cancel_left, Nat.add_sub_cancel_left]; rfl
  · rw [h3, if_neg (by omega)]

/-- `convertLLTtoSymmetric`: the lower triangle is kept and mirrored. -/
theorem C42_convert (H : Mat K) (hsq : H.rows = H.cols) :
    ∃ R, convertLLTtoSymmetric H = .ok R ∧ R.rows = H.rows ∧ R.cols = H.cols ∧
      ∀ i j, j ≤ i → i < H.cols → R.e i j = H.e i j ∧ R.e j i = H.e i j := by
  obtain ⟨R, h0, h1, h2, h3⟩ := convertLLT_ok H hsq
  refine ⟨R, h0, h1, h2, fun i j hij hi => ⟨by rw [h3, if_neg (by omega)], ?_⟩⟩
  rw [h3]
  rcases Nat.lt_or_eq_of_le hij with h | h
  · rw [if_pos ⟨h, hi⟩]
  · subst h; simp

/-- Together: `A'*A` with both triangles. -/
theorem C42_symmetric (z : ℕ → ℕ → K) (A : Mat K) :
    ∃ R, (getATA z A >>= convertLLTtoSymmetric) = .ok R ∧ R.rows = A.cols ∧ R.cols = A.cols ∧
      ∀ i j, i < A.cols → j < A.cols → R.e i j = ∑ k ∈ Finset.range A.rows, A.e k i * A.e k j := by
  obtain ⟨H, h0, h1, h2, h3⟩ := C42_getATA z A
  obtain ⟨R, k0, k1, k2, k3⟩ := C42_convert H (by rw [h1, h2])
  refine ⟨R, by rw [h0, ok_bind, k0], by rw [k1, h1], by rw [k2, h2], fun i j hi hj => ?_⟩
  rcases Nat.le_total j i with h | h
  · rw [(k3 i j h (by omega)).1, h3 i j h hi]
  · rw [(k3 j i h (by omega)).2, h3 j i h hj]
    exact Finset.sum_congr rfl fun k _ => mul_comm _ _

/-- A product at an offset: `[1 2; 3 4]'*[1 2; 3 4] = [10 14; 14 20]`. -/
example : ∃ R, getATAOffset (fun _ _ => (7 : ℚ)) (Mat.ofRows 2 [[1, 2], [3, 4]]) 1 3 = .ok R ∧
    R.e 1 1 = 10 ∧ R.e 2 1 = 14 ∧ R.e 2 2 = 20 ∧ R.e 2 0 = 0 := by
  obtain ⟨R, h, _, _, h1, h2⟩ := C42_getATAOffset (fun _ _ => (7 : ℚ)) (Mat.ofRows 2 [[1, 2], [3, 4]]) 1 3 (by decide)
  refine ⟨R, h, (h1 0 0 (by omega) (by decide)).trans ?_, (h1 1 0 (by omega) (by decide)).trans ?_,
    (h1 1 1 (by omega) (by decide)).trans ?_, h2 2 0 (by omega) (by omega) (by omega)⟩ <;>
    norm_num [Mat.ofRows, Finset.sum_range_succ]

end Humoto
