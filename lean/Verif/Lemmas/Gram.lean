import Verif.Model.Gram
import Verif.Lemmas.Constraints

/-!
# Helper lemmas about products of a matrix with its transpose
-/

namespace Humoto

set_option linter.unusedSectionVars false

variable {K : Type} [Field K]

/-- Product of the columns `i` and `j`. -/
def gramE (A : Mat K) (i j : ℕ) : K := ∑ k ∈ Finset.range A.rows, A.e k i * A.e k j

theorem Mat.addBlock_ok {A : Mat K} (B : Mat K) (r c h w : ℕ) (h1 : r + h ≤ A.rows) (h2 : c + w ≤ A.cols)
    (h3 : B.rows = h) (h4 : B.cols = w) : A.addBlock r c h w B = .ok ⟨A.rows, A.cols, fun i j =>
      if (r ≤ i ∧ i < r + h) ∧ (c ≤ j ∧ j < c + w) then A.e i j + B.e (i - r) (j - c) else A.e i j⟩ := by
  rw [Mat.addBlock, if_pos ⟨h1, h2, h3, h4⟩]

theorem getATA_ok (z : ℕ → ℕ → K) (A : Mat K) : ∃ R, getATA z A = .ok R ∧ R.rows = A.cols ∧ R.cols = A.cols ∧
    ∀ i j, R.e i j = if j ≤ i ∧ i < A.cols then gramE A i j else z i j := by
  refine forRange_post (P := fun k R => R.rows = A.cols ∧ R.cols = A.cols ∧
    ∀ i j, R.e i j = if j ≤ i ∧ i < A.cols ∧ j < k then gramE A i j else z i j) ?_ ?_ ?_
  · exact ⟨rfl, rfl, fun i j => by simp⟩
  · rintro k R hk ⟨h1, h2, h3⟩
    refine ⟨_, Mat.setBlock_ok (B := gramColumn A k) (r := k) (c := k) (h := A.cols - k) (w := 1) (by omega) (by omega)
      rfl rfl, h1, h2, ?_⟩
    intro i j
    simp only [h3, gramColumn, gramE]
    by_cases hj : j = k
    · subst hj
      by_cases hi : j ≤ i ∧ i < A.cols
      · rw [if_pos ⟨by omega, by omega⟩, if_pos (by omega), Nat.add_sub_cancel' hi.1]
      · rw [if_neg (by omega), if_neg (by omega), if_neg (by omega)]
    · rw [if_neg (by omega)]
      by_cases hi : j ≤ i ∧ i < A.cols ∧ j < k
      · rw [if_pos hi, if_pos (by omega)]
      · rw [if_neg hi, if_neg (by omega)]
  · rintro R ⟨h1, h2, h3⟩
    refine ⟨h1, h2, fun i j => ?_⟩
    rw [h3]
    by_cases hi : j ≤ i ∧ i < A.cols
    · rw [if_pos (by omega), if_pos hi]
    · rw [if_neg (by omega), if_neg hi]

theorem getATAOffset_ok (z : ℕ → ℕ → K) (A : Mat K) (off : ℤ) (n : ℕ) (h0 : 0 ≤ off) (hn : off + (A.cols : ℤ) ≤ n) :
    ∃ R, getATAOffset z A off n = .ok R ∧ R.rows = n ∧ R.cols = n ∧
    ∀ i j, R.e i j = if off.toNat ≤ j ∧ j ≤ i ∧ i < off.toNat + A.cols then gramE A (i - off.toNat) (j - off.toNat)
      else if j ≤ i then 0 else z i j := by
  obtain ⟨o, rfl⟩ := Int.eq_ofNat_of_zero_le h0
  simp only [Int.toNat_natCast] at *
  refine forRange_post (P := fun k R => R.rows = n ∧ R.cols = n ∧
    ∀ i j, R.e i j = if o ≤ j ∧ j ≤ i ∧ i < o + A.cols ∧ j < o + k then gramE A (i - o) (j - o)
      else if j ≤ i then 0 else z i j) ?_ ?_ ?_
  · exact ⟨rfl, rfl, fun i j => by rw [if_neg (by omega)]⟩
  · rintro k R hk ⟨h1, h2, h3⟩
    rw [require_true (by rw [h1, h2]; omega), ok_bind]
    refine ⟨_, Mat.setBlock_ok (B := gramColumn A k) (r := o + k) (c := o + k) (h := A.cols - k) (w := 1)
      (by omega) (by omega) rfl rfl, h1, h2, ?_⟩
    intro i j
    simp only [h3, gramColumn, gramE]
    by_cases hj : j = o + k
    · subst hj
      by_cases hi : o + k ≤ i ∧ i < o + A.cols
      · rw [if_pos ⟨by omega, by omega⟩, if_pos (by omega)]
        simp only [Nat.add_sub_cancel_left, show k + (i - (o + k)) = i - o by omega]
      · have n1 : ¬ (o ≤ o + k ∧ o + k ≤ i ∧ i < o + A.cols ∧ o + k < o + k) := by omega
        have n2 : ¬ (o ≤ o + k ∧ o + k ≤ i ∧ i < o + A.cols ∧ o + k < o + (k + 1)) := by omega
        rw [if_neg (by omega), if_neg n1, if_neg n2]
    · rw [if_neg (by omega)]
      have e : (o ≤ j ∧ j ≤ i ∧ i < o + A.cols ∧ j < o + k) ↔ (o ≤ j ∧ j ≤ i ∧ i < o + A.cols ∧ j < o + (k + 1)) := by
        omega
      simp only [e]
  · rintro R ⟨h1, h2, h3⟩
    refine ⟨h1, h2, fun i j => ?_⟩
    rw [h3]
    by_cases hi : o ≤ j ∧ j ≤ i ∧ i < o + A.cols
    · rw [if_pos (by omega), if_pos hi]
    · rw [if_neg (by omega), if_neg hi]

theorem addATA_ok (H A : Mat K) (hr : A.cols ≤ H.rows) (hc : A.cols ≤ H.cols) :
    ∃ R, addATA H A = .ok R ∧ R.rows = H.rows ∧ R.cols = H.cols ∧
    ∀ i j, R.e i j = if j ≤ i ∧ i < A.cols then H.e i j + gramE A i j else H.e i j := by
  refine forRange_post (P := fun k R => R.rows = H.rows ∧ R.cols = H.cols ∧
    ∀ i j, R.e i j = if j ≤ i ∧ i < A.cols ∧ j < k then H.e i j + gramE A i j else H.e i j) ?_ ?_ ?_
  · exact ⟨rfl, rfl, fun i j => by simp⟩
  · rintro k R hk ⟨h1, h2, h3⟩
    refine ⟨_, Mat.addBlock_ok (gramColumn A k) k k (A.cols - k) 1 (by omega) (by omega) rfl rfl, h1, h2, ?_⟩
    intro i j
    simp only [h3, gramColumn, gramE]
    by_cases hj : j = k
    · subst hj
      by_cases hi : j ≤ i ∧ i < A.cols
      · rw [if_pos ⟨by omega, by omega⟩, if_neg (by omega), if_pos (by omega), Nat.add_sub_cancel' hi.1]
      · rw [if_neg (by omega), if_neg (by omega), if_neg (by omega)]
    · rw [if_neg (by omega)]
      by_cases hi : j ≤ i ∧ i < A.cols ∧ j < k
      · rw [if_pos hi, if_pos (by omega)]
      · rw [if_neg hi, if_neg (by omega)]
  · rintro R ⟨h1, h2, h3⟩
    refine ⟨h1, h2, fun i j => ?_⟩
    rw [h3]
    by_cases hi : j ≤ i ∧ i < A.cols
    · rw [if_pos (by omega), if_pos hi]
    · rw [if_neg (by omega), if_neg hi]

theorem addATAOffset_ok (H A : Mat K) (off : ℤ) (h0 : 0 ≤ off) (hr : off + (A.cols : ℤ) ≤ H.rows)
    (hc : off + (A.cols : ℤ) ≤ H.cols) :
    ∃ R, addATAOffset H A off = .ok R ∧ R.rows = H.rows ∧ R.cols = H.cols ∧
    ∀ i j, R.e i j = if off.toNat ≤ j ∧ j ≤ i ∧ i < off.toNat + A.cols
      then H.e i j + gramE A (i - off.toNat) (j - off.toNat) else H.e i j := by
  obtain ⟨o, rfl⟩ := Int.eq_ofNat_of_zero_le h0
  simp only [Int.toNat_natCast] at *
  refine forRange_post (P := fun k R => R.rows = H.rows ∧ R.cols = H.cols ∧
    ∀ i j, R.e i j = if o ≤ j ∧ j ≤ i ∧ i < o + A.cols ∧ j < o + k then H.e i j + gramE A (i - o) (j - o)
      else H.e i j) ?_ ?_ ?_
  · exact ⟨rfl, rfl, fun i j => by rw [if_neg (by omega)]⟩
  · rintro k R hk ⟨h1, h2, h3⟩
    rw [require_true (by rw [h1, h2]; omega), ok_bind]
    refine ⟨_, Mat.addBlock_ok (gramColumn A k) (o + k) (o + k) (A.cols - k) 1 (by omega) (by omega) rfl rfl, h1, h2, ?_⟩
    intro i j
    simp only [h3, gramColumn, gramE]
    by_cases hj : j = o + k
    · subst hj
      by_cases hi : o + k ≤ i ∧ i < o + A.cols
      · rw [if_pos ⟨by omega, by omega⟩, if_neg (by omega), if_pos (by omega)]
        simp only [Nat.add_sub_cancel_left, show k + (i - (o + k)) = i - o by omega]
      · rw [if_neg (by omega), if_neg (by omega), if_neg (by omega)]
    · rw [if_neg (by omega)]
      by_cases hi : o ≤ j ∧ j ≤ i ∧ i < o + A.cols ∧ j < o + k
      · rw [if_pos hi, if_pos (by omega)]
      · rw [if_neg hi, if_neg (by omega)]
  · rintro R ⟨h1, h2, h3⟩
    refine ⟨h1, h2, fun i j => ?_⟩
    rw [h3]
    by_cases hi : o ≤ j ∧ j ≤ i ∧ i < o + A.cols
    · rw [if_pos (by omega), if_pos hi]
    · rw [if_neg (by omega), if_neg hi]

theorem convertLLT_ok (H : Mat K) (hsq : H.rows = H.cols) : ∃ R, convertLLTtoSymmetric H = .ok R ∧
    R.rows = H.rows ∧ R.cols = H.cols ∧ ∀ i j, R.e i j = if i < j ∧ j < H.cols then H.e j i else H.e i j := by
  refine forRange_post (P := fun k R => R.rows = H.rows ∧ R.cols = H.cols ∧
    ∀ i j, R.e i j = if i < j ∧ j < H.cols ∧ i < k then H.e j i else H.e i j) ?_ ?_ ?_
  · exact ⟨rfl, rfl, fun i j => by simp⟩
  · rintro k R hk ⟨h1, h2, h3⟩
    have e1 : R.transpose.rows = R.cols := rfl
    have e2 : R.transpose.cols = R.rows := rfl
    dsimp only
    rw [require_true (by rw [e1, e2, h1, h2]; omega), ok_bind]
    refine ⟨_, Mat.setBlock_ok (r := k) (c := k + 1) (h := 1) (w := H.cols - k - 1) (by omega) (by omega) rfl rfl,
      h1, h2, ?_⟩
    intro i j
    simp only [h3]
    by_cases hi : i = k
    · subst hi
      by_cases hj : i < j ∧ j < H.cols
      · rw [if_pos ⟨by omega, by omega⟩, if_pos (by omega)]
        simp only [Mat.transpose, show i + (i - i) = i by omega, show i + 1 + (j - (i + 1)) = j by omega, h3]
        rw [if_neg (by omega)]
      · rw [if_neg (by omega), if_neg (by omega), if_neg (by omega)]
    · rw [if_neg (by omega)]
      by_cases hj : i < j ∧ j < H.cols ∧ i < k
      · rw [if_pos hj, if_pos (by omega)]
      · rw [if_neg hj, if_neg (by omega)]
  · rintro R ⟨h1, h2, h3⟩
    refine ⟨h1, h2, fun i j => ?_⟩
    rw [h3]
    by_cases hi : i < j ∧ j < H.cols
    · rw [if_pos (by omega), if_pos hi]
    · rw [if_neg (by omega), if_neg hi]

end Humoto
