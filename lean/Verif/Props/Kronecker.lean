import Verif.Lemmas.Kronecker2
import Mathlib.Data.Rat.Defs
import Mathlib.Tactic.NormNum

/-!
# C36, C37: products of block matrices
-/

namespace Humoto

open Spec

set_option linter.unusedSectionVars false

variable {K : Type}

theorem construct_whole {M : Mat K} {id br bc : ℕ} {X : Kron K} (h : Kron.construct M id br bc = .ok X) :
    X = ⟨⟨br, bc, M⟩, id⟩ ∧ 1 < id ∧ Whole X.M X.M.nVert X.M.nHor := by
  unfold Kron.construct at h
  cases hf : BlockMat.finalize ⟨br, bc, M⟩ with
  | error e => rw [hf, error_bind] at h; cases h
  | ok B =>
    obtain ⟨rfl, hw⟩ := finalize_whole hf
    rw [hf, ok_bind] at h
    by_cases hi : id > 1
    · rw [assertThat_true hi, ok_bind] at h
      cases h
      exact ⟨rfl, hi, hw⟩
    · rw [assertThat_false hi, error_bind] at h
      cases h

/-! ## C36: evaluation -/

/-- **C36.** Construction succeeds exactly when the matrix consists of whole blocks and the identity is larger than 1x1. -/
theorem C36_construct (M : Mat K) (id br bc : ℕ) :
    (0 < br ∧ 0 < bc ∧ br ∣ M.rows ∧ bc ∣ M.cols ∧ 1 < id → Kron.construct M id br bc = .ok ⟨⟨br, bc, M⟩, id⟩) ∧
    (¬ (0 < br ∧ 0 < bc ∧ br ∣ M.rows ∧ bc ∣ M.cols ∧ 1 < id) → Kron.construct M id br bc = .error .thrown) := by
  unfold Kron.construct BlockMat.finalize
  simp only
  by_cases h1 : br > 0
  · rw [assertThat_true h1, ok_bind]
    by_cases h2 : M.rows % br = 0
    · rw [assertThat_true h2, ok_bind]
      by_cases h3 : bc > 0
      · rw [assertThat_true h3, ok_bind]
        by_cases h4 : M.cols % bc = 0
        · rw [assertThat_true h4, ok_bind, pure_eq_ok, ok_bind]
          by_cases h5 : id > 1
          · rw [assertThat_true h5, ok_bind]
            exact ⟨fun _ => rfl, fun h => absurd ⟨h1, h3, Nat.dvd_of_mod_eq_zero h2, Nat.dvd_of_mod_eq_zero h4, h5⟩ h⟩
          · rw [assertThat_false h5, error_bind]
            exact ⟨fun h => absurd h.2.2.2.2 h5, fun _ => rfl⟩
        · rw [assertThat_false h4, error_bind, error_bind]
          exact ⟨fun h => absurd (Nat.mod_eq_zero_of_dvd h.2.2.2.1) h4, fun _ => rfl⟩
      · rw [assertThat_false h3, error_bind, error_bind]
        exact ⟨fun h => absurd h.2.1 h3, fun _ => rfl⟩
    · rw [assertThat_false h2, error_bind, error_bind]
      exact ⟨fun h => absurd (Nat.mod_eq_zero_of_dvd h.2.2.1) h2, fun _ => rfl⟩
  · rw [assertThat_false h1, error_bind, error_bind]
    exact ⟨fun h => absurd h.1 h1, fun _ => rfl⟩

/-- **C36.** `evaluate` gives the Kronecker product of the block matrix and the identity. -/
theorem C36_evaluate [Zero K] {M : Mat K} {id br bc : ℕ} {X : Kron K} (hX : Kron.construct M id br bc = .ok X) :
    ∃ E, X.evaluate = .ok E ∧ KroneckerOf M br bc id E := by
  obtain ⟨rfl, -, hw⟩ := construct_whole hX
  exact evaluate_ok hw

/-- **C36.** Left lower triangular matrices. -/
theorem C36_evaluate_triangular [Zero K] {M : Mat K} {id br bc : ℕ} {X : Kron K} (hX : Kron.construct M id br bc = .ok X)
    (hL : LowerTriangular M br bc) : ∃ E, X.evaluateLLT = .ok E ∧ KroneckerOf M br bc id E := by
  obtain ⟨rfl, -, hw⟩ := construct_whole hX
  exact evaluateLLT_ok hw hL

/-- **C36.** The specialisation for blocks 1x1. -/
theorem C36_evaluate_single [Zero K] {M : Mat K} {id : ℕ} {X : Kron K} (hX : Kron.construct M id 1 1 = .ok X) :
    ∃ E, X.evaluate1 = .ok E ∧ KroneckerOf M 1 1 id E := by
  obtain ⟨rfl, -, hw⟩ := construct_whole hX
  exact evaluate1_ok hw rfl rfl

/-- **C36.** The specialisation for blocks 1x1, left lower triangular matrices. -/
theorem C36_evaluate_single_triangular [Zero K] {M : Mat K} {id : ℕ} {X : Kron K} (hX : Kron.construct M id 1 1 = .ok X)
    (hL : LowerTriangular M 1 1) : ∃ E, X.evaluate1LLT = .ok E ∧ KroneckerOf M 1 1 id E := by
  obtain ⟨rfl, -, hw⟩ := construct_whole hX
  exact evaluate1LLT_ok hw rfl rfl hL

/-- **C36.** The function which evaluates the same product without the class. -/
theorem C36_function [Zero K] (A : Mat K) (br bc n : ℕ) (h1 : 0 < br) (h2 : 0 < bc) :
    (br ∣ A.rows ∧ bc ∣ A.cols → ∃ E, multiplyBlockKroneckerIdentity A br bc n = .ok E ∧ KroneckerOf A br bc n E) ∧
    (¬ (br ∣ A.rows ∧ bc ∣ A.cols) → multiplyBlockKroneckerIdentity A br bc n = .error .thrown) := by
  constructor
  · rintro ⟨h3, h4⟩
    exact multiplyBlockKroneckerIdentity_ok n h1 h2 (Nat.mod_eq_zero_of_dvd h3) (Nat.mod_eq_zero_of_dvd h4)
  · intro h
    unfold multiplyBlockKroneckerIdentity
    rw [require_true (by omega), ok_bind]
    by_cases h3 : A.rows % br = 0
    · rw [assertThat_true h3, ok_bind, require_true (by omega), ok_bind, assertThat_false, error_bind]
      exact fun h4 => h ⟨Nat.dvd_of_mod_eq_zero h3, Nat.dvd_of_mod_eq_zero h4⟩
    · rw [assertThat_false h3, error_bind]

/-- The specification determines all entries of the evaluated matrix. -/
theorem C36_determined [Zero K] {M E E' : Mat K} {br bc n : ℕ} (h1 : br ∣ M.rows) (h2 : bc ∣ M.cols)
    (hE : KroneckerOf M br bc n E) (hE' : KroneckerOf M br bc n E') : E.Equiv E' := by
  obtain ⟨nv, hnv⟩ := h1
  obtain ⟨nh, hnh⟩ := h2
  refine ⟨by rw [hE.rows, hE'.rows], by rw [hE.cols, hE'.cols], ?_⟩
  intro x hx y hy
  rw [hE.rows, hnv] at hx
  rw [hE.cols, hnh] at hy
  obtain ⟨x', p, hx', hp, rfl⟩ := exists_blk (n := nv * n) (h := br) (x := x) (by
    calc x < n * (br * nv) := hx
      _ = nv * n * br := by ring)
  obtain ⟨y', q, hy', hq, rfl⟩ := exists_blk (n := nh * n) (h := bc) (x := y) (by
    calc y < n * (bc * nh) := hy
      _ = nh * n * bc := by ring)
  obtain ⟨i, a, hi, ha, rfl⟩ := exists_blk hx'
  obtain ⟨j, b, hj, hb, rfl⟩ := exists_blk hy'
  have e1 : (i + 1) * br ≤ M.rows := one_blk hi (by rw [hnv]; ring)
  have e2 : (j + 1) * bc ≤ M.cols := one_blk hj (by rw [hnh]; ring)
  rw [hE.entries i j a b p q e1 e2 ha hb hp hq, hE'.entries i j a b p q e1 e2 ha hb hp hq]

/-! ## C36: products -/

/-- `D` is a block diagonal matrix with `n` blocks `br` times `bc`. -/
def BlockDiagonal [Zero K] (D : BlockMat K) (n br bc : ℕ) : Prop :=
  D.br = br ∧ D.bc = bc ∧ 0 < br ∧ 0 < bc ∧ D.m.rows = n * br ∧ D.m.cols = n * bc ∧ Diagonal D.m br bc

theorem BlockDiagonal.whole [Zero K] {D : BlockMat K} {n br bc : ℕ} (h : BlockDiagonal D n br bc) : Whole D n n := by
  obtain ⟨rfl, rfl, h1, h2, h3, h4, -⟩ := h
  exact ⟨h1, h2, h3, h4⟩

/-- **C36.** The product with a block diagonal matrix, computed without evaluation, is the product of the evaluated matrix
with it. `w` is the width of the diagonal blocks; the content of uninitialised matrices does not matter. -/
theorem C36_multiply [Semiring K] {M : Mat K} {id br bc n w : ℕ} {X : Kron K} (hX : Kron.construct M id br bc = .ok X)
    {E : Mat K} (hE : X.evaluate = .ok E) {D : BlockMat K} (hD : BlockDiagonal D n (bc * id) w) (hn : M.cols = n * bc)
    (junk : ℕ → ℕ → K) (junkI : ℕ → ℕ) :
    ∃ P, X.multiplyRight junk junkI D = .ok P ∧ ProductOf E D.m P := by
  obtain ⟨E', hE', hk⟩ := C36_evaluate hX
  rw [hE] at hE'; cases hE'
  obtain ⟨rfl, -, hw⟩ := construct_whole hX
  have hn' : (⟨br, bc, M⟩ : BlockMat K).nHor = n := by
    show M.cols / bc = n
    rw [hn, Nat.mul_div_cancel _ hw.bc]
  rw [hn'] at hw
  have h7 := hD.2.2.2.2.2.2
  exact multiplyRight_ok junk junkI hw hD.whole hD.1 (by rw [hD.1, hD.2.1]; exact h7) hk

/-- **C36.** The same for left lower triangular matrices which do not have more block columns than block rows. -/
theorem C36_multiply_triangular [Semiring K] {M : Mat K} {id br bc n m w : ℕ} {X : Kron K}
    (hX : Kron.construct M id br bc = .ok X) (hL : LowerTriangular M br bc) {E : Mat K} (hE : X.evaluateLLT = .ok E)
    {D : BlockMat K} (hD : BlockDiagonal D n (bc * id) w) (hn : M.cols = n * bc) (hm : M.rows = m * br) (hnm : n ≤ m)
    (junkI : ℕ → ℕ) : ∃ P, X.multiplyRightLLT junkI D = .ok P ∧ ProductOf E D.m P := by
  obtain ⟨E', hE', hk⟩ := C36_evaluate_triangular hX hL
  rw [hE] at hE'; cases hE'
  obtain ⟨rfl, -, hw⟩ := construct_whole hX
  have hn' : (⟨br, bc, M⟩ : BlockMat K).nHor = n := by
    show M.cols / bc = n
    rw [hn, Nat.mul_div_cancel _ hw.bc]
  have hm' : (⟨br, bc, M⟩ : BlockMat K).nVert = m := by
    show M.rows / br = m
    rw [hm, Nat.mul_div_cancel _ hw.br]
  rw [hn', hm'] at hw
  have h7 := hD.2.2.2.2.2.2
  exact multiplyRightLLT_ok junkI hw hD.whole hD.1 (by rw [hD.1, hD.2.1]; exact h7) hL (by omega) hk

/-- **C36.** The product with a vector. -/
theorem C36_multiply_vector [Semiring K] {M : Mat K} {id br bc : ℕ} {X : Kron K} (hX : Kron.construct M id br bc = .ok X)
    {E : Mat K} (hE : X.evaluate = .ok E) {x : Vec K} (hx : x.n = id * M.cols) (junk junk' : ℕ → K) :
    ∃ y, X.multiplyRightVec junk junk' x = .ok y ∧ VecProductOf E x y := by
  obtain ⟨E', hE', hk⟩ := C36_evaluate hX
  rw [hE] at hE'; cases hE'
  obtain ⟨rfl, -, hw⟩ := construct_whole hX
  exact multiplyRightVec_ok junk junk' hw hx hk

/-- **C36**, blocks 1x1, part: the matrix which receives the result must have sizes which are multiples of the size of the
diagonal blocks *before* the call (e.g. it is empty). -/
theorem C36_multiply_single_partial [Semiring K] {M : Mat K} {id n w : ℕ} {X : Kron K}
    (hX : Kron.construct M id 1 1 = .ok X) {E : Mat K} (hE : X.evaluate1 = .ok E) {D : BlockMat K}
    (hD : BlockDiagonal D n id w) (hn : M.cols = n) (result : Mat K) (hr : id ∣ result.rows) (hc : w ∣ result.cols)
    (junk : ℕ → ℕ → K) : ∃ P, X.multiplyRight1 result junk D = .ok P ∧ ProductOf E D.m P := by
  obtain ⟨E', hE', hk⟩ := C36_evaluate_single hX
  rw [hE] at hE'; cases hE'
  obtain ⟨rfl, -, hw⟩ := construct_whole hX
  have hn' : (⟨1, 1, M⟩ : BlockMat K).nHor = n := by
    show M.cols / 1 = n
    rw [hn, Nat.div_one]
  rw [hn'] at hw
  have h7 := hD.2.2.2.2.2.2
  exact multiplyRight1_ok result junk hw rfl rfl hD.whole hD.1 (by rw [hD.1]; exact Nat.mod_eq_zero_of_dvd hr)
    (by rw [hD.2.1]; exact Nat.mod_eq_zero_of_dvd hc) (by rw [hD.1, hD.2.1]; exact h7) hk

/-- **C36**, blocks 1x1, left lower triangular, part: the same condition. -/
theorem C36_multiply_single_triangular_partial [Semiring K] {M : Mat K} {id n w : ℕ} {X : Kron K}
    (hX : Kron.construct M id 1 1 = .ok X) (hL : LowerTriangular M 1 1) {E : Mat K} (hE : X.evaluate1LLT = .ok E)
    {D : BlockMat K} (hD : BlockDiagonal D n id w) (hn : M.cols = n) (result : Mat K) (hr : id ∣ result.rows)
    (hc : w ∣ result.cols) : ∃ P, X.multiplyRight1LLT result D = .ok P ∧ ProductOf E D.m P := by
  obtain ⟨E', hE', hk⟩ := C36_evaluate_single_triangular hX hL
  rw [hE] at hE'; cases hE'
  obtain ⟨rfl, -, hw⟩ := construct_whole hX
  have hn' : (⟨1, 1, M⟩ : BlockMat K).nHor = n := by
    show M.cols / 1 = n
    rw [hn, Nat.div_one]
  rw [hn'] at hw
  have h7 := hD.2.2.2.2.2.2
  exact multiplyRight1LLT_ok result hw rfl rfl hD.whole hD.1 (by rw [hD.1]; exact Nat.mod_eq_zero_of_dvd hr)
    (by rw [hD.2.1]; exact Nat.mod_eq_zero_of_dvd hc) hL (by rw [hD.1, hD.2.1]; exact h7) hk

/-- **C36**, blocks 1x1, left lower triangular, product from the other side, part: the matrix and the diagonal blocks must be
square, and the condition on the receiving matrix is the same. -/
theorem C36_multiply_left_single_triangular_partial [Semiring K] {M : Mat K} {id n : ℕ} {X : Kron K}
    (hX : Kron.construct M id 1 1 = .ok X) (hL : LowerTriangular M 1 1) {E : Mat K} (hE : X.evaluate1LLT = .ok E)
    {D : BlockMat K} (hD : BlockDiagonal D n id id) (hn : M.cols = n) (hm : M.rows = n) (result : Mat K)
    (hr : id ∣ result.rows) (hc : id ∣ result.cols) :
    ∃ P, X.multiplyLeft1LLT result D = .ok P ∧ ProductOf D.m E P := by
  obtain ⟨E', hE', hk⟩ := C36_evaluate_single_triangular hX hL
  rw [hE] at hE'; cases hE'
  obtain ⟨rfl, -, hw⟩ := construct_whole hX
  have hn' : (⟨1, 1, M⟩ : BlockMat K).nHor = n := by
    show M.cols / 1 = n
    rw [hn, Nat.div_one]
  have hm' : (⟨1, 1, M⟩ : BlockMat K).nVert = n := by
    show M.rows / 1 = n
    rw [hm, Nat.div_one]
  rw [hn', hm'] at hw
  have h7 := hD.2.2.2.2.2.2
  exact multiplyLeft1LLT_ok result hw rfl rfl hD.whole hD.1 hD.2.1 (by rw [hD.1]; exact Nat.mod_eq_zero_of_dvd hr)
    (by rw [hD.2.1]; exact Nat.mod_eq_zero_of_dvd hc) hL (by rw [hD.1, hD.2.1]; exact h7) hk

/-- **C36.** Blocks 1x1, the product with a vector. -/
theorem C36_multiply_vector_single [Semiring K] {M : Mat K} {id : ℕ} {X : Kron K} (hX : Kron.construct M id 1 1 = .ok X)
    {E : Mat K} (hE : X.evaluate1 = .ok E) {x : Vec K} (hx : x.n = id * M.cols) :
    ∃ y, X.multiplyRightVec1 x = .ok y ∧ VecProductOf E x y := by
  obtain ⟨E', hE', hk⟩ := C36_evaluate_single hX
  rw [hE] at hE'; cases hE'
  obtain ⟨rfl, -, hw⟩ := construct_whole hX
  exact multiplyRightVec1_ok hw rfl rfl hx hk

/-- **C36.** Diagonal matrices of wrong sizes are rejected. -/
theorem C36_reject [AddCommMonoid K] [Mul K] {M : Mat K} {id br bc : ℕ} {X : Kron K}
    (hX : Kron.construct M id br bc = .ok X) (D : BlockMat K) (junk : ℕ → ℕ → K) (junkI : ℕ → ℕ)
    (h : D.br ≠ bc * id ∨ D.m.rows ≠ M.cols * id) :
    X.multiplyRight junk junkI D = .error .thrown ∧ X.multiplyRightLLT junkI D = .error .thrown := by
  obtain ⟨rfl, -, hw⟩ := construct_whole hX
  have hc : Kron.checkRight ⟨⟨br, bc, M⟩, id⟩ D = .error .thrown := by
    unfold Kron.checkRight
    by_cases h1 : D.br = bc * id
    · rw [assertThat_true h1, ok_bind]
      by_cases h2 : (⟨br, bc, M⟩ : BlockMat K).nHor = D.nVert
      · rw [assertThat_true h2, ok_bind, assertThat_false]
        have e := hw.cols
        simp only at e ⊢
        rw [← e]
        rcases h with h | h
        · exact absurd h1 h
        · exact fun h' => h h'.symm
      · rw [assertThat_false h2, error_bind]
    · rw [assertThat_false h1, error_bind]
  unfold Kron.multiplyRight Kron.multiplyRightLLT
  rw [hc, error_bind, error_bind]
  exact ⟨rfl, rfl⟩

/-- A 2x3 matrix of blocks 1x1, an identity 2x2. -/
def kronExample : Mat ℚ := Mat.ofRows 3 [[1, 2, 3], [4, 5, 6]]

/-- Three diagonal blocks 2x1. -/
def diagExample : BlockMat ℚ := ⟨2, 1, Mat.ofRows 3 [[1, 0, 0], [2, 0, 0], [0, 3, 0], [0, 4, 0], [0, 0, 5], [0, 0, 6]]⟩

theorem diagExample_diagonal : BlockDiagonal diagExample 3 2 1 := by
  refine ⟨rfl, rfl, by decide, by decide, rfl, rfl, ?_⟩
  intro i j p q hij hi hj hp hq
  have hi' : i < 3 := by simp only [diagExample, Mat.ofRows, List.length] at hi; omega
  have hj' : j < 3 := by simp only [diagExample, Mat.ofRows] at hj; omega
  have key : ∀ i < 3, ∀ j < 3, ∀ p < 2, ∀ q < 1, i ≠ j → diagExample.m.e (i * 2 + p) (j * 1 + q) = 0 := by decide
  exact key i hi' j hj' p hp q hq hij

/-- The hypotheses of `C36_multiply` are met. -/
example : ∃ X E, Kron.construct kronExample 2 1 1 = .ok X ∧ X.evaluate = .ok E ∧ E.rows = 4 ∧ E.cols = 6 ∧ E.e 3 1 = 4 ∧
    BlockDiagonal diagExample 3 (1 * 2) 1 ∧ kronExample.cols = 3 * 1 :=
  ⟨_, _, rfl, rfl, rfl, rfl, by decide, diagExample_diagonal, rfl⟩

/-- **C36** fails for blocks 1x1: a result which is left from a product of other sizes makes the multiplication throw,
although the operands are those of the example above. -/
theorem C36_stale_result_refuted : ∃ X, Kron.construct kronExample 2 1 1 = .ok X ∧ BlockDiagonal diagExample 3 2 1 ∧
    kronExample.cols = 3 ∧ X.multiplyRight1 ⟨3, 3, fun _ _ => 0⟩ (fun _ _ => 0) diagExample = .error .thrown ∧
    (∃ P, X.multiplyRight1 ⟨0, 0, fun _ _ => 0⟩ (fun _ _ => 0) diagExample = .ok P) :=
  ⟨_, rfl, diagExample_diagonal, rfl, rfl, _, rfl⟩

/-- A lower triangular matrix 3x2 with blocks 1x1 which are multiplied by numbers. -/
def tallExample : Mat ℚ := Mat.ofRows 2 [[1, 0], [2, 3], [4, 5]]

/-- Three diagonal blocks 2x2. -/
def squareBlocks : BlockMat ℚ := ⟨2, 2, Mat.identity 6⟩

/-- **C36** fails for `multiplyLeft`: the operands of a valid product (6x6 times 6x4) are rejected, since the sizes are
checked for the product from the other side. -/
theorem C36_left_sizes_refuted : ∃ X E, Kron.construct tallExample 2 1 1 = .ok X ∧ X.evaluate1LLT = .ok E ∧
    squareBlocks.m.cols = E.rows ∧ X.multiplyLeft1LLT ⟨0, 0, fun _ _ => 0⟩ squareBlocks = .error .thrown :=
  ⟨_, _, rfl, rfl, rfl, rfl⟩

/-- A triangular matrix 2x2 with the identity 2x2. -/
def smallExample : Mat ℚ := Mat.ofRows 2 [[1, 0], [2, 3]]

/-- The hypotheses of `C36_multiply_triangular` and `C36_multiply_left_single_triangular_partial` are met. -/
example : ∃ X E E', Kron.construct smallExample 2 1 1 = .ok X ∧ LowerTriangular smallExample 1 1 ∧ X.evaluate1LLT = .ok E ∧
    X.evaluateLLT = .ok E' ∧ E.e 3 1 = 2 ∧ E.e 2 1 = 0 ∧ E'.e 3 1 = 2 := by
  refine ⟨⟨⟨1, 1, smallExample⟩, 2⟩, ?_⟩
  have hL : LowerTriangular smallExample 1 1 := by
    intro i j p q hij hi hj hp hq
    have hj' : j < 2 := by simp only [smallExample, Mat.ofRows] at hj; omega
    obtain rfl : p = 0 := by omega
    obtain rfl : q = 0 := by omega
    obtain ⟨rfl, rfl⟩ : i = 0 ∧ j = 1 := by omega
    rfl
  exact ⟨_, _, rfl, hL, rfl, rfl, by decide, by decide, by decide⟩

/-! ## C37 -/

/-- **C37.** The product of a block diagonal matrix and a matrix is the dense product. The numbers of block rows and columns
must be equal. -/
theorem C37_right_partial [Semiring K] {D : BlockMat K} {n br bc : ℕ} (hD : BlockDiagonal D n br bc) (A : Mat K)
    (hA : A.rows = D.m.cols) (junk : ℕ → ℕ → K) : ∃ P, D.diagMultiplyRight junk A = .ok P ∧ ProductOf D.m A P :=
  diagMultiplyRight_ok junk hD.whole (by rw [hD.1, hD.2.1]; exact hD.2.2.2.2.2.2) hA

/-- **C37.** The product of a matrix and a block diagonal matrix. -/
theorem C37_left_partial [Semiring K] {D : BlockMat K} {n br bc : ℕ} (hD : BlockDiagonal D n br bc) (A : Mat K)
    (hA : A.cols = D.m.rows) (junk : ℕ → ℕ → K) : ∃ P, D.diagMultiplyLeft junk A = .ok P ∧ ProductOf A D.m P :=
  diagMultiplyLeft_ok junk hD.whole (by rw [hD.1, hD.2.1]; exact hD.2.2.2.2.2.2) hA

/-- **C37.** Wrong sizes are rejected. -/
theorem C37_reject [Semiring K] (D : BlockMat K) (A : Mat K) (junk : ℕ → ℕ → K) :
    (A.rows ≠ D.m.cols → D.diagMultiplyRight junk A = .error .thrown) ∧
    (A.cols ≠ D.m.rows → D.diagMultiplyLeft junk A = .error .thrown) := by
  unfold BlockMat.diagMultiplyRight BlockMat.diagMultiplyLeft
  exact ⟨fun h => by rw [assertThat_false h, error_bind], fun h => by rw [assertThat_false h, error_bind]⟩

/-- The hypotheses are met; an entry of the product. -/
example : BlockDiagonal diagExample 3 2 1 ∧ ∃ P, diagExample.diagMultiplyRight (fun _ _ => 7) (Mat.ofRows 1 [[1], [1], [2]]) = .ok P ∧
    P.e 5 0 = 12 ∧ P.e 0 0 = 1 := by
  refine ⟨diagExample_diagonal, ?_⟩
  obtain ⟨P, hP, -, -, -, h⟩ := C37_right_partial diagExample_diagonal (Mat.ofRows 1 [[1], [1], [2]]) rfl (fun _ _ => 7)
  refine ⟨P, hP, ?_, ?_⟩
  · rw [h 5 (by decide) 0 (by decide)]
    norm_num [diagExample, Mat.ofRows, Finset.sum_range_succ]
  · rw [h 0 (by decide) 0 (by decide)]
    norm_num [diagExample, Mat.ofRows, Finset.sum_range_succ]

/-- Two block rows and one block column: all blocks outside of the diagonal are zero. -/
def tallDiagonal : BlockMat ℚ := ⟨1, 1, Mat.ofRows 1 [[1], [0]]⟩

theorem tallDiagonal_diagonal : Diagonal tallDiagonal.m 1 1 := by
  intro i j p q hij hi hj hp hq
  have hi' : i < 2 := by simp only [tallDiagonal, Mat.ofRows, List.length] at hi; omega
  have hj' : j < 1 := by simp only [tallDiagonal, Mat.ofRows] at hj; omega
  obtain rfl : p = 0 := by omega
  obtain rfl : q = 0 := by omega
  obtain ⟨rfl, rfl⟩ : i = 1 ∧ j = 0 := by omega
  rfl

/-- **C37** fails when there are more block rows than block columns: the second row of the product keeps whatever the memory
contained, here 7 instead of 0. -/
theorem C37_rectangular_refuted : Diagonal tallDiagonal.m 1 1 ∧ tallDiagonal.finalize = .ok tallDiagonal ∧
    ∃ P, tallDiagonal.diagMultiplyRight (fun _ _ => 7) (Mat.ofRows 1 [[5]]) = .ok P ∧ P.e 1 0 = 7 ∧
      ¬ ProductOf tallDiagonal.m (Mat.ofRows 1 [[5]]) P := by
  refine ⟨tallDiagonal_diagonal, rfl, _, rfl, rfl, ?_⟩
  rintro ⟨-, -, -, h⟩
  have h' := h 1 (by decide) 0 (by decide)
  have e : ∑ k ∈ Finset.range tallDiagonal.m.cols, tallDiagonal.m.e 1 k * (Mat.ofRows 1 [[(5 : ℚ)]]).e k 0 = 0 := by
    norm_num [tallDiagonal, Mat.ofRows, Finset.sum_range_succ]
  rw [e] at h'
  have e7 : (7 : ℚ) = 0 := h'
  norm_num at e7

/-- **C37** fails when there are more block columns than block rows: blocks out of range are accessed. -/
theorem C37_rectangular_wide_refuted : Diagonal (Mat.ofRows 2 [[(1 : ℚ), 0]]) 1 1 ∧
    (⟨1, 1, Mat.ofRows 2 [[(1 : ℚ), 0]]⟩ : BlockMat ℚ).diagMultiplyRight (fun _ _ => 7) (Mat.ofRows 1 [[5], [6]]) = .error .ub ∧
    (⟨1, 1, Mat.ofRows 2 [[(1 : ℚ), 0]]⟩ : BlockMat ℚ).finalize = .ok ⟨1, 1, Mat.ofRows 2 [[(1 : ℚ), 0]]⟩ := by
  refine ⟨?_, rfl, rfl⟩
  intro i j p q hij hi hj hp hq
  have hi' : i < 1 := by simp only [Mat.ofRows, List.length] at hi; omega
  have hj' : j < 2 := by simp only [Mat.ofRows] at hj; omega
  obtain rfl : p = 0 := by omega
  obtain rfl : q = 0 := by omega
  obtain ⟨rfl, rfl⟩ : i = 0 ∧ j = 1 := by omega
  rfl

end Humoto
