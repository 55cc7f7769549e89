import Verif.Lemmas.Eigentools
import Mathlib.Data.Rat.Defs
import Mathlib.Tactic.NormNum

/-!
# C38, C39, C40, C41: assembly of matrices
-/

namespace Humoto

open Spec

set_option linter.unusedSectionVars false

variable {K : Type}

/-! ## C38 -/

/-- **C38.** `makeBlockDiagonal` of an arbitrary list of matrices (of any shapes, including matrices without rows or columns)
is the block diagonal matrix. -/
theorem C38_list [Zero K] (l : List (Mat K)) : ∃ R, makeBlockDiagonal l = .ok R ∧ BlockDiagonalOf l R :=
  makeBlockDiagonal_ok l

/-- **C38.** Copies of one matrix. -/
theorem C38_copies [Zero K] (M : Mat K) (n : ℕ) :
    ∃ R, makeBlockDiagonalCopies M n = .ok R ∧ BlockDiagonalOf (List.replicate n M) R :=
  makeBlockDiagonalCopies_ok M n

/-- Each entry of a block diagonal matrix is described by `BlockDiagonalOf`: each row and each column belongs to a block. -/
theorem C38_covers [Zero K] (l : List (Mat K)) (x : ℕ) (hx : x < sumRows l) :
    ∃ (b : ℕ) (M : Mat K) (i : ℕ), l[b]? = some M ∧ i < M.rows ∧ x = rowsBefore l b + i := by
  induction l generalizing x with
  | nil => simp [sumRows] at hx
  | cons M l ih =>
    rw [sumRows_cons] at hx
    by_cases h : x < M.rows
    · exact ⟨0, M, x, rfl, h, by rw [rowsBefore_zero, Nat.zero_add]⟩
    · obtain ⟨b, N, i, h1, h2, h3⟩ := ih (x - M.rows) (by omega)
      exact ⟨b + 1, N, i, h1, h2, by rw [rowsBefore_succ]; omega⟩

/-- A block `2x1`, a block without rows and a block `1x2`. -/
example : ∃ R, makeBlockDiagonal [Mat.ofRows 1 [[1], [2]], Mat.ofRows 1 [], Mat.ofRows 2 [[3, (4 : ℚ)]]] = .ok R ∧
    R.rows = 3 ∧ R.cols = 4 ∧ R.e 1 0 = 2 ∧ R.e 2 3 = 4 ∧ R.e 0 2 = 0 ∧ R.e 2 0 = 0 := ⟨_, rfl, by decide⟩

/-! ## C39 -/

/-- **C39**, part: when no empty matrix is directly followed by an empty matrix, the result consists of all matrices which
have entries. -/
theorem C39_vertical_partial (junk : ℕ → ℕ → K) (l : List (Mat K)) (c : ℕ)
    (hadj : l.IsChain fun A B => ¬ (Spec.Empty A ∧ Spec.Empty B)) (hne : nonEmpty l ≠ [])
    (hc : ∀ M ∈ nonEmpty l, M.cols = c) :
    ∃ R, concatenateVertically junk l = .ok R ∧ R.cols = c ∧ StackOf (nonEmpty l) R := by
  have e := eraseSkip_nonEmpty l hadj
  rw [← e] at hne hc ⊢
  exact concatenate_ok junk hne hc

/-- **C39**, part: when all matrices, including those without rows, have the same positive number of columns, the result
consists of all of them. -/
theorem C39_same_columns_partial (junk : ℕ → ℕ → K) (l : List (Mat K)) (c : ℕ) (hne : nonEmpty l ≠ [])
    (hc : ∀ M ∈ l, M.cols = c) :
    ∃ R l', concatenateVertically junk l = .ok R ∧ R.cols = c ∧ StackOf l' R ∧ (nonEmpty l').Sublist (nonEmpty l) ∧
      (nonEmpty l).Sublist (nonEmpty l') := by
  obtain ⟨h1, h2⟩ := eraseSkip_sublist l
  have h0 : eraseSkip l ≠ [] := by
    intro h
    rw [h] at h2
    exact hne (List.sublist_nil.mp h2)
  obtain ⟨R, hR, hcR, hS⟩ := concatenate_ok junk h0 (fun M hM => hc M (h1.subset hM))
  refine ⟨R, eraseSkip l, hR, hcR, hS, h1.filter _, ?_⟩
  have := h2.filter (fun M => decide (¬ Spec.Empty M))
  have idem : List.filter (fun M => decide (¬ Spec.Empty M)) (nonEmpty l) = nonEmpty l := by
    simp [nonEmpty, List.filter_filter]
  rw [idem] at this
  exact this

/-- **C39.** Matrices with different numbers of columns are rejected, wherever they appear. -/
theorem C39_reject (junk : ℕ → ℕ → K) (l : List (Mat K)) (A B : Mat K) (hA : A ∈ nonEmpty l) (hB : B ∈ nonEmpty l)
    (h : A.cols ≠ B.cols) : concatenateVertically junk l = .error .thrown := by
  obtain ⟨-, h2⟩ := eraseSkip_sublist l
  have hA' := h2.subset hA
  have hB' := h2.subset hB
  rw [concatenateVertically_eq]
  generalize eraseSkip l = k at hA' hB'
  cases k with
  | nil => simp at hA'
  | cons M rest =>
    unfold concatenateRest
    simp only
    rw [countRows_thrown]
    · rfl
    · by_cases hAM : A.cols = M.cols
      · exact ⟨B, hB', fun hBM => h (hAM.trans hBM.symm)⟩
      · exact ⟨A, hA', hAM⟩

/-- The list `[2x1 matrix, empty matrix, 1x1 matrix]` meets the hypotheses of `C39_vertical_partial`. -/
example : ∃ R, concatenateVertically (fun _ _ => 7) [Mat.ofRows 1 [[1], [2]], Mat.ofRows 0 [], Mat.ofRows 1 [[(3 : ℚ)]]] = .ok R ∧
    R.cols = 1 ∧ StackOf [Mat.ofRows 1 [[1], [2]], Mat.ofRows 1 [[3]]] R := by
  refine C39_vertical_partial (fun _ _ => (7 : ℚ)) [Mat.ofRows 1 [[1], [2]], Mat.ofRows 0 [], Mat.ofRows 1 [[(3 : ℚ)]]] 1
    ?_ ?_ ?_
  · simp [Spec.Empty, Mat.ofRows]
  · simp [nonEmpty, Spec.Empty, Mat.ofRows]
  · simp [nonEmpty, Spec.Empty, Mat.ofRows]

/-- Two matrices without rows are followed by a matrix with rows: `C39_same_columns_partial`. -/
example : ∃ R l', concatenateVertically (fun _ _ => 7) [Mat.ofRows 1 [], Mat.ofRows 1 [], Mat.ofRows 1 [[(3 : ℚ)]]] = .ok R ∧
    R.cols = 1 ∧ StackOf l' R ∧
    (nonEmpty l').Sublist (nonEmpty [Mat.ofRows 1 [], Mat.ofRows 1 [], Mat.ofRows 1 [[(3 : ℚ)]]]) ∧
    (nonEmpty [Mat.ofRows 1 [], Mat.ofRows 1 [], Mat.ofRows 1 [[(3 : ℚ)]]]).Sublist (nonEmpty l') :=
  C39_same_columns_partial _ _ 1 (by simp [nonEmpty, Spec.Empty, Mat.ofRows]) (by simp [Mat.ofRows])

/-- **C39** is violated when two empty matrices follow one another: the element after an erased one is not examined, and
`[0x0, 0x0, 1x1]` is rejected although all of its matrices with entries have the same number of columns. -/
theorem C39_adjacent_refuted : ∃ l : List (Mat ℚ), (∃ M, nonEmpty l = [M]) ∧
    ∀ junk, concatenateVertically junk l = .error .thrown := by
  refine ⟨[Mat.ofRows 0 [], Mat.ofRows 0 [], Mat.ofRows 1 [[3]]], ⟨Mat.ofRows 1 [[3]], ?_⟩, ?_⟩
  · simp [nonEmpty, Spec.Empty, Mat.ofRows]
  · intro junk
    rw [concatenateVertically_eq]
    rfl

/-- **C39**, horizontal concatenation of two matrices: matrices without rows are ignored. -/
theorem C39_horizontal2 (A B : Mat K) (h : A.rows ≠ 0 ∨ B.rows ≠ 0)
    (hr : ∀ M ∈ withRows [A, B], ∀ N ∈ withRows [A, B], M.rows = N.rows) :
    ∃ R, concatenateHorizontally2 A B = .ok R ∧ SideBySide (withRows [A, B]) R := by
  have one : ∀ M : Mat K, SideBySide [M] M := by
    intro M
    refine ⟨by simp, by simp [sumCols], ?_⟩
    intro b N hN i hi j hj
    cases b with
    | zero =>
      simp only [List.getElem?_cons_zero, Option.some.injEq] at hN
      subst hN
      rw [colsBefore_zero, Nat.zero_add]
    | succ b => simp at hN
  unfold concatenateHorizontally2
  by_cases hA : A.rows = 0
  · have hB : B.rows ≠ 0 := by omega
    rw [if_pos hA]
    have : withRows [A, B] = [B] := by simp [withRows, hA, hB]
    rw [this]
    exact ⟨B, rfl, one B⟩
  · rw [if_neg hA]
    by_cases hB : B.rows = 0
    · rw [if_pos hB]
      have : withRows [A, B] = [A] := by simp [withRows, hA, hB]
      rw [this]
      exact ⟨A, rfl, one A⟩
    · rw [if_neg hB]
      have hw : withRows [A, B] = [A, B] := by simp [withRows, hA, hB]
      rw [hw] at hr ⊢
      have hAB : A.rows = B.rows := hr A (by simp) B (by simp)
      rw [assertThat_true hAB]
      refine ⟨A.beside B, rfl, ?_, ?_, ?_⟩
      · intro M hM
        simp only [List.mem_cons, List.not_mem_nil, or_false] at hM
        rcases hM with rfl | rfl
        · rfl
        · exact hAB.symm
      · simp [sumCols, Mat.beside]
      · intro b M hM i hi j hj
        match b with
        | 0 =>
          simp only [List.getElem?_cons_zero, Option.some.injEq] at hM
          subst hM
          rw [colsBefore_zero, Nat.zero_add]
          exact if_pos hj
        | 1 =>
          simp only [List.getElem?_cons_succ, List.getElem?_cons_zero, Option.some.injEq] at hM
          subst hM
          rw [colsBefore_succ, colsBefore_zero]
          show (if _ then _ else _) = _
          rw [if_neg (by omega)]
          congr 1; omega
        | b + 2 => simp at hM

/-- **C39**, horizontal concatenation of three matrices: matrices without rows are ignored. -/
theorem C39_horizontal3 (A B C : Mat K) (h : A.rows ≠ 0 ∨ B.rows ≠ 0 ∨ C.rows ≠ 0)
    (hr : ∀ M ∈ withRows [A, B, C], ∀ N ∈ withRows [A, B, C], M.rows = N.rows) :
    ∃ R, concatenateHorizontally3 A B C = .ok R ∧ SideBySide (withRows [A, B, C]) R := by
  unfold concatenateHorizontally3
  by_cases hA : A.rows = 0
  · rw [if_pos hA]
    have hw : withRows [A, B, C] = withRows [B, C] := by simp [withRows, hA]
    rw [hw] at hr ⊢
    exact C39_horizontal2 B C (by omega) hr
  · rw [if_neg hA]
    by_cases hB : B.rows = 0
    · rw [if_pos hB]
      have hw : withRows [A, B, C] = withRows [A, C] := by simp [withRows, hA, hB]
      rw [hw] at hr ⊢
      exact C39_horizontal2 A C (by omega) hr
    · rw [if_neg hB]
      by_cases hC : C.rows = 0
      · rw [if_pos hC]
        have hw : withRows [A, B, C] = withRows [A, B] := by simp [withRows, hA, hB, hC]
        rw [hw] at hr ⊢
        exact C39_horizontal2 A B (by omega) hr
      · rw [if_neg hC]
        have hw : withRows [A, B, C] = [A, B, C] := by simp [withRows, hA, hB, hC]
        rw [hw] at hr ⊢
        have hAB : A.rows = B.rows := hr A (by simp) B (by simp)
        have hAC : A.rows = C.rows := hr A (by simp) C (by simp)
        rw [assertThat_true ⟨hAB, hAC⟩]
        refine ⟨(A.beside B).beside C, rfl, ?_, ?_, ?_⟩
        · intro M hM
          simp only [List.mem_cons, List.not_mem_nil, or_false] at hM
          rcases hM with rfl | rfl | rfl
          · rfl
          · exact hAB.symm
          · exact hAC.symm
        · simp [sumCols, Mat.beside, Nat.add_assoc]
        · intro b M hM i hi j hj
          match b with
          | 0 =>
            simp only [List.getElem?_cons_zero, Option.some.injEq] at hM
            subst hM
            rw [colsBefore_zero, Nat.zero_add]
            rw [beside_left _ _ (by rw [beside_cols]; omega), beside_left _ _ hj]
          | 1 =>
            simp only [List.getElem?_cons_succ, List.getElem?_cons_zero, Option.some.injEq] at hM
            subst hM
            rw [colsBefore_succ, colsBefore_zero]
            rw [beside_left _ _ (by rw [beside_cols]; omega), beside_right A B (j := j) (by omega)]
          | 2 =>
            simp only [List.getElem?_cons_succ, List.getElem?_cons_zero, Option.some.injEq] at hM
            subst hM
            rw [colsBefore_succ, colsBefore_succ, colsBefore_zero]
            exact beside_right _ _ (by rw [beside_cols]; omega)
          | b + 3 => simp at hM

/-- **C39.** Different numbers of rows are rejected. -/
theorem C39_horizontal_reject (A B : Mat K) (hA : A.rows ≠ 0) (hB : B.rows ≠ 0) (h : A.rows ≠ B.rows) :
    concatenateHorizontally2 A B = .error .thrown := by
  unfold concatenateHorizontally2
  rw [if_neg hA, if_neg hB, assertThat_false h]
  rfl

/-- **C39.** Different numbers of rows of three matrices are rejected. -/
theorem C39_horizontal3_reject (A B C M N : Mat K) (hM : M ∈ withRows [A, B, C]) (hN : N ∈ withRows [A, B, C])
    (h : M.rows ≠ N.rows) : concatenateHorizontally3 A B C = .error .thrown := by
  have key : ∀ M ∈ withRows [A, B, C], M.rows ≠ 0 ∧ (M.rows = A.rows ∨ M.rows = B.rows ∨ M.rows = C.rows) := by
    intro M hM
    simp only [withRows, List.mem_filter, List.mem_cons, List.not_mem_nil, or_false, decide_eq_true_eq] at hM
    obtain ⟨h1, h2⟩ := hM
    refine ⟨h2, ?_⟩
    rcases h1 with rfl | rfl | rfl <;> simp
  have h1 := key M hM
  have h2 := key N hN
  unfold concatenateHorizontally3 concatenateHorizontally2
  by_cases hA : A.rows = 0 <;> by_cases hB : B.rows = 0 <;> by_cases hC : C.rows = 0 <;>
    simp only [hA, hB, hC, if_true, if_false] at h1 h2 ⊢
  all_goals first
    | (rw [assertThat_false (by omega)]; rfl)
    | (exfalso; omega)

/-- A matrix with rows, but without columns, is empty, yet it is not ignored: it is rejected because of its number of rows. -/
theorem C39_horizontal_refuted : ∃ A B : Mat ℚ, Spec.Empty A ∧ concatenateHorizontally2 A B = .error .thrown :=
  ⟨Mat.ofRows 0 [[], []], Mat.ofRows 1 [[1]], Or.inr rfl, rfl⟩

example : ∃ R, concatenateHorizontally3 (Mat.ofRows 1 [[1], [2]]) (Mat.ofRows 1 []) (Mat.ofRows 1 [[3], [(4 : ℚ)]]) = .ok R ∧
    SideBySide [Mat.ofRows 1 [[1], [2]], Mat.ofRows 1 [[3], [4]]] R :=
  C39_horizontal3 (Mat.ofRows 1 [[1], [2]]) (Mat.ofRows 1 []) (Mat.ofRows 1 [[3], [(4 : ℚ)]])
    (Or.inl (by simp [Mat.ofRows])) (by simp [withRows, Mat.ofRows])

/-! ## C40 -/

/-- **C40**, rows: for each valid index exactly this row is removed. -/
theorem C40_row (A : Mat K) (i : ℕ) (hi : i < A.rows) : ∃ R, removeRow A i = .ok R ∧ WithoutRow A i R := by
  unfold removeRow
  rw [assertThat_true (by omega)]
  by_cases h : (i : ℤ) < (A.rows : ℤ) - 1
  · simp only [ok_bind, if_pos h]
    rw [require_true (by omega)]
    refine ⟨_, rfl, ?_, rfl, ?_⟩
    · simp only; omega
    · intro c hc
      refine ⟨fun r hr => ?_, fun r hr hr' => ?_⟩
      · simp only
        rw [if_pos (by omega)]
      · simp only
        rw [if_neg (by omega)]
        congr 1; omega
  · simp only [ok_bind, if_neg h]
    rw [require_true (by omega)]
    refine ⟨_, rfl, ?_, rfl, ?_⟩
    · simp only; omega
    · intro c hc
      exact ⟨fun r hr => rfl, fun r hr hr' => by omega⟩

/-- **C40**, rows: an index greater than the number of rows is rejected. The index which is equal to the number of rows and
negative indices are not, see below. -/
theorem C40_row_reject_partial (A : Mat K) (i : ℤ) (hi : (A.rows : ℤ) < i) : removeRow A i = .error .thrown := by
  unfold removeRow
  rw [assertThat_false (by omega)]
  rfl

/-- The index one past the end is accepted and removes the last row. -/
theorem C40_row_end_refuted (A : Mat K) (h : 1 ≤ A.rows) :
    ∃ R, removeRow A A.rows = .ok R ∧ WithoutRow A (A.rows - 1) R := by
  unfold removeRow
  rw [assertThat_true (by omega)]
  simp only [ok_bind, if_neg (show ¬ ((A.rows : ℤ) < (A.rows : ℤ) - 1) by omega)]
  rw [require_true (by omega)]
  refine ⟨_, rfl, ?_, rfl, ?_⟩
  · simp only; omega
  · intro c hc
    exact ⟨fun r hr => rfl, fun r hr hr' => by omega⟩

/-- Negative indices are not rejected: undefined behaviour. -/
theorem C40_row_negative_refuted (A : Mat K) (i : ℤ) (hi : i < 0) (h : 1 ≤ A.rows) : removeRow A i = .error .ub := by
  unfold removeRow
  rw [assertThat_true (by omega)]
  simp only [ok_bind, if_pos (show i < (A.rows : ℤ) - 1 by omega)]
  rw [require_false (by omega)]
  rfl

/-- **C40**, columns: for each valid index, which is at the same time not greater than the number of *rows*, exactly this
column is removed. -/
theorem C40_column_partial (A : Mat K) (j : ℕ) (hj : j < A.cols) (hr : j ≤ A.rows) :
    ∃ R, removeColumn A j = .ok R ∧ WithoutColumn A j R := by
  unfold removeColumn
  rw [assertThat_true (by omega)]
  by_cases h : (j : ℤ) < (A.cols : ℤ) - 1
  · simp only [ok_bind, if_pos h]
    rw [require_true (by omega)]
    refine ⟨_, rfl, rfl, ?_, ?_⟩
    · simp only; omega
    · intro c hc
      refine ⟨fun r hr => ?_, fun r hr hr' => ?_⟩
      · simp only
        rw [if_pos (by omega)]
      · simp only
        rw [if_neg (by omega)]
        congr 1; omega
  · simp only [ok_bind, if_neg h]
    rw [require_true (by omega)]
    refine ⟨_, rfl, rfl, ?_, ?_⟩
    · simp only; omega
    · intro c hc
      exact ⟨fun r hr => rfl, fun r hr hr' => by omega⟩

/-- A valid index is rejected whenever it is greater than the number of rows: the wrong size is checked. -/
theorem C40_column_refuted (A : Mat K) (j : ℕ) (hr : A.rows < j) : removeColumn A j = .error .thrown := by
  unfold removeColumn
  rw [assertThat_false (by omega)]
  rfl

/-- Invalid indices are accepted when the matrix has sufficiently many rows: the last column is removed. -/
theorem C40_column_end_refuted (A : Mat K) (j : ℕ) (hj : A.cols ≤ j) (hr : j ≤ A.rows) (h : 1 ≤ A.cols) :
    ∃ R, removeColumn A j = .ok R ∧ WithoutColumn A (A.cols - 1) R := by
  unfold removeColumn
  rw [assertThat_true (by omega)]
  simp only [ok_bind, if_neg (show ¬ ((j : ℤ) < (A.cols : ℤ) - 1) by omega)]
  rw [require_true (by omega)]
  refine ⟨_, rfl, rfl, ?_, ?_⟩
  · simp only; omega
  · intro c hc
    exact ⟨fun r hr => rfl, fun r hr hr' => by omega⟩

example : ∃ R, removeRow (Mat.ofRows 1 [[1], [2], [(3 : ℚ)]]) 1 = .ok R ∧ R.rows = 2 ∧ R.e 0 0 = 1 ∧ R.e 1 0 = 3 :=
  ⟨_, rfl, by decide⟩
example : ∃ R, removeColumn (Mat.ofRows 3 [[1, 2, (3 : ℚ)]]) 0 = .ok R ∧ R.cols = 2 ∧ R.e 0 0 = 2 ∧ R.e 0 1 = 3 :=
  ⟨_, rfl, by decide⟩
/-- The last column of a row vector with three elements cannot be removed. -/
example : removeColumn (Mat.ofRows 3 [[1, 2, (3 : ℚ)]]) 2 = .error .thrown := rfl

/-! ## C41 -/

/-- **C41.** The selection consists of exactly those rows `first`, `first + step`, ... which exist, in this order. -/
theorem C41_select (A : Mat K) (step first : ℕ) (hs : 0 < step) (hf : first ≤ A.rows) :
    ∃ V, selectRows A step first = .ok V ∧ V.cols = A.cols ∧ (∀ i, i < V.rows ↔ first + i * step < A.rows) ∧
      ∀ i < V.rows, ∀ j < V.cols, V.get i j = .ok (A.e (first + i * step) j) := by
  unfold selectRows
  rw [require_true ⟨hf, hs⟩]
  have hrows : ∀ i, i < (A.rows - first + step - 1) / step ↔ first + i * step < A.rows := by
    intro i
    rw [Nat.lt_iff_add_one_le, Nat.le_div_iff_mul_le hs, Nat.add_mul]
    omega
  refine ⟨_, rfl, rfl, hrows, ?_⟩
  intro i hi j hj
  have h1 : first + i * step < A.rows := (hrows i).mp hi
  have hj' : j < A.cols := hj
  have hi' : i < (A.rows - first + step - 1) / step := hi
  unfold MapView.get
  rw [if_pos ⟨hi, hj⟩]
  unfold Mat.data
  have e : first + i * step + j * A.rows = j * A.rows + (first + i * step) := by omega
  simp only
  rw [if_pos]
  · rw [e, mod_blk h1, div_blk h1]
  · rw [e, Nat.mul_comm A.rows]
    have : (j + 1) * A.rows ≤ A.cols * A.rows := Nat.mul_le_mul_right _ hj'
    rw [Nat.add_mul] at this
    omega

/-- **C41.** The product with a selection matrix is the selection. -/
theorem C41_selection_matrix (A : Mat K) (s : SelectionMatrix) (hs : 0 < s.step) (hf : s.first ≤ A.rows) :
    ∃ V, s.mul A = .ok V ∧ V.cols = A.cols ∧ (∀ i, i < V.rows ↔ s.first + i * s.step < A.rows) ∧
      ∀ i < V.rows, ∀ j < V.cols, V.get i j = .ok (A.e (s.first + i * s.step) j) :=
  C41_select A s.step s.first hs hf

/-- Rows 1 and 3 of five rows. -/
example : ∃ V, selectRows (Mat.ofRows 2 [[0, 1], [2, 3], [4, 5], [6, 7], [8, (9 : ℚ)]]) 2 1 = .ok V ∧ V.rows = 2 ∧
    V.get 1 1 = .ok 7 := ⟨_, rfl, by decide, by rfl⟩

end Humoto
