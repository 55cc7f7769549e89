import Verif.Model.Eigentools
import Verif.Spec.Eigentools
import Verif.Lemmas.Paint

/-!
# Lemmas on matrix tools
-/

namespace Humoto

open Spec

set_option linter.unusedSectionVars false

variable {K : Type}

theorem sumRows_cons (M : Mat K) (l : List (Mat K)) : sumRows (M :: l) = M.rows + sumRows l := by
  simp [sumRows]
theorem sumCols_cons (M : Mat K) (l : List (Mat K)) : sumCols (M :: l) = M.cols + sumCols l := by
  simp [sumCols]
theorem rowsBefore_zero (l : List (Mat K)) : rowsBefore l 0 = 0 := by simp [rowsBefore, sumRows]
theorem colsBefore_zero (l : List (Mat K)) : colsBefore l 0 = 0 := by simp [colsBefore, sumCols]
theorem rowsBefore_succ (M : Mat K) (l : List (Mat K)) (b : ℕ) : rowsBefore (M :: l) (b + 1) = M.rows + rowsBefore l b := by
  simp [rowsBefore, sumRows]
theorem colsBefore_succ (M : Mat K) (l : List (Mat K)) (b : ℕ) : colsBefore (M :: l) (b + 1) = M.cols + colsBefore l b := by
  simp [colsBefore, sumCols]

theorem foldl_add (l : List ℕ) (n : ℕ) : l.foldl (· + ·) n = n + l.sum := by
  induction l generalizing n with
  | nil => simp
  | cons a l ih => simp only [List.foldl_cons, List.sum_cons, ih]; omega

theorem blockDiagonal_loop (l : List (Mat K)) : ∀ (O : Mat K) (r c : ℕ), r + sumRows l ≤ O.rows → c + sumCols l ≤ O.cols →
    ∃ O', l.foldlM blockDiagonalLoop (O, r, c) = .ok (O', r + sumRows l, c + sumCols l) ∧
      O'.rows = O.rows ∧ O'.cols = O.cols ∧ (∀ x y, x < r ∨ y < c → O'.e x y = O.e x y) ∧
      (∀ (b : ℕ) M, l[b]? = some M → ∀ i < M.rows, ∀ j < M.cols,
        O'.e (r + (rowsBefore l b + i)) (c + (colsBefore l b + j)) = M.e i j) ∧
      (∀ (b d : ℕ) M N, b ≠ d → l[b]? = some M → l[d]? = some N → ∀ i < M.rows, ∀ j < N.cols,
        O'.e (r + (rowsBefore l b + i)) (c + (colsBefore l d + j)) =
          O.e (r + (rowsBefore l b + i)) (c + (colsBefore l d + j))) := by
  induction l with
  | nil =>
    intro O r c _ _
    refine ⟨O, rfl, rfl, rfl, fun _ _ _ => rfl, fun b M h => ?_, fun b d M N _ h => ?_⟩
    · simp at h
    · simp at h
  | cons M l ih =>
    intro O r c hr hc
    rw [sumRows_cons] at hr
    rw [sumCols_cons] at hc
    have hset := Mat.setBlock_ok (A := O) (B := M) (r := r) (c := c) (h := M.rows) (w := M.cols) (by omega) (by omega) rfl rfl
    set O1 : Mat K := ⟨O.rows, O.cols, fun i j =>
      if (r ≤ i ∧ i < r + M.rows) ∧ (c ≤ j ∧ j < c + M.cols) then M.e (i - r) (j - c) else O.e i j⟩ with hO1
    obtain ⟨O', h1, h2, h3, h4, h5, h6⟩ := ih O1 (r + M.rows) (c + M.cols) (by show _ ≤ O.rows; omega) (by show _ ≤ O.cols; omega)
    refine ⟨O', ?_, h2, h3, ?_, ?_, ?_⟩
    · rw [List.foldlM_cons]
      have : blockDiagonalLoop (O, r, c) M = .ok (O1, r + M.rows, c + M.cols) := by
        unfold blockDiagonalLoop
        simp only
        rw [hset]
        rfl
      rw [this, ok_bind, h1, sumRows_cons, sumCols_cons, Nat.add_assoc, Nat.add_assoc]
    · intro x y hxy
      rw [h4 x y (by omega)]
      show (if _ then _ else _) = _
      rw [if_neg (by omega)]
    · intro b N hN i hi j hj
      cases b with
      | zero =>
        simp only [List.getElem?_cons_zero, Option.some.injEq] at hN
        subst hN
        rw [rowsBefore_zero, colsBefore_zero, h4 _ _ (by omega)]
        show (if _ then _ else _) = _
        rw [if_pos (by omega)]
        congr 1 <;> omega
      | succ b =>
        rw [List.getElem?_cons_succ] at hN
        rw [rowsBefore_succ, colsBefore_succ, ← h5 b N hN i hi j hj]
        congr 1 <;> omega
    · intro b d A B hbd hA hB i hi j hj
      have out : ∀ x y, ¬ ((r ≤ x ∧ x < r + M.rows) ∧ (c ≤ y ∧ y < c + M.cols)) → O1.e x y = O.e x y :=
        fun x y h => if_neg h
      cases b with
      | zero =>
        cases d with
        | zero => omega
        | succ d =>
          simp only [List.getElem?_cons_zero, Option.some.injEq] at hA
          subst hA
          rw [rowsBefore_zero, colsBefore_succ, h4 _ _ (by omega), out _ _ (by omega)]
      | succ b =>
        cases d with
        | zero =>
          simp only [List.getElem?_cons_zero, Option.some.injEq] at hB
          subst hB
          rw [rowsBefore_succ, colsBefore_zero, h4 _ _ (by omega), out _ _ (by omega)]
        | succ d =>
          rw [List.getElem?_cons_succ] at hA hB
          have := h6 b d A B (by omega) hA hB i hi j hj
          rw [rowsBefore_succ, colsBefore_succ]
          have e1 : r + (M.rows + rowsBefore l b + i) = r + M.rows + (rowsBefore l b + i) := by omega
          have e2 : c + (M.cols + colsBefore l d + j) = c + M.cols + (colsBefore l d + j) := by omega
          rw [e1, e2, this, out _ _ (by omega)]

theorem makeBlockDiagonal_ok [Zero K] (l : List (Mat K)) : ∃ R, makeBlockDiagonal l = .ok R ∧ BlockDiagonalOf l R := by
  match l with
  | [] =>
    refine ⟨_, rfl, rfl, rfl, ?_, ?_⟩
    · intro b M h; simp at h
    · intro b c M N _ h; simp at h
  | [M] =>
    refine ⟨M, rfl, by simp [sumRows], by simp [sumCols], ?_, ?_⟩
    · intro b N h i hi j hj
      cases b with
      | zero =>
        simp only [List.getElem?_cons_zero, Option.some.injEq] at h
        subst h
        rw [rowsBefore_zero, colsBefore_zero, Nat.zero_add, Nat.zero_add]
      | succ b => simp at h
    · intro b c A B hbc hA hB
      cases b with
      | zero =>
        cases c with
        | zero => omega
        | succ c => simp at hB
      | succ b => simp at hA
  | M1 :: M2 :: l =>
    obtain ⟨O, h1, h2, h3, -, h5, h6⟩ := blockDiagonal_loop (M1 :: M2 :: l)
      (⟨sumRows (M1 :: M2 :: l), sumCols (M1 :: M2 :: l), fun _ _ => 0⟩ : Mat K) 0 0 (by simp) (by simp)
    refine ⟨O, ?_, h2, h3, ?_, ?_⟩
    · unfold makeBlockDiagonal
      simp only
      have e1 : ((M1 :: M2 :: l).map Mat.rows).foldl (· + ·) 0 = sumRows (M1 :: M2 :: l) := by
        rw [foldl_add]; simp [sumRows]
      have e2 : ((M1 :: M2 :: l).map Mat.cols).foldl (· + ·) 0 = sumCols (M1 :: M2 :: l) := by
        rw [foldl_add]; simp [sumCols]
      rw [e1, e2, h1]
      rfl
    · intro b M h i hi j hj
      have := h5 b M h i hi j hj
      rwa [Nat.zero_add, Nat.zero_add] at this
    · intro b c A B hbc hA hB i hi j hj
      have := h6 b c A B hbc hA hB i hi j hj
      rwa [Nat.zero_add, Nat.zero_add] at this

theorem rowsBefore_replicate (M : Mat K) (n b : ℕ) (hb : b ≤ n) : rowsBefore (List.replicate n M) b = b * M.rows := by
  simp [rowsBefore, sumRows, Nat.min_eq_left hb]
theorem colsBefore_replicate (M : Mat K) (n b : ℕ) (hb : b ≤ n) : colsBefore (List.replicate n M) b = b * M.cols := by
  simp [colsBefore, sumCols, Nat.min_eq_left hb]

theorem getElem?_replicate_some {M N : Mat K} {n b : ℕ} (h : (List.replicate n M)[b]? = some N) : b < n ∧ N = M := by
  rw [List.getElem?_replicate] at h
  split at h
  · exact ⟨by assumption, (Option.some.inj h).symm⟩
  · cases h

theorem makeBlockDiagonalCopies_ok [Zero K] (M : Mat K) (n : ℕ) :
    ∃ R, makeBlockDiagonalCopies M n = .ok R ∧ BlockDiagonalOf (List.replicate n M) R := by
  match n with
  | 0 =>
    refine ⟨_, rfl, rfl, rfl, ?_, ?_⟩
    · intro b M h; simp at h
    · intro b c M N _ h; simp at h
  | 1 =>
    obtain ⟨R, h, hR⟩ := makeBlockDiagonal_ok [M]
    exact ⟨M, rfl, by cases h; exact hR⟩
  | n + 2 =>
    obtain ⟨R, h1, h2⟩ := paint_forRange (n := n + 2) (M := (⟨(n + 2) * M.rows, (n + 2) * M.cols, fun _ _ => 0⟩ : Mat K))
      (G := fun x y => M.e (x % M.rows) (y % M.cols)) (W := fun i => Rect (i * M.rows) (i * M.cols) M.rows M.cols)
      (body := fun O i => O.setBlock (i * M.rows) (i * M.cols) M.rows M.cols M) (by
        intro i hi N hr hc
        refine paint_setBlock ?_ ?_ rfl rfl ?_
        · rw [hr, ← Nat.succ_mul]; exact Nat.mul_le_mul_right _ hi
        · rw [hc, ← Nat.succ_mul]; exact Nat.mul_le_mul_right _ hi
        · intro p hp q hq
          simp only [mod_blk hp, mod_blk hq])
    refine ⟨R, h1, ?_, ?_, ?_, ?_⟩
    · rw [h2.rows]; simp [sumRows]
    · rw [h2.cols]; simp [sumCols]
    · intro b N hN i hi j hj
      obtain ⟨hb, rfl⟩ := getElem?_replicate_some hN
      rw [rowsBefore_replicate _ _ _ (by omega), colsBefore_replicate _ _ _ (by omega),
        h2.inside _ _ ⟨b, hb, by rw [rect_blk]; exact ⟨⟨div_blk hi, by omega⟩, div_blk hj, by omega⟩⟩]
      simp only [mod_blk hi, mod_blk hj]
    · intro b c A B hbc hA hB i hi j hj
      obtain ⟨hb, rfl⟩ := getElem?_replicate_some hA
      obtain ⟨hc, rfl⟩ := getElem?_replicate_some hB
      rw [rowsBefore_replicate _ _ _ (by omega), colsBefore_replicate _ _ _ (by omega), h2.outside]
      rintro ⟨k, hk, hr⟩
      rw [rect_blk, div_blk hi, div_blk hj] at hr
      omega

/-! ### Concatenation -/

/-- What the erasing loop leaves of the part of the list it has not visited. -/
def eraseSkip : List (Mat K) → List (Mat K)
  | [] => []
  | [M] => if M.isEmpty then [] else [M]
  | M :: N :: l => if M.isEmpty then N :: eraseSkip l else M :: eraseSkip (N :: l)

theorem eraseIdx_mid (pre : List (Mat K)) (M : Mat K) (l : List (Mat K)) :
    (pre ++ M :: l).eraseIdx pre.length = pre ++ l := by
  induction pre with
  | nil => rfl
  | cons a pre ih => simpa using ih

theorem eraseEmpty_eq (l : List (Mat K)) : ∀ pre, eraseEmpty (pre ++ l) pre.length = pre ++ eraseSkip l := by
  induction l using eraseSkip.induct with
  | case1 =>
    intro pre
    rw [eraseEmpty, dif_neg (by simp)]
    rfl
  | case2 M _ | case3 M _ =>
    intro pre
    rw [eraseEmpty, dif_pos (by simp)]
    have e : (pre ++ [M])[pre.length]'(by simp) = M := by simp
    rw [e]
    by_cases hM : M.isEmpty
    · rw [if_pos hM]
      rw [eraseIdx_mid, List.append_nil, eraseEmpty, dif_neg (by omega)]
      simp [eraseSkip, hM]
    · rw [if_neg hM]
      unfold eraseEmpty
      simp [eraseSkip, hM]
  | case4 M N l hM ih =>
    intro pre
    rw [eraseEmpty, dif_pos (by simp)]
    have e : (pre ++ M :: N :: l)[pre.length]'(by simp) = M := by simp
    rw [e, if_pos hM]
    have := ih (pre ++ [N])
    simp only [List.append_assoc, List.length_append, List.length_cons, List.length_nil, List.singleton_append] at this
    rw [eraseIdx_mid]
    simp only [eraseSkip, if_pos hM]
    exact this
  | case5 M N l hM ih =>
    intro pre
    rw [eraseEmpty, dif_pos (by simp)]
    have e : (pre ++ M :: N :: l)[pre.length]'(by simp) = M := by simp
    rw [e, if_neg hM]
    have := ih (pre ++ [M])
    simp only [List.append_assoc, List.length_append, List.length_cons, List.length_nil, List.singleton_append] at this
    simp [eraseSkip, hM, this]

theorem isEmpty_iff (M : Mat K) : M.isEmpty = true ↔ Spec.Empty M := by
  simp [Mat.isEmpty, Spec.Empty]

theorem eraseSkip_nonEmpty (l : List (Mat K)) (h : l.IsChain fun A B => ¬ (Spec.Empty A ∧ Spec.Empty B)) :
    eraseSkip l = nonEmpty l := by
  induction l using eraseSkip.induct with
  | case1 => rfl
  | case2 M _ | case3 M _ =>
    by_cases hM : Spec.Empty M
    · simp [eraseSkip, nonEmpty, (isEmpty_iff M).mpr hM, hM]
    · simp [eraseSkip, nonEmpty, mt (isEmpty_iff M).mp hM, hM]
  | case4 M N l hM ih =>
    rw [List.isChain_cons_cons] at h
    have hM' := (isEmpty_iff M).mp hM
    have hN : ¬ Spec.Empty N := fun hN => h.1 ⟨hM', hN⟩
    simp only [eraseSkip, if_pos hM]
    rw [ih h.2.tail]
    simp [nonEmpty, hM', hN]
  | case5 M N l hM ih =>
    rw [List.isChain_cons_cons] at h
    have hM' := mt (isEmpty_iff M).mpr hM
    simp only [eraseSkip, if_neg hM]
    rw [ih h.2]
    simp [nonEmpty, hM']

theorem eraseSkip_sublist (l : List (Mat K)) : (eraseSkip l).Sublist l ∧ (nonEmpty l).Sublist (eraseSkip l) := by
  induction l using eraseSkip.induct with
  | case1 => exact ⟨List.Sublist.refl _, List.Sublist.refl _⟩
  | case2 M _ | case3 M _ =>
    by_cases hM : Spec.Empty M
    · simp [eraseSkip, nonEmpty, (isEmpty_iff M).mpr hM, hM]
    · simp [eraseSkip, nonEmpty, mt (isEmpty_iff M).mp hM, hM]
  | case4 M N l hM ih =>
    have hM' := (isEmpty_iff M).mp hM
    simp only [eraseSkip, if_pos hM]
    refine ⟨(ih.1.cons_cons N).cons M, ?_⟩
    by_cases hN : Spec.Empty N
    · have : nonEmpty (M :: N :: l) = nonEmpty l := by simp [nonEmpty, hM', hN]
      rw [this]
      exact ih.2.cons N
    · have : nonEmpty (M :: N :: l) = N :: nonEmpty l := by simp [nonEmpty, hM', hN]
      rw [this]
      exact ih.2.cons_cons N
  | case5 M N l hM ih =>
    have hM' := mt (isEmpty_iff M).mpr hM
    simp only [eraseSkip, if_neg hM]
    refine ⟨ih.1.cons_cons M, ?_⟩
    have : nonEmpty (M :: N :: l) = M :: nonEmpty (N :: l) := by simp [nonEmpty, hM']
    rw [this]
    exact ih.2.cons_cons M

theorem countRows_ok (c : ℕ) (l : List (Mat K)) (n : ℕ) (h : ∀ M ∈ l, M.cols = c) :
    l.foldlM (countRows c) n = .ok (n + sumRows l) := by
  induction l generalizing n with
  | nil => rfl
  | cons M l ih =>
    rw [List.foldlM_cons]
    have : countRows c n M = .ok (n + M.rows) := by
      unfold countRows
      rw [assertThat_true (h M (by simp)).symm]
      rfl
    rw [this, ok_bind, ih _ (fun N hN => h N (by simp [hN])), sumRows_cons, Nat.add_assoc]

theorem countRows_thrown (c : ℕ) (l : List (Mat K)) (n : ℕ) (h : ∃ M ∈ l, M.cols ≠ c) :
    l.foldlM (countRows c) n = .error .thrown := by
  induction l generalizing n with
  | nil => simp at h
  | cons M l ih =>
    rw [List.foldlM_cons]
    by_cases hM : c = M.cols
    · have : countRows c n M = .ok (n + M.rows) := by
        unfold countRows
        rw [assertThat_true hM]
        rfl
      rw [this, ok_bind]
      refine ih _ ?_
      obtain ⟨N, hN, hc⟩ := h
      rcases List.mem_cons.mp hN with rfl | hN
      · exact absurd hM.symm hc
      · exact ⟨N, hN, hc⟩
    · have : countRows c n M = .error .thrown := by
        unfold countRows
        rw [assertThat_false hM]
        rfl
      rw [this]
      rfl

theorem stack_loop (c : ℕ) (l : List (Mat K)) : ∀ (R : Mat K) (r : ℕ), R.cols = c → (∀ M ∈ l, M.cols = c) →
    r + sumRows l ≤ R.rows →
    ∃ R', l.foldlM (stackLoop c) (R, r) = .ok (R', r + sumRows l) ∧ R'.rows = R.rows ∧ R'.cols = c ∧
      (∀ x y, x < r → R'.e x y = R.e x y) ∧
      (∀ (b : ℕ) M, l[b]? = some M → ∀ i < M.rows, ∀ j < M.cols, R'.e (r + (rowsBefore l b + i)) j = M.e i j) := by
  induction l with
  | nil =>
    intro R r hc _ _
    refine ⟨R, rfl, rfl, hc, fun _ _ _ => rfl, fun b M h => ?_⟩
    simp at h
  | cons M l ih =>
    intro R r hc hl hr
    rw [sumRows_cons] at hr
    have hM : M.cols = c := hl M (by simp)
    have hset := Mat.setBlock_ok (A := R) (B := M) (r := r) (c := 0) (h := M.rows) (w := c) (by omega) (by omega) rfl hM
    set R1 : Mat K := ⟨R.rows, R.cols, fun i j =>
      if (r ≤ i ∧ i < r + M.rows) ∧ (0 ≤ j ∧ j < 0 + c) then M.e (i - r) (j - 0) else R.e i j⟩ with hR1
    obtain ⟨R', h1, h2, h3, h4, h5⟩ := ih R1 (r + M.rows) hc (fun N hN => hl N (by simp [hN])) (by show _ ≤ R.rows; omega)
    refine ⟨R', ?_, h2, h3, ?_, ?_⟩
    · rw [List.foldlM_cons]
      have : stackLoop c (R, r) M = .ok (R1, r + M.rows) := by
        unfold stackLoop
        simp only
        rw [hset]
        rfl
      rw [this, ok_bind, h1, sumRows_cons, Nat.add_assoc]
    · intro x y hx
      rw [h4 x y (by omega)]
      show (if _ then _ else _) = _
      rw [if_neg (by omega)]
    · intro b N hN i hi j hj
      cases b with
      | zero =>
        simp only [List.getElem?_cons_zero, Option.some.injEq] at hN
        subst hN
        rw [rowsBefore_zero, h4 _ _ (by omega)]
        show (if _ then _ else _) = _
        rw [if_pos (by omega)]
        congr 1; omega
      | succ b =>
        rw [List.getElem?_cons_succ] at hN
        rw [rowsBefore_succ, ← h5 b N hN i hi j hj]
        congr 1; omega

/-- `concatenateVertically` after the empty matrices were removed. -/
def concatenateRest (junk : ℕ → ℕ → K) : List (Mat K) → Res (Mat K)
  | [] => .ok ⟨0, 0, junk⟩
  | M :: rest => do
    let rows ← (M :: rest).foldlM (countRows M.cols) 0
    let s ← (M :: rest).foldlM (stackLoop M.cols) (⟨rows, M.cols, junk⟩, 0)
    pure s.1

theorem concatenateVertically_eq (junk : ℕ → ℕ → K) (l : List (Mat K)) :
    concatenateVertically junk l = concatenateRest junk (eraseSkip l) := by
  have := eraseEmpty_eq l []
  simp only [List.nil_append, List.length_nil] at this
  rw [← this]
  cases l with
  | nil =>
    rw [eraseEmpty, dif_neg (by simp)]
    rfl
  | cons M l =>
    unfold concatenateVertically
    simp only
    cases eraseEmpty (M :: l) 0 <;> rfl

theorem concatenate_ok (junk : ℕ → ℕ → K) {l : List (Mat K)} {c : ℕ} (h0 : eraseSkip l ≠ [])
    (h : ∀ M ∈ eraseSkip l, M.cols = c) :
    ∃ R, concatenateVertically junk l = .ok R ∧ R.cols = c ∧ StackOf (eraseSkip l) R := by
  rw [concatenateVertically_eq]
  generalize eraseSkip l = k at h0 h
  cases k with
  | nil => exact absurd rfl h0
  | cons M rest =>
    have hM : M.cols = c := h M (by simp)
    unfold concatenateRest
    simp only
    rw [hM, countRows_ok c _ 0 h, ok_bind, Nat.zero_add]
    obtain ⟨R', h1, h2, h3, h4, h5⟩ := stack_loop c (M :: rest)
      (⟨sumRows (M :: rest), c, junk⟩ : Mat K) 0 rfl h (by simp)
    rw [h1, ok_bind]
    refine ⟨R', rfl, h3, h2, fun N hN => (h N hN).trans h3.symm, ?_⟩
    intro b N hN i hi j hj
    have := h5 b N hN i hi j hj
    rwa [Nat.zero_add] at this

theorem beside_cols (A B : Mat K) : (A.beside B).cols = A.cols + B.cols := rfl
theorem beside_left (A B : Mat K) {i j : ℕ} (h : j < A.cols) : (A.beside B).e i j = A.e i j := if_pos h
theorem beside_right (A B : Mat K) {i j k : ℕ} (h : k = A.cols + j) : (A.beside B).e i k = B.e i j := by
  subst h
  show (if _ then _ else _) = _
  rw [if_neg (by omega), Nat.add_sub_cancel_left]

end Humoto
