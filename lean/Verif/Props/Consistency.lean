import Verif.Lemmas.Blocks
import Verif.Lemmas.Constraints

/-!
# C119: consistency checks of constraints
-/

namespace Humoto

open Spec

variable {K : Type} [Field K]

theorem consistency_outcome (c : Ctr K) : c.checkConsistency = .ok () ∨ c.checkConsistency = .error .thrown := by
  unfold Ctr.checkConsistency assertThat
  split_ifs <;> simp [ok_bind] <;> first | exact .inl rfl | exact .inr rfl

/-- **C119.** Constraints whose sizes fit together and which mention only existing variables are accepted. -/
theorem C119_accepts (c : Ctr K) (h : WellFormed c) : c.checkConsistency = .ok () := checkConsistency_of_wellFormed c h

/-- **C119.** Constraints on all variables (classes ALU, AL, AU, AB, AB0) are accepted if and only if their sizes fit together, and
otherwise an exception is thrown. -/
theorem C119_dense (c : Ctr K) (hc : c.ctype ∈ [CtrType.alu, .al, .au, .ab, .ab0]) :
    (c.checkConsistency = .ok () ↔ WellFormed c) ∧ (c.checkConsistency = .error .thrown ↔ ¬ WellFormed c) := by
  have hr : InRange c := by
    rcases c with ⟨t, n, d⟩
    simp only [List.mem_cons, List.not_mem_nil, or_false] at hc
    rcases hc with rfl | rfl | rfl | rfl | rfl <;> trivial
  refine ⟨⟨fun h => wellFormed_of_checkConsistency c h hr, C119_accepts c⟩, fun h hw => ?_, fun h => ?_⟩
  · rw [C119_accepts c hw] at h
    cases h
  · rcases consistency_outcome c with e | e
    · exact absurd (wellFormed_of_checkConsistency c e hr) h
    · exact e

/-- **C119.** Constraints of other classes are accepted or an exception is thrown by the same rule, if their indices refer to existing
variables and their offset is not negative. Missing: the other constraints, see `C119_index_refuted` and `C119_offset_refuted`. -/
theorem C119_other_partial (c : Ctr K) (hr : InRange c) :
    (c.checkConsistency = .ok () ↔ WellFormed c) ∧ (c.checkConsistency = .error .thrown ↔ ¬ WellFormed c) := by
  refine ⟨⟨fun h => wellFormed_of_checkConsistency c h hr, C119_accepts c⟩, fun h hw => ?_, fun h => ?_⟩
  · rw [C119_accepts c hw] at h
    cases h
  · rcases consistency_outcome c with e | e
    · exact absurd (wellFormed_of_checkConsistency c e hr) h
    · exact e

/-- **C119.** Rows of accepted constraints on all variables can be evaluated at any vector of the right size: nothing outside of the
matrices and vectors is read, and the value is that of the row. The same holds for other classes, if the indices and the offset
are in range. -/
theorem C119_rows (c : Ctr K) (hr : InRange c) (h : c.checkConsistency = .ok ()) (x : Vec K) (hx : x.n = c.nvars) (i : ℕ)
    (hi : i < rows c) : c.getProduct i x = .ok (lhs c x.e i) :=
  getProduct_ok c (wellFormed_of_checkConsistency c h hr) x hx i hi

/-- **C119.** Indices are not checked: simple constraints are accepted with an index to a variable which does not exist, and evaluation
of this row at any vector of the right size reads outside of the vector. -/
theorem C119_index_refuted (c : Ctr K) (hs : c.ctype.isSimple = true) (hb : BoundsFit c) (hg : c.data.gains.n = c.data.idx.n) (i : ℕ)
    (hi : i < c.data.idx.n) (hi' : c.nvars ≤ c.data.idx.e i) :
    c.checkConsistency = .ok () ∧ ∀ x : Vec K, x.n = c.nvars → c.getProduct i x = .error .ub := by
  constructor
  · -- the check does not depend on the values of the indices
    have e : c.checkConsistency = Ctr.checkConsistency ⟨c.ctype, c.nvars + 1, { c.data with idx := ⟨c.data.idx.n, fun _ => 0⟩ }⟩ := by
      rcases c with ⟨t, n, d⟩
      cases t <;> first | rfl | cases hs
    rw [e]
    refine C119_accepts _ ⟨?_, ?_⟩
    · rcases c with ⟨t, n, d⟩
      cases t <;> first | exact hb | cases hs
    · rcases c with ⟨t, n, d⟩
      cases t <;> first | exact fun _ _ => Nat.succ_pos _ | exact ⟨hg, fun _ _ => Nat.succ_pos _⟩ | cases hs
  · intro x hx
    have h1 : c.data.idx.get i = .ok (c.data.idx.e i) := if_pos hi
    have h2 : x.get (c.data.idx.e i) = .error .ub := if_neg (by omega)
    have h3 : c.data.gains.get i = .ok (c.data.gains.e i) := if_pos (by omega)
    rcases c with ⟨t, n, d⟩
    cases t <;> first | cases hs | skip
    all_goals
      simp only [Ctr.getProduct, CtrType.body] at h1 h2 h3 ⊢
      simp only [h1, h2, h3, ok_bind]
      try rfl

/-- There are such constraints, of every simple class. -/
example (t : CtrType) (ht : t.isSimple = true) : ∃ c : Ctr ℚ, c.ctype = t ∧ c.ctype.isSimple = true ∧ BoundsFit c ∧
    c.data.gains.n = c.data.idx.n ∧ c.nvars = 3 ∧ c.data.idx.n = 2 ∧ c.data.idx.e 1 = 3 := by
  refine ⟨⟨t, 3, ⟨⟨0, 0, fun _ _ => 0⟩, 0, ⟨2, fun i => i + 2⟩, ⟨2, fun _ => 1⟩, ⟨2, fun _ => 0⟩, ⟨2, fun _ => 0⟩, ⟨2, fun _ => 0⟩⟩⟩, rfl, ht, ?_,
    rfl, rfl, rfl, rfl⟩
  cases t <;> first | exact ⟨rfl, rfl⟩ | exact rfl | exact trivial | cases ht

/-- **C119.** Constraints on a part of the variables are accepted with a negative offset (which is not beyond their columns), and
evaluation of any row at any vector reads before the beginning of the vector. -/
theorem C119_offset_refuted (c : Ctr K) (hs : c.ctype.body = .as) (hb : BoundsFit c) (h0 : c.data.offset < 0)
    (h1 : -c.data.offset ≤ c.data.A.cols) (h2 : (c.data.A.cols : ℤ) + c.data.offset ≤ c.nvars) :
    c.checkConsistency = .ok () ∧ ∀ (x : Vec K) (i : ℕ), c.getProduct i x = .error .ub := by
  constructor
  · have hm : c.bodyMatches = true := by
      unfold Ctr.bodyMatches
      rw [hs]
      simp only [Bool.and_eq_true, decide_eq_true_eq]
      omega
    have hbm : c.boundSizesMatch = true := by
      rcases c with ⟨t, n, d⟩
      cases t <;> simp_all [BoundsFit, Ctr.boundSizesMatch, CtrType.bounds, Spec.rows, Ctr.numRows, CtrType.body]
    unfold Ctr.checkConsistency
    rw [assertThat_true hbm, ok_bind, assertThat_true hm]
  · intro x i
    unfold Ctr.getProduct
    rw [hs]
    simp only
    unfold require
    rw [if_neg (by omega)]
    rfl

/-- There are such constraints. -/
example : ∃ c : Ctr ℚ, c.ctype = .aslu ∧ BoundsFit c ∧ c.data.offset < 0 ∧ -c.data.offset ≤ c.data.A.cols ∧
    (c.data.A.cols : ℤ) + c.data.offset ≤ c.nvars ∧ 0 < rows c :=
  ⟨⟨.aslu, 3, ⟨⟨2, 3, fun _ _ => 1⟩, -1, ⟨0, fun _ => 0⟩, ⟨0, fun _ => 0⟩, ⟨0, fun _ => 0⟩, ⟨2, fun _ => 0⟩, ⟨2, fun _ => 1⟩⟩⟩, rfl, ⟨rfl, rfl⟩,
    by norm_num, by norm_num, by norm_num, by show 0 < 2; norm_num⟩

/-- Accepted and rejected constraints on all variables. -/
example : (⟨.al, 3, ⟨⟨2, 3, fun _ _ => 1⟩, 0, ⟨0, fun _ => 0⟩, ⟨0, fun _ => 0⟩, ⟨0, fun _ => 0⟩, ⟨2, fun _ => 0⟩, ⟨0, fun _ => 1⟩⟩⟩ : Ctr ℚ).checkConsistency = .ok () ∧
    (⟨.al, 4, ⟨⟨2, 3, fun _ _ => 1⟩, 0, ⟨0, fun _ => 0⟩, ⟨0, fun _ => 0⟩, ⟨0, fun _ => 0⟩, ⟨2, fun _ => 0⟩, ⟨0, fun _ => 1⟩⟩⟩ : Ctr ℚ).checkConsistency = .error .thrown ∧
    (⟨.al, 3, ⟨⟨2, 3, fun _ _ => 1⟩, 0, ⟨0, fun _ => 0⟩, ⟨0, fun _ => 0⟩, ⟨0, fun _ => 0⟩, ⟨3, fun _ => 0⟩, ⟨0, fun _ => 1⟩⟩⟩ : Ctr ℚ).checkConsistency = .error .thrown :=
  ⟨rfl, rfl, rfl⟩

end Humoto
