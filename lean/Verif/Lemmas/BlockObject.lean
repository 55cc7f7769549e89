import Verif.Spec.BlockObject
import Mathlib.Tactic.LinearCombination
import Mathlib.Algebra.Ring.Int.Defs

/-! Lemmas about block matrices as objects. -/

namespace Humoto.BlockObject

open Spec

variable {K : Type}

/-- What holds for the rows of each object, also after exceptions. -/
def InvRows (o : BlockObject K) : Prop := (o.tr = -1 ∧ o.br = 0 ∧ o.nv = none) ∨ (o.tr = -1 ∧ 0 < o.br) ∨ (0 < o.tr ∧ o.br = o.tr)

/-- The same for columns. -/
def InvCols (o : BlockObject K) : Prop := (o.tc = -1 ∧ o.bc = 0 ∧ o.nh = none) ∨ (o.tc = -1 ∧ 0 < o.bc) ∨ (0 < o.tc ∧ o.bc = o.tc)

theorem next_ok {r : Outcome K} {f : BlockObject K → Outcome K} {o' : BlockObject K} (h : r.next f = (o', .ok ())) :
    ∃ o, r = (o, .ok ()) ∧ f o = (o', .ok ()) := by
  rcases r with ⟨o, e | ⟨⟨⟩⟩⟩
  · simp [Outcome.next] at h
  · exact ⟨o, rfl, h⟩

theorem next_inv {P : BlockObject K → Prop} {r : Outcome K} {f : BlockObject K → Outcome K} (hr : P r.1) (hf : ∀ o, P o → P (f o).1) :
    P (r.next f).1 := by
  rcases r with ⟨o, e | ⟨⟨⟩⟩⟩
  · exact hr
  · exact hf o hr

/-- What the first part of `finalize` leaves: only the number of blocks may change. -/
theorem finalizeRows_fst (o : BlockObject K) : ∃ n, o.finalizeRows.1 = { o with nv := n } ∧ (o.tr = -1 → o.br = 0 → n = o.nv) := by
  unfold finalizeRows
  split_ifs with h1 h2 h3
  · exact ⟨_, rfl, fun a b => absurd h1 (by simp [a, b])⟩
  · exact ⟨_, rfl, fun _ _ => rfl⟩
  · exact ⟨_, rfl, fun _ _ => rfl⟩
  · exact ⟨_, rfl, fun _ _ => rfl⟩

theorem finalizeCols_fst (o : BlockObject K) : ∃ n, o.finalizeCols.1 = { o with nh := n } ∧ (o.tc = -1 → o.bc = 0 → n = o.nh) := by
  unfold finalizeCols
  split_ifs with h1 h2 h3
  · exact ⟨_, rfl, fun a b => absurd h1 (by simp [a, b])⟩
  · exact ⟨_, rfl, fun _ _ => rfl⟩
  · exact ⟨_, rfl, fun _ _ => rfl⟩
  · exact ⟨_, rfl, fun _ _ => rfl⟩

theorem finalize_inv {o : BlockObject K} (h : InvRows o ∧ InvCols o) : InvRows o.finalize.1 ∧ InvCols o.finalize.1 := by
  refine next_inv (P := fun o => InvRows o ∧ InvCols o) ?_ ?_
  · obtain ⟨n, e, hn⟩ := finalizeRows_fst o
    rw [e]
    refine ⟨?_, h.2⟩
    rcases h.1 with ⟨a, b, c⟩ | a | a
    · exact Or.inl ⟨a, b, by rw [← c]; exact hn a b⟩
    · exact Or.inr (Or.inl a)
    · exact Or.inr (Or.inr a)
  · intro o h
    obtain ⟨n, e, hn⟩ := finalizeCols_fst o
    rw [e]
    refine ⟨h.1, ?_⟩
    rcases h.2 with ⟨a, b, c⟩ | a | a
    · exact Or.inl ⟨a, b, by rw [← c]; exact hn a b⟩
    · exact Or.inr (Or.inl a)
    · exact Or.inr (Or.inr a)

theorem finalizeRows_ok {o o' : BlockObject K} (hi : InvRows o) (h : o.finalizeRows = (o', .ok ())) :
    RowsPartitioned o' ∧ ∃ n, o' = { o with nv := n } := by
  unfold finalizeRows at h
  split_ifs at h with h1 h2 h3
  · injection h with h _
    subst h
    refine ⟨Or.inl ⟨h2, ((o.m.rows : ℤ) / o.blockRows).toNat, ?_, ?_, ?_⟩, _, rfl⟩
    · have : 0 ≤ (o.m.rows : ℤ) / o.blockRows := Int.ediv_nonneg (by omega) h2.le
      rw [Int.toNat_of_nonneg this]
      rfl
    · have : o.blockRows * ((o.m.rows : ℤ) / o.blockRows) = o.m.rows := Int.mul_ediv_cancel' (Int.dvd_of_emod_eq_zero h3)
      show Except.ok (o.blockRows * ((o.m.rows : ℤ) / o.blockRows)) = Except.ok (o.m.rows : ℤ)
      rw [this]
    · have h0 : 0 ≤ (o.m.rows : ℤ) / o.blockRows := Int.ediv_nonneg (by omega) h2.le
      rw [Int.toNat_of_nonneg h0]
      exact Int.mul_ediv_cancel' (Int.dvd_of_emod_eq_zero h3)
  · cases h
  · cases h
  · injection h with h _
    subst h
    push Not at h1
    refine ⟨Or.inr ⟨h1.1, ?_, ?_⟩, _, rfl⟩
    · unfold blockRows; rw [if_neg (by omega)]; exact h1.2
    · rcases hi with ⟨_, _, c⟩ | a | a
      · unfold getNumberOfBlocksVertical; rw [c]; rfl
      · omega
      · omega

theorem finalizeCols_ok {o o' : BlockObject K} (hi : InvCols o) (h : o.finalizeCols = (o', .ok ())) :
    ColsPartitioned o' ∧ ∃ n, o' = { o with nh := n } := by
  unfold finalizeCols at h
  split_ifs at h with h1 h2 h3
  · injection h with h _
    subst h
    refine ⟨Or.inl ⟨h2, ((o.m.cols : ℤ) / o.blockCols).toNat, ?_, ?_, ?_⟩, _, rfl⟩
    · have : 0 ≤ (o.m.cols : ℤ) / o.blockCols := Int.ediv_nonneg (by omega) h2.le
      rw [Int.toNat_of_nonneg this]
      rfl
    · have : o.blockCols * ((o.m.cols : ℤ) / o.blockCols) = o.m.cols := Int.mul_ediv_cancel' (Int.dvd_of_emod_eq_zero h3)
      show Except.ok (o.blockCols * ((o.m.cols : ℤ) / o.blockCols)) = Except.ok (o.m.cols : ℤ)
      rw [this]
    · have h0 : 0 ≤ (o.m.cols : ℤ) / o.blockCols := Int.ediv_nonneg (by omega) h2.le
      rw [Int.toNat_of_nonneg h0]
      exact Int.mul_ediv_cancel' (Int.dvd_of_emod_eq_zero h3)
  · cases h
  · cases h
  · injection h with h _
    subst h
    push Not at h1
    refine ⟨Or.inr ⟨h1.1, ?_, ?_⟩, _, rfl⟩
    · unfold blockCols; rw [if_neg (by omega)]; exact h1.2
    · rcases hi with ⟨_, _, c⟩ | a | a
      · unfold getNumberOfBlocksHorizontal; rw [c]; rfl
      · omega
      · omega

theorem finalize_ok {o o' : BlockObject K} (hi : InvRows o ∧ InvCols o) (h : o.finalize = (o', .ok ())) :
    Partitioned o' ∧ ∃ n k, o' = { o with nv := n, nh := k } := by
  obtain ⟨o1, h1, h2⟩ := next_ok h
  obtain ⟨a, n, e⟩ := finalizeRows_ok hi.1 h1
  subst e
  obtain ⟨b, k, e⟩ := finalizeCols_ok (o := { o with nv := n }) hi.2 h2
  subst e
  exact ⟨⟨a, b⟩, n, k, rfl⟩

theorem initializeRows_inv {o : BlockObject K} {n : ℤ} (h : InvRows o ∧ InvCols o) (hn : o.tr ≠ -1 ∨ 0 < n) :
    InvRows (o.initializeRows n).1 ∧ InvCols (o.initializeRows n).1 := by
  unfold initializeRows
  split_ifs with h1 h2
  · exact ⟨Or.inr (Or.inl ⟨h1, by simpa [h1] using hn⟩), h.2⟩
  · refine ⟨Or.inr (Or.inr ⟨?_, rfl⟩), h.2⟩
    rcases h.1 with a | a | a <;> simp only <;> omega
  · exact h

theorem initializeRows_tc (o : BlockObject K) (n : ℤ) : (o.initializeRows n).1.tc = o.tc := by
  unfold initializeRows
  split_ifs <;> rfl

theorem initializeCols_inv {o : BlockObject K} {n : ℤ} (h : InvRows o ∧ InvCols o) (hn : o.tc ≠ -1 ∨ 0 < n) :
    InvRows (o.initializeCols n).1 ∧ InvCols (o.initializeCols n).1 := by
  unfold initializeCols
  split_ifs with h1 h2
  · exact ⟨h.1, Or.inr (Or.inl ⟨h1, by simpa [h1] using hn⟩)⟩
  · refine ⟨h.1, Or.inr (Or.inr ⟨?_, rfl⟩)⟩
    rcases h.2 with a | a | a <;> simp only <;> omega
  · exact h

theorem initializeBlockSize_inv {o : BlockObject K} {rows cols : ℤ} (h : InvRows o ∧ InvCols o) (hr : o.tr ≠ -1 ∨ 0 < rows)
    (hc : o.tc ≠ -1 ∨ 0 < cols) : InvRows (o.initializeBlockSize rows cols).1 ∧ InvCols (o.initializeBlockSize rows cols).1 := by
  have h1 := initializeRows_inv h hr
  have h2 := initializeRows_tc o rows
  unfold initializeBlockSize
  rcases e : o.initializeRows rows with ⟨o1, e1 | ⟨⟨⟩⟩⟩
  · rw [e] at h1; exact h1
  · rw [e] at h1 h2
    exact initializeCols_inv h1 (by rw [h2]; exact hc)

theorem put_inv {o : BlockObject K} {p : Place} {B : Mat K} (h : InvRows o ∧ InvCols o) : InvRows (o.put p B).1 ∧ InvCols (o.put p B).1 := by
  unfold put
  split_ifs
  · split
    · exact h
    · exact h
  · exact h

theorem resizeRaw_inv {o : BlockObject K} {r c : ℤ} {e : ℕ → ℕ → K} (h : InvRows o ∧ InvCols o) :
    InvRows (o.resizeRaw r c e).1 ∧ InvCols (o.resizeRaw r c e).1 := by
  unfold resizeRaw
  split_ifs
  · exact h
  · exact h

theorem apply_inv [Zero K] {o : BlockObject K} (op : Op K) (h : InvRows o ∧ InvCols o) : InvRows (o.apply op).1 ∧ InvCols (o.apply op).1 := by
  cases op with
  | set A => exact finalize_inv (o := { o with m := A }) h
  | resize junk nv nh => exact next_inv (P := fun o => InvRows o ∧ InvCols o) (resizeRaw_inv h) (fun o h => finalize_inv h)
  | setZero nv nh => exact next_inv (P := fun o => InvRows o ∧ InvCols o) (resizeRaw_inv h) (fun o h => finalize_inv h)
  | setBlockSize rows cols =>
    show InvRows (o.setBlockSize rows cols).1 ∧ InvCols (o.setBlockSize rows cols).1
    unfold setBlockSize
    split_ifs with h1 h2
    · exact next_inv (P := fun o => InvRows o ∧ InvCols o) (initializeBlockSize_inv h h1 h2) (fun o h => finalize_inv h)
    · exact h
    · exact h
  | putBlock i j B => exact put_inv h
  | putColumn j first num B => exact put_inv h
  | putRow i first num B => exact put_inv h

theorem runCaught_inv [Zero K] (l : List (Op K)) {o o' : BlockObject K} (h : InvRows o ∧ InvCols o) (e : runCaught l o = .ok o') :
    InvRows o' ∧ InvCols o' := by
  induction l generalizing o with
  | nil => cases e; exact h
  | cons op l ih =>
    have h1 := apply_inv op h
    unfold runCaught at e
    rcases e1 : o.apply op with ⟨o1, (_ | _) | ⟨⟨⟩⟩⟩ <;> rw [e1] at e h1
    · exact ih h1 e
    · cases e
    · exact ih h1 e

/-- A completed operation which computes the numbers of blocks. -/
theorem sizing_ok [Zero K] {o o' : BlockObject K} (op : Op K) (hs : op.sizing = true) (h : InvRows o ∧ InvCols o) (e : o.apply op = (o', .ok ())) :
    Partitioned o' := by
  cases op with
  | set A => exact (finalize_ok (o := { o with m := A }) h e).1
  | resize junk nv nh =>
    obtain ⟨o1, e1, e2⟩ := next_ok e
    have := resizeRaw_inv (r := nv * o.blockRows) (c := nh * o.blockCols) (e := junk) h
    rw [e1] at this
    exact (finalize_ok this e2).1
  | setZero nv nh =>
    obtain ⟨o1, e1, e2⟩ := next_ok e
    have := resizeRaw_inv (r := nv * o.blockRows) (c := nh * o.blockCols) (e := fun _ _ => (0 : K)) h
    rw [e1] at this
    exact (finalize_ok this e2).1
  | setBlockSize rows cols =>
    change o.setBlockSize rows cols = (o', .ok ()) at e
    unfold setBlockSize at e
    split_ifs at e with h1 h2
    · obtain ⟨o1, e1, e2⟩ := next_ok e
      have := initializeBlockSize_inv h h1 h2
      rw [e1] at this
      exact (finalize_ok this e2).1
    · cases e
    · cases e
  | putBlock i j B => cases hs
  | putColumn j first num B => cases hs
  | putRow i first num B => cases hs

/-- What a completed assignment to a block does. -/
theorem put_ok {o o' : BlockObject K} {p : Place} {B : Mat K} (e : o.put p B = (o', .ok ())) :
    p.within o.m ∧ (B.rows = p.height ∧ B.cols = p.width) ∧ ∃ A, o' = { o with m := A } ∧
      Replaced o.m p.row.toNat p.col.toNat p.height.toNat p.width.toNat B A := by
  unfold put at e
  split_ifs at e with h
  swap
  · cases e
  refine ⟨h, ?_⟩
  obtain ⟨h1, h2, h3, h4, h5, h6⟩ := h
  unfold Mat.setBlock at e
  split_ifs at e with g
  · injection e with e _
    refine ⟨⟨by rw [g.2.2.1]; exact Int.toNat_of_nonneg h3, by rw [g.2.2.2]; exact Int.toNat_of_nonneg h4⟩, _, e.symm, rfl, rfl, ?_, ?_⟩
    · intro i hi j hj
      simp only
      rw [if_pos ⟨⟨by omega, by omega⟩, by omega, by omega⟩]
      congr 1 <;> omega
    · intro i j hij
      simp only
      rw [if_neg hij]
  · cases e

theorem partitioned_m {o : BlockObject K} {A : Mat K} (h : Partitioned o) (hr : A.rows = o.m.rows) (hc : A.cols = o.m.cols) :
    Partitioned { o with m := A } := by
  obtain ⟨a, b⟩ := h
  constructor
  · rcases a with ⟨a, n, b, c, d⟩ | a
    · exact Or.inl ⟨a, n, b, by simp only [hr]; exact c, by simp only [hr]; exact d⟩
    · exact Or.inr a
  · rcases b with ⟨a, n, b, c, d⟩ | a
    · exact Or.inl ⟨a, n, b, by simp only [hc]; exact c, by simp only [hc]; exact d⟩
    · exact Or.inr a

theorem apply_partitioned [Zero K] {o o' : BlockObject K} (op : Op K) (h : InvRows o ∧ InvCols o) (hp : Partitioned o)
    (e : o.apply op = (o', .ok ())) : Partitioned o' := by
  have key : ∀ (p : Place) (B : Mat K), o.put p B = (o', .ok ()) → Partitioned o' := by
    intro p B e
    obtain ⟨-, -, A, rfl, h1, h2, -⟩ := put_ok e
    exact partitioned_m hp h1 h2
  cases op with
  | putBlock i j B => exact key _ _ e
  | putColumn j first num B => exact key _ _ e
  | putRow i first num B => exact key _ _ e
  | set A => exact sizing_ok _ rfl h e
  | resize junk nv nh => exact sizing_ok _ rfl h e
  | setZero nv nh => exact sizing_ok _ rfl h e
  | setBlockSize rows cols => exact sizing_ok _ rfl h e

theorem initializeRows_ok {o o' : BlockObject K} {n : ℤ} (h : o.initializeRows n = (o', .ok ())) :
    o' = { o with br := if o.tr = -1 then n else o.tr } ∧ (o.tr ≠ -1 → n = 0) := by
  unfold initializeRows at h
  split_ifs at h with c1 c2
  · injection h with h _; rw [if_pos c1]; exact ⟨h.symm, fun h => absurd c1 h⟩
  · injection h with h _; rw [if_neg c1]; exact ⟨h.symm, fun _ => c2⟩
  · cases h

theorem initializeCols_ok {o o' : BlockObject K} {n : ℤ} (h : o.initializeCols n = (o', .ok ())) :
    o' = { o with bc := if o.tc = -1 then n else o.tc } ∧ (o.tc ≠ -1 → n = 0) := by
  unfold initializeCols at h
  split_ifs at h with c1 c2
  · injection h with h _; rw [if_pos c1]; exact ⟨h.symm, fun h => absurd c1 h⟩
  · injection h with h _; rw [if_neg c1]; exact ⟨h.symm, fun _ => c2⟩
  · cases h

theorem finalizeRows_pos {o o' : BlockObject K} (h : o.finalizeRows = (o', .ok ())) (hd : o.tr ≠ -1 ∨ o.br ≠ 0) : 0 < o.blockRows := by
  unfold finalizeRows at h
  rw [if_pos hd] at h
  by_contra c
  rw [if_neg c] at h
  cases h

theorem finalizeCols_pos {o o' : BlockObject K} (h : o.finalizeCols = (o', .ok ())) (hd : o.tc ≠ -1 ∨ o.bc ≠ 0) : 0 < o.blockCols := by
  unfold finalizeCols at h
  rw [if_pos hd] at h
  by_contra c
  rw [if_neg c] at h
  cases h

theorem construct_inv {tr tc rows cols : ℤ} {m : Mat K} {o : BlockObject K} (e : construct tr tc m rows cols = .ok o) :
    InvRows o ∧ InvCols o ∧ Partitioned o ∧ o.m = m ∧ o.tr = tr ∧ o.tc = tc ∧ (tr = -1 → o.br = rows) ∧ (tc = -1 → o.bc = cols) ∧
      (tr ≠ -1 → rows = 0) ∧ (tc ≠ -1 → cols = 0) := by
  unfold construct at e
  generalize hb : (⟨tr, tc, m, none, none, 0, 0⟩ : BlockObject K) = b at e
  rcases he : (initializeBlockSize b rows cols).next finalize with ⟨o1, e1 | ⟨⟨⟩⟩⟩ <;> rw [he] at e
  · cases e
  injection e with e
  subst e
  obtain ⟨o2, h1, h2⟩ := next_ok he
  obtain ⟨o3, h3, h4⟩ := next_ok h1
  obtain ⟨a1, a1'⟩ := initializeRows_ok h3
  obtain ⟨a2, a2'⟩ := initializeCols_ok h4
  subst a1 hb
  subst a2
  have hR : InvRows (⟨tr, tc, m, none, none, if tr = -1 then rows else tr, if tc = -1 then cols else tc⟩ : BlockObject K) := by
    obtain ⟨o4, h5, h6⟩ := next_ok h2
    have hp := finalizeRows_pos h5
    unfold blockRows at hp
    unfold InvRows
    simp only at hp ⊢
    by_cases c : tr = -1
    · subst c
      by_cases c0 : rows = 0
      · exact Or.inl ⟨rfl, c0, trivial⟩
      · exact Or.inr (Or.inl ⟨rfl, by simpa using hp (Or.inr (by simpa using c0))⟩)
    · have := hp (Or.inl c)
      rw [if_neg c] at this ⊢
      exact Or.inr (Or.inr ⟨by split_ifs at this <;> omega, rfl⟩)
  have hC : InvCols (⟨tr, tc, m, none, none, if tr = -1 then rows else tr, if tc = -1 then cols else tc⟩ : BlockObject K) := by
    obtain ⟨o4, h5, h6⟩ := next_ok h2
    obtain ⟨-, n, e4⟩ := finalizeRows_ok hR h5
    rw [e4] at h6
    have hp := finalizeCols_pos h6
    unfold blockCols at hp
    unfold InvCols
    simp only at hp ⊢
    by_cases c : tc = -1
    · subst c
      by_cases c0 : cols = 0
      · exact Or.inl ⟨rfl, c0, trivial⟩
      · exact Or.inr (Or.inl ⟨rfl, by simpa using hp (Or.inr (by simpa using c0))⟩)
    · have := hp (Or.inl c)
      rw [if_neg c] at this ⊢
      exact Or.inr (Or.inr ⟨by split_ifs at this <;> omega, rfl⟩)
  have hI := finalize_inv ⟨hR, hC⟩
  have hF := finalize_ok ⟨hR, hC⟩ h2
  have h2' : finalize (⟨tr, tc, m, none, none, if tr = -1 then rows else tr, if tc = -1 then cols else tc⟩ : BlockObject K) = (o1, .ok ()) := h2
  rw [h2'] at hI
  obtain ⟨p, n, k, rfl⟩ := hF
  refine ⟨hI.1, hI.2, p, rfl, rfl, rfl, fun h => ?_, fun h => ?_, a1', a2'⟩
  · simp only; rw [if_pos h]
  · simp only; rw [if_pos h]

theorem finalizeRows_complete {o : BlockObject K} (h : (o.tr = -1 ∧ o.br = 0) ∨ (0 < o.blockRows ∧ (o.m.rows : ℤ) % o.blockRows = 0)) :
    ∃ n, o.finalizeRows = ({ o with nv := n }, .ok ()) := by
  unfold finalizeRows
  rcases h with ⟨h1, h2⟩ | ⟨h1, h2⟩
  · rw [if_neg (by simp [h1, h2])]
    exact ⟨_, rfl⟩
  · rw [if_pos, if_pos h1, if_pos h2]
    · exact ⟨_, rfl⟩
    · by_contra c
      push Not at c
      unfold blockRows at h1
      rw [c.1, c.2] at h1
      simp at h1

theorem finalizeCols_complete {o : BlockObject K} (h : (o.tc = -1 ∧ o.bc = 0) ∨ (0 < o.blockCols ∧ (o.m.cols : ℤ) % o.blockCols = 0)) :
    ∃ n, o.finalizeCols = ({ o with nh := n }, .ok ()) := by
  unfold finalizeCols
  rcases h with ⟨h1, h2⟩ | ⟨h1, h2⟩
  · rw [if_neg (by simp [h1, h2])]
    exact ⟨_, rfl⟩
  · rw [if_pos, if_pos h1, if_pos h2]
    · exact ⟨_, rfl⟩
    · by_contra c
      push Not at c
      unfold blockCols at h1
      rw [c.1, c.2] at h1
      simp at h1

theorem finalize_complete {o : BlockObject K} (hr : (o.tr = -1 ∧ o.br = 0) ∨ (0 < o.blockRows ∧ (o.m.rows : ℤ) % o.blockRows = 0))
    (hc : (o.tc = -1 ∧ o.bc = 0) ∨ (0 < o.blockCols ∧ (o.m.cols : ℤ) % o.blockCols = 0)) :
    ∃ n k, o.finalize = ({ o with nv := n, nh := k }, .ok ()) := by
  obtain ⟨n, e⟩ := finalizeRows_complete hr
  obtain ⟨k, e'⟩ := finalizeCols_complete (o := { o with nv := n }) hc
  refine ⟨n, k, ?_⟩
  unfold finalize
  rw [e]
  exact e'

/-- The sizes of blocks of an object. -/
theorem inv_blockRows {o : BlockObject K} (h : InvRows o) :
    (o.tr = -1 ∧ o.br = 0 ∧ o.blockRows = 0 ∧ o.nv = none) ∨ (0 < o.blockRows ∧ (o.tr = -1 ∧ o.br = o.blockRows ∨ 0 < o.tr ∧ o.tr = o.blockRows)) := by
  unfold blockRows
  rcases h with ⟨h, e, e'⟩ | ⟨h, e⟩ | ⟨h, e⟩
  · left; rw [if_neg (by omega)]; exact ⟨h, e, e, e'⟩
  · right; rw [if_neg (by omega)]; exact ⟨e, Or.inl ⟨h, rfl⟩⟩
  · right; rw [if_pos h]; exact ⟨h, Or.inr ⟨h, rfl⟩⟩

theorem inv_blockCols {o : BlockObject K} (h : InvCols o) :
    (o.tc = -1 ∧ o.bc = 0 ∧ o.blockCols = 0 ∧ o.nh = none) ∨ (0 < o.blockCols ∧ (o.tc = -1 ∧ o.bc = o.blockCols ∨ 0 < o.tc ∧ o.tc = o.blockCols)) := by
  unfold blockCols
  rcases h with ⟨h, e, e'⟩ | ⟨h, e⟩ | ⟨h, e⟩
  · left; rw [if_neg (by omega)]; exact ⟨h, e, e, e'⟩
  · right; rw [if_neg (by omega)]; exact ⟨e, Or.inl ⟨h, rfl⟩⟩
  · right; rw [if_pos h]; exact ⟨h, Or.inr ⟨h, rfl⟩⟩

/-- When `finalize` is completed. -/
theorem finalize_iff {o : BlockObject K} (h : InvRows o ∧ InvCols o) :
    o.finalize.2 = .ok () ↔ (o.blockRows = 0 ∨ (o.m.rows : ℤ) % o.blockRows = 0) ∧ (o.blockCols = 0 ∨ (o.m.cols : ℤ) % o.blockCols = 0) := by
  constructor
  · intro e
    rcases e' : o.finalize with ⟨o', r⟩
    rw [e'] at e
    obtain rfl : r = .ok () := e
    obtain ⟨⟨p1, p2⟩, n, k, rfl⟩ := finalize_ok h e'
    constructor
    · rcases p1 with ⟨-, c, -, -, q⟩ | ⟨-, q, -⟩
      · right
        have q' : o.blockRows * c = o.m.rows := q
        rw [← q']
        exact Int.mul_emod_right _ _
      · exact Or.inl q
    · rcases p2 with ⟨-, c, -, -, q⟩ | ⟨-, q, -⟩
      · right
        have q' : o.blockCols * c = o.m.cols := q
        rw [← q']
        exact Int.mul_emod_right _ _
      · exact Or.inl q
  · rintro ⟨h1, h2⟩
    obtain ⟨n, k, e⟩ := finalize_complete (o := o) (by
      rcases inv_blockRows h.1 with ⟨a, b, -, -⟩ | ⟨a, -⟩
      · exact Or.inl ⟨a, b⟩
      · exact Or.inr ⟨a, by omega⟩) (by
      rcases inv_blockCols h.2 with ⟨a, b, -, -⟩ | ⟨a, -⟩
      · exact Or.inl ⟨a, b⟩
      · exact Or.inr ⟨a, by omega⟩)
    rw [e]

theorem finalize_m (o : BlockObject K) : o.finalize.1.m = o.m ∧ o.finalize.1.tr = o.tr ∧ o.finalize.1.tc = o.tc ∧ o.finalize.1.br = o.br ∧
    o.finalize.1.bc = o.bc := by
  refine next_inv (P := fun p : BlockObject K => p.m = o.m ∧ p.tr = o.tr ∧ p.tc = o.tc ∧ p.br = o.br ∧ p.bc = o.bc) ?_ ?_
  · obtain ⟨n, e, -⟩ := finalizeRows_fst o
    rw [e]
    exact ⟨rfl, rfl, rfl, rfl, rfl⟩
  · intro p hp
    obtain ⟨n, e, -⟩ := finalizeCols_fst p
    rw [e]
    exact hp

end Humoto.BlockObject
