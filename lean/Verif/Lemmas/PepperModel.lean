import Verif.Spec.PepperModel
import Verif.Lemmas.TripleIntegrator
import Verif.Props.Kronecker
import Mathlib.Tactic.IntervalCases

/-!
# Lemmas on the model of Pepper
-/

namespace Humoto.Pepper

open Spec TripleIntegrator

set_option linter.unusedSectionVars false

variable {K : Type} [Field K]

theorem copies_one (M : Mat K) : ∃ R, makeBlockDiagonalCopies M 1 = .ok R ∧ R.rows = M.rows ∧ R.cols = M.cols ∧
    ∀ i < M.rows, ∀ j < M.cols, R.e i j = M.e i j := by
  obtain ⟨R, h1, h2⟩ := makeBlockDiagonalCopies_ok M 1
  refine ⟨R, h1, by rw [h2.rows]; simp [sumRows], by rw [h2.cols]; simp [sumCols], ?_⟩
  intro i hi j hj
  have := h2.diagonal 0 M (by simp) i hi j hj
  simpa [rowsBefore, colsBefore, sumRows, sumCols] using this

/-- Four diagonal blocks. -/
structure FourBlocks (s d : Mat K) (br bc : ℕ) (A : Mat K) : Prop where
  rows : A.rows = 4 * br
  cols : A.cols = 4 * bc
  entries : ∀ b r l c, b < 4 → r < br → l < 4 → c < bc →
    A.e (b * br + r) (l * bc + c) = if b = l then (if b < 2 then s.e r c else d.e r c) else 0

theorem in_block {b l br r : ℕ} (hr : r < br) : (l * br ≤ b * br + r ∧ b * br + r < l * br + br) ↔ b = l := by
  constructor
  · rintro ⟨h1, h2⟩
    have h3 : l < b + 1 := by
      by_contra h
      have : (b + 1) * br ≤ l * br := Nat.mul_le_mul_right _ (by omega)
      rw [Nat.add_mul, one_mul] at this
      omega
    have h4 : b < l + 1 := by
      by_contra h
      have : (l + 1) * br ≤ b * br := Nat.mul_le_mul_right _ (by omega)
      rw [Nat.add_mul, one_mul] at this
      omega
    omega
  · rintro rfl
    omega

theorem setBlk_ok {M : BlockMat K} {nv nh i j : ℕ} {B : Mat K} (h1 : M.m.rows = nv * M.br) (h2 : M.m.cols = nh * M.bc)
    (hi : i < nv) (hj : j < nh) (hr : B.rows = M.br) (hc : B.cols = M.bc) :
    ∃ M', M.setBlk i j B = .ok M' ∧ M'.br = M.br ∧ M'.bc = M.bc ∧ M'.m.rows = nv * M.br ∧ M'.m.cols = nh * M.bc ∧
      ∀ b r l c, r < M.br → c < M.bc → M'.m.e (b * M.br + r) (l * M.bc + c) =
        if b = i ∧ l = j then B.e r c else M.m.e (b * M.br + r) (l * M.bc + c) := by
  have g1 : i * M.br + M.br ≤ M.m.rows := by
    rw [h1]
    calc i * M.br + M.br = (i + 1) * M.br := by ring
      _ ≤ nv * M.br := Nat.mul_le_mul_right _ hi
  have g2 : j * M.bc + M.bc ≤ M.m.cols := by
    rw [h2]
    calc j * M.bc + M.bc = (j + 1) * M.bc := by ring
      _ ≤ nh * M.bc := Nat.mul_le_mul_right _ hj
  unfold BlockMat.setBlk
  rw [Mat.setBlock_ok g1 g2 hr hc, ok_bind]
  refine ⟨_, rfl, rfl, rfl, h1, h2, ?_⟩
  intro b r l c hr' hc'
  simp only [in_block hr', in_block hc']
  by_cases h : b = i ∧ l = j
  · rw [if_pos h, if_pos h]
    obtain ⟨rfl, rfl⟩ := h
    congr 1 <;> omega
  · rw [if_neg h, if_neg h]

theorem blk_ok' {M : BlockMat K} {nv nh i j : ℕ} (h1 : M.m.rows = nv * M.br) (h2 : M.m.cols = nh * M.bc)
    (hi : i < nv) (hj : j < nh) : ∃ B, M.blk i j = .ok B ∧ B.rows = M.br ∧ B.cols = M.bc ∧
      ∀ r c, B.e r c = M.m.e (i * M.br + r) (j * M.bc + c) := by
  have g1 : i * M.br + M.br ≤ M.m.rows := by
    rw [h1]
    calc i * M.br + M.br = (i + 1) * M.br := by ring
      _ ≤ nv * M.br := Nat.mul_le_mul_right _ hi
  have g2 : j * M.bc + M.bc ≤ M.m.cols := by
    rw [h2]
    calc j * M.bc + M.bc = (j + 1) * M.bc := by ring
      _ ≤ nh * M.bc := Nat.mul_le_mul_right _ hj
  unfold BlockMat.blk
  rw [block_ok g1 g2]
  exact ⟨_, rfl, rfl, rfl, fun _ _ => rfl⟩

/-- The sequence of assignments in `getA12` and `getB12`. -/
theorem fourBlocks_ok {br bc : ℕ} (hbr : 0 < br) (hbc : 0 < bc) {s d : Mat K} (hs : s.rows = br) (hs' : s.cols = bc)
    (hd : d.rows = br) (hd' : d.cols = bc) {S D : Res (Mat K)} (hS : S = .ok s) (hD : D = .ok d) :
    ∃ A, (do
      let A ← BlockMat.setZero ⟨br, bc, ⟨0, 0, fun _ _ => 0⟩⟩ 4 4
      let s ← S
      let A ← A.setBlk 0 0 s
      let s ← A.blk 0 0
      let A ← A.setBlk 1 1 s
      let d ← D
      let A ← A.setBlk 2 2 d
      let d ← A.blk 2 2
      let A ← A.setBlk 3 3 d
      pure A.m : Res (Mat K)) = .ok A ∧ FourBlocks s d br bc A := by
  have h0 : BlockMat.setZero (K := K) ⟨br, bc, ⟨0, 0, fun _ _ => 0⟩⟩ 4 4 = .ok ⟨br, bc, ⟨4 * br, 4 * bc, fun _ _ => 0⟩⟩ := by
    unfold BlockMat.setZero BlockMat.finalize
    simp only
    rw [assertThat_true hbr, ok_bind, assertThat_true (by simp), ok_bind, assertThat_true hbc, ok_bind,
      assertThat_true (by simp), ok_bind]
    rfl
  rw [h0, ok_bind, hS, ok_bind]
  obtain ⟨A1, h1, r1, c1, n1, m1, e1⟩ := setBlk_ok (M := ⟨br, bc, ⟨4 * br, 4 * bc, fun _ _ => (0 : K)⟩⟩) (nv := 4) (nh := 4)
    (i := 0) (j := 0) rfl rfl (by omega) (by omega) hs hs'
  simp only at r1 c1 n1 m1 e1
  rw [h1, ok_bind]
  obtain ⟨B1, hb1, rb1, cb1, eb1⟩ := blk_ok' (M := A1) (nv := 4) (nh := 4) (i := 0) (j := 0) (by rw [n1, r1]) (by rw [m1, c1])
    (by omega) (by omega)
  rw [hb1, ok_bind]
  obtain ⟨A2, h2, r2, c2, n2, m2, e2⟩ := setBlk_ok (M := A1) (nv := 4) (nh := 4) (i := 1) (j := 1) (by rw [n1, r1])
    (by rw [m1, c1]) (by omega) (by omega) rb1 cb1
  rw [h2, ok_bind, hD, ok_bind]
  rw [r1] at r2 n2 e2 rb1 eb1
  rw [c1] at c2 m2 e2 cb1 eb1
  obtain ⟨A3, h3, r3, c3, n3, m3, e3⟩ := setBlk_ok (M := A2) (nv := 4) (nh := 4) (i := 2) (j := 2) (by rw [n2, r2])
    (by rw [m2, c2]) (by omega) (by omega) (by rw [hd, r2]) (by rw [hd', c2])
  rw [h3, ok_bind]
  rw [r2] at r3 n3 e3
  rw [c2] at c3 m3 e3
  obtain ⟨B3, hb3, rb3, cb3, eb3⟩ := blk_ok' (M := A3) (nv := 4) (nh := 4) (i := 2) (j := 2) (by rw [n3, r3]) (by rw [m3, c3])
    (by omega) (by omega)
  rw [hb3, ok_bind]
  obtain ⟨A4, h4, r4, c4, n4, m4, e4⟩ := setBlk_ok (M := A3) (nv := 4) (nh := 4) (i := 3) (j := 3) (by rw [n3, r3])
    (by rw [m3, c3]) (by omega) (by omega) rb3 cb3
  rw [h4, ok_bind]
  rw [r3] at r4 n4 e4 eb3
  rw [c3] at c4 m4 e4 eb3
  refine ⟨A4.m, rfl, n4, m4, ?_⟩
  intro b r l c hb hr hl hc
  rw [e4 b r l c hr hc, e3 b r l c hr hc, e2 b r l c hr hc, e1 b r l c hr hc, eb3 r c, e3 2 r 2 c hr hc, eb1 r c,
    e1 0 r 0 c hr hc]
  interval_cases b <;> interval_cases l <;> simp

/-- A row of the product of such a matrix with a vector. -/
theorem FourBlocks.row {s d : Mat K} {br bc : ℕ} {A : Mat K} (h : FourBlocks s d br bc A) (x : ℕ → K) {b r : ℕ}
    (hb : b < 4) (hr : r < br) : ∑ c ∈ Finset.range A.cols, A.e (b * br + r) c * x c =
      ∑ c ∈ Finset.range bc, (if b < 2 then s.e r c else d.e r c) * x (b * bc + c) := by
  rw [h.cols, sum_blk, Finset.sum_eq_single b]
  · refine Finset.sum_congr rfl fun c hc => ?_
    rw [h.entries b r b c hb hr hb (Finset.mem_range.mp hc), if_pos rfl]
  · intro l hl hne
    refine Finset.sum_eq_zero fun c hc => ?_
    rw [h.entries b r l c hb hr (Finset.mem_range.mp hl) (Finset.mem_range.mp hc), if_neg (Ne.symm hne), zero_mul]
  · intro h
    exact absurd (Finset.mem_range.mpr hb) h

/-- `A x + B u` for such matrices. -/
theorem FourBlocks.affine {s d s' d' A B : Mat K} (hA : FourBlocks s d 3 3 A) (hB : FourBlocks s' d' 3 1 B) {x u : Vec K}
    (hx : x.n = 12) (hu : u.n = 4) : ∃ y, Humoto.affine A x B u = .ok y ∧ y.n = 12 ∧ ∀ b < 4, ∀ r < 3, y.e (3 * b + r) =
      (if b < 2 then s.e r 0 else d.e r 0) * x.e (3 * b) + (if b < 2 then s.e r 1 else d.e r 1) * x.e (3 * b + 1) +
      (if b < 2 then s.e r 2 else d.e r 2) * x.e (3 * b + 2) + (if b < 2 then s'.e r 0 else d'.e r 0) * u.e b := by
  unfold Humoto.affine Mat.mulVec Vec.add
  rw [if_pos (by rw [hA.cols, hx]), ok_bind, if_pos (by rw [hB.cols, hu]), ok_bind]
  refine ⟨_, if_pos (by simp only [hA.rows, hB.rows]), hA.rows, ?_⟩
  intro b hb r hr
  have h1 := hA.row x.e hb hr
  have h2 := hB.row u.e hb hr
  rw [Nat.mul_comm b 3] at h1 h2
  simp only [h1, h2, Finset.sum_range_succ, Finset.sum_range_zero, zero_add, Nat.mul_one, Nat.add_zero, Nat.mul_comm b 3]

variable [LinearOrder K] [IsStrictOrderedRing K]

theorem getA12_ok (T Ts : K) : ∃ A s d, getA12 T Ts = .ok A ∧
    (s = if Ts = T then Mat.ofRows 3 [[1, 2 * T / 3, T * T / 6], [0, 0, 0], [0, -2 / T, -1]] else Mat.ofRows 3 [
      [1, -(Ts * Ts * Ts - 3 * T * T * Ts) / (3 * T * T), -(2 * Ts * Ts * Ts - 3 * T * Ts * Ts) / (6 * T)],
      [0, -(Ts * Ts - T * T) / (T * T), -(Ts * Ts - T * Ts) / T],
      [0, -(2 * Ts) / (T * T), -(2 * Ts - T) / T]]) ∧
    d = Mat.ofRows 3 [[1, Ts, Ts * Ts / 2], [0, 1, Ts], [0, 0, 1]] ∧ FourBlocks s d 3 3 A := by
  obtain ⟨d, hd, d1, d2, d3⟩ := copies_one (Mat.ofRows 3 [[1, Ts, Ts * Ts / 2], [0, 1, Ts], [0, 0, 1]])
  have hd : getAJerk 1 Ts = .ok d := hd
  by_cases h : Ts = T
  · obtain ⟨s, hs, s1, s2, s3⟩ := copies_one (Mat.ofRows 3 [[1, 2 * T / 3, T * T / 6], [0, 0, 0], [0, -2 / T, -1]])
    have hS : (if Ts = T then getAVel 1 T else getAsVel 1 T Ts) = .ok s := by
      rw [if_pos h]
      exact hs
    obtain ⟨A, hA, hf⟩ := fourBlocks_ok (br := 3) (bc := 3) (by omega) (by omega) s1 s2 d1 d2 hS hd
    refine ⟨A, _, _, hA, rfl, rfl, hf.rows, hf.cols, ?_⟩
    intro b r l c hb hr hl hc
    rw [hf.entries b r l c hb hr hl hc, if_pos h, s3 r hr c hc, d3 r hr c hc]
  · obtain ⟨s, hs, s1, s2, s3⟩ := copies_one (Mat.ofRows 3 [
      [1, -(Ts * Ts * Ts - 3 * T * T * Ts) / (3 * T * T), -(2 * Ts * Ts * Ts - 3 * T * Ts * Ts) / (6 * T)],
      [0, -(Ts * Ts - T * T) / (T * T), -(Ts * Ts - T * Ts) / T],
      [0, -(2 * Ts) / (T * T), -(2 * Ts - T) / T]])
    have hS : (if Ts = T then getAVel 1 T else getAsVel 1 T Ts) = .ok s := by
      rw [if_neg h]
      exact hs
    obtain ⟨A, hA, hf⟩ := fourBlocks_ok (br := 3) (bc := 3) (by omega) (by omega) s1 s2 d1 d2 hS hd
    refine ⟨A, _, _, hA, rfl, rfl, hf.rows, hf.cols, ?_⟩
    intro b r l c hb hr hl hc
    rw [hf.entries b r l c hb hr hl hc, if_neg h, s3 r hr c hc, d3 r hr c hc]

theorem getB12_ok (T Ts : K) : ∃ B s d, getB12 T Ts = .ok B ∧
    (s = if Ts = T then Mat.ofRows 1 [[T / 3], [1], [2 / T]] else
      Mat.ofRows 1 [[Ts * Ts * Ts / (3 * T * T)], [Ts * Ts / (T * T)], [2 * Ts / (T * T)]]) ∧
    d = Mat.ofRows 1 [[Ts * Ts * Ts / 6], [Ts * Ts / 2], [Ts]] ∧ FourBlocks s d 3 1 B := by
  obtain ⟨d, hd, d1, d2, d3⟩ := copies_one (Mat.ofRows 1 [[Ts * Ts * Ts / 6], [Ts * Ts / 2], [Ts]])
  have hd : getBJerk 1 Ts = .ok d := hd
  by_cases h : Ts = T
  · obtain ⟨s, hs, s1, s2, s3⟩ := copies_one (Mat.ofRows 1 [[T / 3], [1], [2 / T]])
    have hS : (if Ts = T then getBVel 1 T else getBsVel 1 T Ts) = .ok s := by
      rw [if_pos h]
      exact hs
    obtain ⟨A, hA, hf⟩ := fourBlocks_ok (br := 3) (bc := 1) (by omega) (by omega) s1 s2 d1 d2 hS hd
    refine ⟨A, _, _, hA, rfl, rfl, hf.rows, hf.cols, ?_⟩
    intro b r l c hb hr hl hc
    rw [hf.entries b r l c hb hr hl hc, if_pos h, s3 r hr c hc, d3 r hr c hc]
  · obtain ⟨s, hs, s1, s2, s3⟩ := copies_one
      (Mat.ofRows 1 [[Ts * Ts * Ts / (3 * T * T)], [Ts * Ts / (T * T)], [2 * Ts / (T * T)]])
    have hS : (if Ts = T then getBVel 1 T else getBsVel 1 T Ts) = .ok s := by
      rw [if_neg h]
      exact hs
    obtain ⟨A, hA, hf⟩ := fourBlocks_ok (br := 3) (bc := 1) (by omega) (by omega) s1 s2 d1 d2 hS hd
    refine ⟨A, _, _, hA, rfl, rfl, hf.rows, hf.cols, ?_⟩
    intro b r l c hb hr hl hc
    rw [hf.entries b r l c hb hr hl hc, if_neg h, s3 r hr c hc, d3 r hr c hc]

/-- One step of the model. -/
theorem evaluate_ok {T Ts : K} (hT : T ≠ 0) {x v j : Vec K} (hx : x.n = 12) (hv : v.n = 2) (hj : j.n = 2) :
    ∃ y, evaluate T Ts x v j = .ok y ∧ PepperStep T Ts x (append v j) y := by
  obtain ⟨A, s, d, hA, rfl, rfl, fA⟩ := getA12_ok T Ts
  obtain ⟨B, s', d', hB, rfl, rfl, fB⟩ := getB12_ok T Ts
  have hu : (append v j).n = 4 := by simp [append, hv, hj]
  obtain ⟨y, hy, hn, he⟩ := fA.affine fB hx hu
  unfold evaluate
  rw [hA, ok_bind, hB, ok_bind]
  refine ⟨y, hy, hx, hu, hn, ?_, ?_⟩
  · intro k hk
    have e0 := he k (by omega) 0 (by omega)
    have e1 := he k (by omega) 1 (by omega)
    have e2 := he k (by omega) 2 (by omega)
    rw [if_pos hk, if_pos hk, if_pos hk, if_pos hk] at e0 e1 e2
    refine ⟨(-2 / (T * T)) * x.e (3 * k + 1) + (-2 / T) * x.e (3 * k + 2) + 2 / (T * T) * (append v j).e k, ?_, ?_⟩
    · unfold velocityAt
      field_simp
      ring
    · unfold MovesTo positionAt velocityAt accelerationAt
      rw [show 3 * k + 0 = 3 * k from rfl] at e0
      rw [e0, e1, e2]
      by_cases h : Ts = T
      · rw [if_pos h, if_pos h]
        subst h
        simp only [Mat.ofRows, List.getD_cons_zero, List.getD_cons_succ]
        refine ⟨?_, ?_, ?_⟩ <;> field_simp <;> ring
      · rw [if_neg h, if_neg h]
        simp only [Mat.ofRows, List.getD_cons_zero, List.getD_cons_succ]
        refine ⟨?_, ?_, ?_⟩ <;> field_simp <;> ring
  · intro k hk hk'
    have e0 := he k (by omega) 0 (by omega)
    have e1 := he k (by omega) 1 (by omega)
    have e2 := he k (by omega) 2 (by omega)
    have hk2 : ¬ k < 2 := by omega
    rw [if_neg hk2, if_neg hk2, if_neg hk2, if_neg hk2] at e0 e1 e2
    unfold MovesTo positionAt velocityAt accelerationAt
    rw [show 3 * k + 0 = 3 * k from rfl] at e0
    rw [e0, e1, e2]
    simp only [Mat.ofRows, List.getD_cons_zero, List.getD_cons_succ]
    refine ⟨?_, ?_, ?_⟩ <;> field_simp <;> ring

/-- The product with the Kronecker product of a row and the identity. -/
theorem kron2_ok (junk : ℕ → K) {D : Mat K} (h1 : D.rows = 1) (h2 : D.cols = 3) {x : Vec K} (hx : x.n = 6) :
    ∃ y, Model.kron2 junk D x = .ok y ∧ y.n = 2 ∧ ∀ i < 2, y.e i =
      D.e 0 0 * x.e (3 * i) + D.e 0 1 * x.e (3 * i + 1) + D.e 0 2 * x.e (3 * i + 2) := by
  have hX : Kron.construct D 2 1 3 = .ok ⟨⟨1, 3, D⟩, 2⟩ := by
    unfold Kron.construct BlockMat.finalize
    simp only
    rw [assertThat_true (by omega), ok_bind, assertThat_true (by omega), ok_bind, assertThat_true (by omega), ok_bind,
      assertThat_true (by rw [h2]), ok_bind, pure_eq_ok, ok_bind, assertThat_true (by omega), ok_bind]
    rfl
  obtain ⟨E, hE, hk⟩ := C36_evaluate hX
  obtain ⟨y, hy, hp1, hp2, hp3⟩ := C36_multiply_vector hX hE (x := x) (by rw [hx, h2]) junk junk
  unfold Model.kron2
  rw [hX, ok_bind]
  refine ⟨y, hy, by rw [hp2, hk.rows, h1], ?_⟩
  intro i hi
  rw [hp3 i (by rw [hk.rows, h1]; omega), hk.cols, h2, sum_blk, Finset.sum_eq_single i]
  · have := fun q (hq : q < 3) => hk.entries 0 0 i i 0 q (by omega) (by omega) hi hi (by omega) hq
    simp only [Nat.zero_mul, Nat.zero_add, Nat.mul_one, Nat.add_zero] at this
    simp only [Finset.sum_range_succ, Finset.sum_range_zero, zero_add]
    rw [this 0 (by omega), this 1 (by omega), this 2 (by omega)]
    simp [Nat.mul_comm]
  · intro l hl hne
    refine Finset.sum_eq_zero fun c hc => ?_
    have := hk.entries 0 0 i l 0 c (by omega) (by omega) hi (Finset.mem_range.mp hl) (by omega) (Finset.mem_range.mp hc)
    simp only [Nat.zero_mul, Nat.zero_add, Nat.mul_one, Nat.add_zero] at this
    rw [this, if_neg (Ne.symm hne), zero_mul]
  · intro h
    exact absurd (Finset.mem_range.mpr hi) h

end Humoto.Pepper
