import Verif.Lemmas.Kronecker

/-!
# Lemmas on products with block diagonal matrices and on blocks of the size 1x1
-/

namespace Humoto

open Spec

set_option linter.unusedSectionVars false

variable {K : Type}

theorem one_blk {i n h m : ℕ} (hi : i < n) (hm : m = n * h) : (i + 1) * h ≤ m := by
  rw [hm]; exact Nat.mul_le_mul_right _ hi

theorem diag_sum_right [Semiring K] {D : BlockMat K} {n : ℕ} (hD : Whole D n n) (hdiag : Diagonal D.m D.br D.bc) {f : ℕ → K}
    {i p : ℕ} (hi : i < n) (hp : p < D.br) :
    ∑ k ∈ Finset.range D.m.cols, D.m.e (i * D.br + p) k * f k =
      ∑ c ∈ Finset.range D.bc, D.m.e (i * D.br + p) (i * D.bc + c) * f (i * D.bc + c) := by
  rw [hD.cols, sum_blk, Finset.sum_eq_single i]
  · intro j hj hne
    refine Finset.sum_eq_zero fun c hc => ?_
    rw [hdiag i j p c (Ne.symm hne) (one_blk hi hD.rows) (one_blk (Finset.mem_range.mp hj) hD.cols) hp (Finset.mem_range.mp hc),
      zero_mul]
  · intro h; exact absurd (Finset.mem_range.mpr hi) h

theorem diag_sum_left [Semiring K] {D : BlockMat K} {n : ℕ} (hD : Whole D n n) (hdiag : Diagonal D.m D.br D.bc) {f : ℕ → K}
    {j q : ℕ} (hj : j < n) (hq : q < D.bc) :
    ∑ k ∈ Finset.range D.m.rows, f k * D.m.e k (j * D.bc + q) =
      ∑ c ∈ Finset.range D.br, f (j * D.br + c) * D.m.e (j * D.br + c) (j * D.bc + q) := by
  rw [hD.rows, sum_blk, Finset.sum_eq_single j]
  · intro i hi hne
    refine Finset.sum_eq_zero fun c hc => ?_
    rw [hdiag i j c q hne (one_blk (Finset.mem_range.mp hi) hD.rows) (one_blk hj hD.cols) (Finset.mem_range.mp hc) hq,
      mul_zero]
  · intro h; exact absurd (Finset.mem_range.mpr hj) h

theorem diagMultiplyRight_ok [Semiring K] {D : BlockMat K} {n : ℕ} (junk : ℕ → ℕ → K) (hD : Whole D n n)
    (hdiag : Diagonal D.m D.br D.bc) {A : Mat K} (hA : A.rows = D.m.cols) :
    ∃ P, D.diagMultiplyRight junk A = .ok P ∧ ProductOf D.m A P := by
  unfold BlockMat.diagMultiplyRight
  rw [assertThat_true hA, ok_bind, hD.nHor]
  obtain ⟨R, hR, hp⟩ := paint_forRange (n := n) (M := (⟨D.m.rows, A.cols, junk⟩ : Mat K))
    (G := fun x y => ∑ c ∈ Finset.range D.bc, D.m.e x (x / D.br * D.bc + c) * A.e (x / D.br * D.bc + c) y)
    (body := fun R i => do
      let d ← D.blk i i
      let a ← A.block (i * D.bc) 0 D.bc A.cols
      let p ← d.mul a
      R.setBlock (i * D.br) 0 D.br A.cols p)
    (W := fun i => Rect (i * D.br) 0 D.br A.cols) (by
    intro i hi N hr hc
    rw [hD.blk hi hi, ok_bind, block_ok (blk_in hi (by rw [hA, hD.cols])) (by omega), ok_bind, mul_ok rfl, ok_bind]
    refine paint_setBlock (blk_in hi (by rw [hr]; exact hD.rows)) (by rw [hc]; simp) rfl rfl ?_
    intro p hp q hq
    simp only [div_blk hp, Nat.zero_add])
  refine ⟨R, hR, hA.symm, hp.rows, hp.cols, ?_⟩
  intro x hx y hy
  obtain ⟨i, p, hi, hp', rfl⟩ := exists_blk (n := n) (h := D.br) (by rw [← hD.rows]; exact hx)
  rw [hp.inside _ _ ⟨i, hi, ⟨by omega, by omega⟩, by omega, by omega⟩, div_blk hp', diag_sum_right hD hdiag hi hp']

theorem diagMultiplyLeft_ok [Semiring K] {D : BlockMat K} {n : ℕ} (junk : ℕ → ℕ → K) (hD : Whole D n n)
    (hdiag : Diagonal D.m D.br D.bc) {A : Mat K} (hA : A.cols = D.m.rows) :
    ∃ P, D.diagMultiplyLeft junk A = .ok P ∧ ProductOf A D.m P := by
  unfold BlockMat.diagMultiplyLeft
  rw [assertThat_true hA, ok_bind, hD.nVert]
  obtain ⟨R, hR, hp⟩ := paint_forRange (n := n) (M := (⟨A.rows, D.m.cols, junk⟩ : Mat K))
    (G := fun x y => ∑ c ∈ Finset.range D.br, A.e x (y / D.bc * D.br + c) * D.m.e (y / D.bc * D.br + c) y)
    (body := fun R i => do
      let a ← A.block 0 (i * D.br) A.rows D.br
      let d ← D.blk i i
      let p ← a.mul d
      R.setBlock 0 (i * D.bc) A.rows D.bc p)
    (W := fun i => Rect 0 (i * D.bc) A.rows D.bc) (by
    intro i hi N hr hc
    rw [block_ok (by omega) (blk_in hi (by rw [hA, hD.rows])), ok_bind, hD.blk hi hi, ok_bind, mul_ok rfl, ok_bind]
    refine paint_setBlock (by rw [hr]; simp) (blk_in hi (by rw [hc]; exact hD.cols)) rfl rfl ?_
    intro p hp q hq
    simp only [div_blk hq, Nat.zero_add])
  refine ⟨R, hR, hA, hp.rows, hp.cols, ?_⟩
  intro x hx y hy
  obtain ⟨j, q, hj, hq, rfl⟩ := exists_blk (n := n) (h := D.bc) (by rw [← hD.cols]; exact hy)
  rw [hp.inside _ _ ⟨j, hj, ⟨by omega, by omega⟩, by omega, by omega⟩, div_blk hq, hA, diag_sum_left hD hdiag hj hq]

/-! ### Blocks 1x1 -/

theorem check1_ok {X : Kron K} {D : BlockMat K} {nv nh nD : ℕ} (hX : Whole X.M nv nh) (hD : Whole D nh nD)
    (hb : D.br = X.id) : X.check1 D = .ok () := by
  unfold Kron.check1
  rw [assertThat_true hb, ok_bind, assertThat_true (by rw [hX.nHor, hD.nVert]), ok_bind, assertThat_true]
  rw [hX.nHor, hD.rows, hb]

theorem whole_of_mod {M : BlockMat K} (h1 : 0 < M.br) (h2 : 0 < M.bc) (h3 : M.m.rows % M.br = 0) (h4 : M.m.cols % M.bc = 0) :
    Whole M (M.m.rows / M.br) (M.m.cols / M.bc) :=
  ⟨h1, h2, (Nat.div_mul_cancel (Nat.dvd_of_mod_eq_zero h3)).symm, (Nat.div_mul_cancel (Nat.dvd_of_mod_eq_zero h4)).symm⟩

theorem kron_sum1 [Semiring K] {M E D : Mat K} {n nv nh w : ℕ} (hE : KroneckerOf M 1 1 n E) (hr : M.rows = nv)
    (hc : M.cols = nh) (hDr : D.rows = nh * n) (hDc : D.cols = nh * w) (hD : Diagonal D n w)
    {i a j q : ℕ} (hi : i < nv) (ha : a < n) (hj : j < nh) (hq : q < w) :
    ∑ k ∈ Finset.range E.cols, E.e (i * n + a) k * D.e k (j * w + q) = M.e i j * D.e (j * n + a) (j * w + q) := by
  have := kron_sum (nv := nv) (nh := nh) (w := w) hE (by omega) (by omega) (by rw [Nat.one_mul]; exact hDr) hDc
    (by rw [Nat.one_mul]; exact hD) (p := 0) hi ha Nat.zero_lt_one hj hq
  simpa using this

theorem multiplyRight1_ok [Semiring K] {X : Kron K} {D : BlockMat K} {nv nh : ℕ} (result : Mat K) (junk : ℕ → ℕ → K)
    (hX : Whole X.M nv nh) (h1 : X.M.br = 1) (h2 : X.M.bc = 1) (hD : Whole D nh nh) (hb : D.br = X.id)
    (hr1 : result.rows % D.br = 0) (hr2 : result.cols % D.bc = 0)
    (hdiag : Diagonal D.m D.br D.bc) {E : Mat K} (hE : KroneckerOf X.M.m 1 1 X.id E) :
    ∃ P, X.multiplyRight1 result junk D = .ok P ∧ ProductOf E D.m P := by
  have r1 := hX.rows
  have r2 := hX.cols
  rw [h1, Nat.mul_one] at r1
  rw [h2, Nat.mul_one] at r2
  have hid : 0 < X.id := by rw [← hb]; exact hD.br
  unfold Kron.multiplyRight1
  rw [check1_ok hX hD hb, ok_bind, (whole_of_mod (M := ⟨D.br, D.bc, result⟩) hD.br hD.bc hr1 hr2).finalize, ok_bind,
    hX.nVert, hD.nHor, hX.nHor]
  unfold BlockMat.resize
  have hw : Whole (⟨D.br, D.bc, ⟨nv * D.br, nh * D.bc, junk⟩⟩ : BlockMat K) nv nh := ⟨hD.br, hD.bc, rfl, rfl⟩
  simp only
  rw [hw.finalize, ok_bind]
  have hfin : ∀ R : BlockMat K, Painted (fun x y => ∃ j < nh, ∃ i < nv, Rect (i * D.br) (j * D.bc) D.br D.bc x y)
      (fun x y => X.M.m.e (x / D.br) (y / D.bc) * D.m.e (y / D.bc * D.br + x % D.br) y)
      (⟨nv * D.br, nh * D.bc, junk⟩ : Mat K) R.m → ProductOf E D.m R.m := by
    intro R hp
    refine ⟨?_, ?_, ?_, ?_⟩
    · rw [hE.cols, hD.rows, hb, r2]; ring
    · rw [hp.rows, hE.rows, r1, hb]; ring
    · rw [hp.cols, hD.cols]
    · intro x hx y hy
      obtain ⟨i, a, hi, ha, rfl⟩ := exists_blk (n := nv) (h := X.id) (x := x) (by
        rw [hE.rows, r1] at hx; rw [Nat.mul_comm]; exact hx)
      obtain ⟨j, q, hj, hq, rfl⟩ := exists_blk (n := nh) (h := D.bc) (by rw [← hD.cols]; exact hy)
      rw [kron_sum1 hE r1 r2 (by rw [hD.rows, hb]) hD.cols (by rw [← hb]; exact hdiag) hi ha hj hq, hp.inside]
      · rw [hb, div_blk ha, mod_blk ha, div_blk hq]
      · refine ⟨j, hj, i, hi, ?_⟩
        rw [rect_blk, hb, div_blk ha, div_blk hq]
        exact ⟨⟨rfl, hid⟩, rfl, hD.bc⟩
  by_cases h0 : nh = 0
  · rw [if_neg (by simpa using h0)]
    refine ⟨_, rfl, hfin ⟨D.br, D.bc, ⟨nv * D.br, nh * D.bc, junk⟩⟩ ⟨rfl, rfl, ?_, fun _ _ _ => rfl⟩⟩
    rintro x y ⟨j, hj, -⟩
    omega
  · rw [if_pos h0]
    obtain ⟨R, hR, -, -, hp⟩ := paint_forRangeB (n := nh) (M := (⟨D.br, D.bc, ⟨nv * D.br, nh * D.bc, junk⟩⟩ : BlockMat K))
      (G := fun x y => X.M.m.e (x / D.br) (y / D.bc) * D.m.e (y / D.bc * D.br + x % D.br) y)
      (body := fun R j => forRange nv R fun R i => do
        let x ← X.M.m.get i j
        let d ← D.blk j j
        R.setBlk i j (Kron.scale x d))
      (W := fun j x y => ∃ i < nv, Rect (i * D.br) (j * D.bc) D.br D.bc x y) (by
      intro j hj N hbr hbc hr hc
      exact paint_forRangeB (fun i => Rect (i * D.br) (j * D.bc) D.br D.bc) (by
        intro i hi N' hbr' hbc' hr' hc'
        rw [Mat.get_ok (by omega) (by omega), ok_bind, hD.blk hj hj, ok_bind]
        have e1 : N'.br = D.br := hbr'.trans hbr
        have e2 : N'.bc = D.bc := hbc'.trans hbc
        rw [← e1, ← e2]
        refine paint_setBlk ?_ ?_ rfl rfl ?_
        · exact blk_in hi (by rw [hr', hr, e1])
        · exact blk_in hj (by rw [hc', hc, e2])
        · intro p hp q hq
          simp only [Kron.scale]
          rw [div_blk hp, div_blk hq, mod_blk hp]))
    rw [hR, ok_bind]
    exact ⟨R.m, rfl, hfin R hp⟩

theorem multiplyRight1LLT_ok [Semiring K] {X : Kron K} {D : BlockMat K} {nv nh : ℕ} (result : Mat K)
    (hX : Whole X.M nv nh) (h1 : X.M.br = 1) (h2 : X.M.bc = 1) (hD : Whole D nh nh) (hb : D.br = X.id)
    (hr1 : result.rows % D.br = 0) (hr2 : result.cols % D.bc = 0) (hL : LowerTriangular X.M.m 1 1)
    (hdiag : Diagonal D.m D.br D.bc) {E : Mat K} (hE : KroneckerOf X.M.m 1 1 X.id E) :
    ∃ P, X.multiplyRight1LLT result D = .ok P ∧ ProductOf E D.m P := by
  have r1 := hX.rows
  have r2 := hX.cols
  rw [h1, Nat.mul_one] at r1
  rw [h2, Nat.mul_one] at r2
  have hid : 0 < X.id := by rw [← hb]; exact hD.br
  unfold Kron.multiplyRight1LLT
  rw [check1_ok hX hD hb, ok_bind, (whole_of_mod (M := ⟨D.br, D.bc, result⟩) hD.br hD.bc hr1 hr2).finalize, ok_bind,
    hX.nVert, hD.nHor, hX.nHor]
  unfold BlockMat.setZero
  have hw : Whole (⟨D.br, D.bc, ⟨nv * D.br, nh * D.bc, fun _ _ => 0⟩⟩ : BlockMat K) nv nh := ⟨hD.br, hD.bc, rfl, rfl⟩
  simp only
  rw [hw.finalize, ok_bind]
  have hfin : ∀ R : BlockMat K, Painted (fun x y => ∃ j < nh, ∃ i < nv - j, Rect ((j + i) * D.br) (j * D.bc) D.br D.bc x y)
      (fun x y => X.M.m.e (x / D.br) (y / D.bc) * D.m.e (y / D.bc * D.br + x % D.br) y)
      (⟨nv * D.br, nh * D.bc, fun _ _ => 0⟩ : Mat K) R.m → ProductOf E D.m R.m := by
    intro R hp
    refine ⟨?_, ?_, ?_, ?_⟩
    · rw [hE.cols, hD.rows, hb, r2]; ring
    · rw [hp.rows, hE.rows, r1, hb]; ring
    · rw [hp.cols, hD.cols]
    · intro x hx y hy
      obtain ⟨i, a, hi, ha, rfl⟩ := exists_blk (n := nv) (h := X.id) (x := x) (by
        rw [hE.rows, r1] at hx; rw [Nat.mul_comm]; exact hx)
      obtain ⟨j, q, hj, hq, rfl⟩ := exists_blk (n := nh) (h := D.bc) (by rw [← hD.cols]; exact hy)
      rw [kron_sum1 hE r1 r2 (by rw [hD.rows, hb]) hD.cols (by rw [← hb]; exact hdiag) hi ha hj hq]
      by_cases hij : i < j
      · have hz := hL i j 0 0 hij (by omega) (by omega) (by omega) (by omega)
        simp only [Nat.mul_one, Nat.add_zero] at hz
        rw [hp.outside, hz, zero_mul]
        rintro ⟨j', hj', i', hi', hr⟩
        rw [rect_blk, hb, div_blk ha, div_blk hq] at hr
        omega
      · rw [hp.inside]
        · rw [hb, div_blk ha, mod_blk ha, div_blk hq]
        · refine ⟨j, hj, i - j, by omega, ?_⟩
          rw [rect_blk, hb, div_blk ha, div_blk hq]
          exact ⟨⟨by omega, hid⟩, rfl, hD.bc⟩
  by_cases h0 : nh = 0
  · rw [if_neg (by simpa using h0)]
    refine ⟨_, rfl, hfin ⟨D.br, D.bc, ⟨nv * D.br, nh * D.bc, fun _ _ => 0⟩⟩ ⟨rfl, rfl, ?_, fun _ _ _ => rfl⟩⟩
    rintro x y ⟨j, hj, -⟩
    omega
  · rw [if_pos h0]
    obtain ⟨R, hR, -, -, hp⟩ := paint_forRangeB (n := nh) (M := (⟨D.br, D.bc, ⟨nv * D.br, nh * D.bc, fun _ _ => 0⟩⟩ : BlockMat K))
      (G := fun x y => X.M.m.e (x / D.br) (y / D.bc) * D.m.e (y / D.bc * D.br + x % D.br) y)
      (body := fun R j => forRange (nv - j) R fun R i => do
        let x ← X.M.m.get (j + i) j
        let d ← D.blk j j
        R.setBlk (j + i) j (Kron.scale x d))
      (W := fun j x y => ∃ i < nv - j, Rect ((j + i) * D.br) (j * D.bc) D.br D.bc x y) (by
      intro j hj N hbr hbc hr hc
      exact paint_forRangeB (fun i => Rect ((j + i) * D.br) (j * D.bc) D.br D.bc) (by
        intro i hi N' hbr' hbc' hr' hc'
        rw [Mat.get_ok (by omega) (by omega), ok_bind, hD.blk hj hj, ok_bind]
        have e1 : N'.br = D.br := hbr'.trans hbr
        have e2 : N'.bc = D.bc := hbc'.trans hbc
        rw [← e1, ← e2]
        refine paint_setBlk ?_ ?_ rfl rfl ?_
        · exact blk_in (n := nv) (by omega) (by rw [hr', hr, e1])
        · exact blk_in hj (by rw [hc', hc, e2])
        · intro p hp q hq
          simp only [Kron.scale]
          rw [div_blk hp, div_blk hq, mod_blk hp]))
    rw [hR, ok_bind]
    exact ⟨R.m, rfl, hfin R hp⟩

theorem multiplyLeft1LLT_ok [Semiring K] {X : Kron K} {D : BlockMat K} {n : ℕ} (result : Mat K)
    (hX : Whole X.M n n) (h1 : X.M.br = 1) (h2 : X.M.bc = 1) (hD : Whole D n n) (hb : D.br = X.id) (hc' : D.bc = X.id)
    (hr1 : result.rows % D.br = 0) (hr2 : result.cols % D.bc = 0) (hL : LowerTriangular X.M.m 1 1)
    (hdiag : Diagonal D.m D.br D.bc) {E : Mat K} (hE : KroneckerOf X.M.m 1 1 X.id E) :
    ∃ P, X.multiplyLeft1LLT result D = .ok P ∧ ProductOf D.m E P := by
  have r1 := hX.rows
  have r2 := hX.cols
  rw [h1, Nat.mul_one] at r1
  rw [h2, Nat.mul_one] at r2
  have hid : 0 < X.id := by rw [← hb]; exact hD.br
  unfold Kron.multiplyLeft1LLT
  rw [check1_ok hX hD hb, ok_bind, (whole_of_mod (M := ⟨D.br, D.bc, result⟩) hD.br hD.bc hr1 hr2).finalize, ok_bind,
    hX.nVert, hD.nHor, hX.nHor, hD.nVert]
  unfold BlockMat.setZero
  have hw : Whole (⟨D.br, D.bc, ⟨n * D.br, n * D.bc, fun _ _ => 0⟩⟩ : BlockMat K) n n := ⟨hD.br, hD.bc, rfl, rfl⟩
  simp only
  rw [hw.finalize, ok_bind]
  have hfin : ∀ R : BlockMat K, Painted (fun x y => ∃ j < n, ∃ i < n - j, Rect ((j + i) * D.br) (j * D.bc) D.br D.bc x y)
      (fun x y => D.m.e x (x / D.br * D.bc + y % D.bc) * X.M.m.e (x / D.br) (y / D.bc))
      (⟨n * D.br, n * D.bc, fun _ _ => 0⟩ : Mat K) R.m → ProductOf D.m E R.m := by
    intro R hp
    refine ⟨?_, ?_, ?_, ?_⟩
    · rw [hE.rows, hD.cols, hc', r1]; ring
    · rw [hp.rows, hD.rows]
    · rw [hp.cols, hE.cols, r2, hc']; ring
    · intro x hx y hy
      obtain ⟨i, a, hi, ha, rfl⟩ := exists_blk (n := n) (h := D.br) (by rw [← hD.rows]; exact hx)
      obtain ⟨j, q, hj, hq, rfl⟩ := exists_blk (n := n) (h := X.id) (x := y) (by
        rw [hE.cols, r2] at hy; rw [Nat.mul_comm]; exact hy)
      have hent : ∀ c < X.id, E.e (i * X.id + c) (j * X.id + q) = if c = q then X.M.m.e i j else 0 := by
        intro c hc
        have := hE.entries i j c q 0 0 (by omega) (by omega) hc hq (by omega) (by omega)
        simpa using this
      have hsum : ∑ k ∈ Finset.range D.m.cols, D.m.e (i * D.br + a) k * E.e k (j * X.id + q) =
          D.m.e (i * D.br + a) (i * D.bc + q) * X.M.m.e i j := by
        rw [diag_sum_right hD hdiag hi ha, hc', Finset.sum_eq_single q]
        · rw [hent q hq, if_pos rfl]
        · intro c hc hcq
          rw [hent c (Finset.mem_range.mp hc), if_neg hcq, mul_zero]
        · intro h; exact absurd (Finset.mem_range.mpr hq) h
      rw [hsum]
      by_cases hij : i < j
      · have hz := hL i j 0 0 hij (by omega) (by omega) (by omega) (by omega)
        simp only [Nat.mul_one, Nat.add_zero] at hz
        rw [hp.outside, hz, mul_zero]
        rintro ⟨j', hj', i', hi', hr⟩
        rw [rect_blk, hc', div_blk ha, div_blk hq] at hr
        omega
      · rw [hp.inside]
        · rw [div_blk ha, hc', mod_blk hq, div_blk hq]
        · refine ⟨j, hj, i - j, by omega, ?_⟩
          rw [rect_blk, hc', div_blk ha, div_blk hq]
          exact ⟨⟨by omega, hD.br⟩, rfl, hid⟩
  by_cases h0 : n = 0
  · rw [if_neg (by simpa using h0)]
    refine ⟨_, rfl, hfin ⟨D.br, D.bc, ⟨n * D.br, n * D.bc, fun _ _ => 0⟩⟩ ⟨rfl, rfl, ?_, fun _ _ _ => rfl⟩⟩
    rintro x y ⟨j, hj, -⟩
    omega
  · rw [if_pos h0]
    obtain ⟨R, hR, -, -, hp⟩ := paint_forRangeB (n := n) (M := (⟨D.br, D.bc, ⟨n * D.br, n * D.bc, fun _ _ => 0⟩⟩ : BlockMat K))
      (G := fun x y => D.m.e x (x / D.br * D.bc + y % D.bc) * X.M.m.e (x / D.br) (y / D.bc))
      (body := fun R j => forRange (n - j) R fun R i => do
        let d ← D.blk (j + i) (j + i)
        let x ← X.M.m.get (j + i) j
        R.setBlk (j + i) j (Kron.scaleRight d x))
      (W := fun j x y => ∃ i < n - j, Rect ((j + i) * D.br) (j * D.bc) D.br D.bc x y) (by
      intro j hj N hbr hbc hr hc
      exact paint_forRangeB (fun i => Rect ((j + i) * D.br) (j * D.bc) D.br D.bc) (by
        intro i hi N' hbr' hbc' hr' hc''
        rw [hD.blk (by omega) (by omega), ok_bind, Mat.get_ok (by omega) (by omega), ok_bind]
        have e1 : N'.br = D.br := hbr'.trans hbr
        have e2 : N'.bc = D.bc := hbc'.trans hbc
        rw [← e1, ← e2]
        refine paint_setBlk ?_ ?_ rfl rfl ?_
        · exact blk_in (n := n) (by omega) (by rw [hr', hr, e1])
        · exact blk_in hj (by rw [hc'', hc, e2])
        · intro p hp q hq
          simp only [Kron.scaleRight]
          rw [div_blk hp, div_blk hq, mod_blk hq]))
    rw [hR, ok_bind]
    exact ⟨R.m, rfl, hfin R hp⟩

theorem multiplyRightVec1_ok [Semiring K] {X : Kron K} {nv nh : ℕ} (hX : Whole X.M nv nh) (h1 : X.M.br = 1) (h2 : X.M.bc = 1)
    {x : Vec K} (hx : x.n = X.id * X.M.m.cols) {E : Mat K} (hE : KroneckerOf X.M.m 1 1 X.id E) :
    ∃ y, X.multiplyRightVec1 x = .ok y ∧ VecProductOf E x y := by
  have r1 := hX.rows
  have r2 := hX.cols
  rw [h1, Nat.mul_one] at r1
  rw [h2, Nat.mul_one] at r2
  unfold Kron.multiplyRightVec1
  rw [hX.nHor, hX.nVert]
  have hloop : ∃ y, forRange nh (⟨X.id * X.M.m.rows, fun _ => 0⟩ : Vec K) (fun res j =>
      forRange nv res fun res i => do
        let old ← Kron.segment res (i * X.id) X.id
        let a ← X.M.m.get i j
        let g ← Kron.segment x (j * X.id) X.id
        res.setSegment (i * X.id) X.id ⟨X.id, fun r => old.e r + a * g.e r⟩) = .ok y ∧ (y.n = nv * X.id ∧
      ∀ i < nv, ∀ a < X.id, y.e (i * X.id + a) = ∑ j ∈ Finset.range nh, X.M.m.e i j * x.e (j * X.id + a)) := by
    refine forRange_post (P := fun k (y : Vec K) => y.n = nv * X.id ∧
      ∀ i < nv, ∀ a < X.id, y.e (i * X.id + a) = ∑ j ∈ Finset.range k, X.M.m.e i j * x.e (j * X.id + a)) ?_ ?_ (fun s hs => hs)
    · refine ⟨?_, fun i _ a _ => by simp⟩
      rw [r1]; exact Nat.mul_comm _ _
    · intro j res hj ⟨hn, hres⟩
      refine forRange_post (P := fun k (y : Vec K) => y.n = nv * X.id ∧
        ∀ i < nv, ∀ a < X.id, y.e (i * X.id + a) =
          if i < k then ∑ j ∈ Finset.range (j + 1), X.M.m.e i j * x.e (j * X.id + a)
          else ∑ j ∈ Finset.range j, X.M.m.e i j * x.e (j * X.id + a)) ?_ ?_ ?_
      · exact ⟨hn, fun i hi a ha => by rw [if_neg (by omega)]; exact hres i hi a ha⟩
      · intro i y hi ⟨hyn, hy⟩
        unfold Kron.segment
        rw [if_pos (blk_in hi hyn), ok_bind, Mat.get_ok (by omega) (by omega), ok_bind,
          if_pos (blk_in hj (by rw [hx, r2]; exact Nat.mul_comm _ _)), ok_bind, Vec.setSegment_ok (blk_in hi hyn) rfl]
        refine ⟨_, rfl, hyn, ?_⟩
        intro i' hi' a ha
        simp only
        by_cases hii : i' = i
        · subst hii
          rw [if_pos (by omega), if_pos (by omega), show i' * X.id + a - i' * X.id = a by omega, hy i' hi a ha,
            if_neg (by omega), Finset.sum_range_succ]
        · have hno : ¬ (i * X.id ≤ i' * X.id + a ∧ i' * X.id + a < i * X.id + X.id) := by
            rw [blk_le ha, ← Nat.succ_mul, blk_lt ha]
            omega
          rw [if_neg hno, hy i' hi' a ha]
          by_cases hlt : i' < i
          · rw [if_pos hlt, if_pos (by omega)]
          · rw [if_neg hlt, if_neg (by omega)]
      · intro y ⟨hyn, hy⟩
        exact ⟨hyn, fun i hi a ha => by rw [hy i hi a ha, if_pos hi]⟩
  obtain ⟨y, hy, hyn, hye⟩ := hloop
  refine ⟨y, hy, by rw [hE.cols, hx], by rw [hyn, hE.rows, r1, Nat.mul_comm], ?_⟩
  intro z hz
  rw [hE.rows, r1] at hz
  obtain ⟨i, a, hi, ha, rfl⟩ := exists_blk (n := nv) (h := X.id) (x := z) (by rw [Nat.mul_comm]; exact hz)
  rw [hye i hi a ha, hE.cols, r2, Nat.mul_comm X.id nh, sum_blk]
  refine Finset.sum_congr rfl fun j hj => ?_
  have hj' := Finset.mem_range.mp hj
  have hent : ∀ c < X.id, E.e (i * X.id + a) (j * X.id + c) = if a = c then X.M.m.e i j else 0 := by
    intro c hc
    have := hE.entries i j a c 0 0 (by omega) (by omega) ha hc (by omega) (by omega)
    simpa using this
  symm
  rw [Finset.sum_eq_single a]
  · rw [hent a ha, if_pos rfl]
  · intro c hc hca
    rw [hent c (Finset.mem_range.mp hc), if_neg (Ne.symm hca), zero_mul]
  · intro h; exact absurd (Finset.mem_range.mpr ha) h

/-! ### `multiplyBlockKroneckerIdentity` -/

theorem multiplyBlockKroneckerIdentity_ok [Zero K] {A : Mat K} {br bc : ℕ} (n : ℕ) (h1 : 0 < br) (h2 : 0 < bc)
    (h3 : A.rows % br = 0) (h4 : A.cols % bc = 0) :
    ∃ E, multiplyBlockKroneckerIdentity A br bc n = .ok E ∧ KroneckerOf A br bc n E := by
  have hW := whole_of_mod (M := ⟨br, bc, A⟩) h1 h2 h3 h4
  have hw1 : A.rows = A.rows / br * br := hW.rows
  have hw2 : A.cols = A.cols / bc * bc := hW.cols
  obtain ⟨E, hE, hp⟩ := paint_forRange (n := A.rows / br) (M := (⟨n * A.rows, n * A.cols, fun _ _ => 0⟩ : Mat K))
    (G := kronE A br bc n) (body := fun O i => forRange (A.cols / bc) O fun O j => forRange n O fun O k => do
      let B ← A.block (i * br) (j * bc) br bc
      O.setBlock (i * (n * br) + k * br) (j * (n * bc) + k * bc) br bc B)
    (W := fun i x y => ∃ j < A.cols / bc, ∃ k < n, Rect ((i * n + k) * br) ((j * n + k) * bc) br bc x y) (by
    intro i hi N hr hc
    exact paint_forRange (fun j x y => ∃ k < n, Rect ((i * n + k) * br) ((j * n + k) * bc) br bc x y) (by
      intro j hj N' hr' hc'
      exact paint_forRange (fun k => Rect ((i * n + k) * br) ((j * n + k) * bc) br bc) (by
        intro k hk N'' hr'' hc''
        rw [block_ok (blk_in hi hw1) (blk_in hj hw2), ok_bind,
          show i * (n * br) + k * br = (i * n + k) * br by ring, show j * (n * bc) + k * bc = (j * n + k) * bc by ring]
        refine paint_setBlock ?_ ?_ rfl rfl ?_
        · refine blk_in (n := A.rows / br * n) ((blk_lt hk).mpr hi) ?_
          rw [hr'', hr', hr]
          show n * A.rows = _
          conv_lhs => rw [hw1]
          ring
        · refine blk_in (n := A.cols / bc * n) ((blk_lt hk).mpr hj) ?_
          rw [hc'', hc', hc]
          show n * A.cols = _
          conv_lhs => rw [hw2]
          ring
        · intro p hp q hq
          rw [kronE_blk _ hk hk hp hq, if_pos rfl])))
  refine ⟨E, ?_, hp.rows, hp.cols, ?_⟩
  · unfold multiplyBlockKroneckerIdentity
    rw [require_true (by omega), ok_bind, assertThat_true h3, ok_bind, require_true (by omega), ok_bind, assertThat_true h4, ok_bind]
    exact hE
  · intro i j a b p q hi hj ha hb hp' hq'
    have hi' := blk_index h1 hw1 hi
    have hj' := blk_index h2 hw2 hj
    by_cases hab : a = b
    · subst hab
      rw [if_pos rfl, hp.inside _ _ ⟨i, hi', j, hj', a, ha, by
        rw [rect_blk]; exact ⟨⟨div_blk hp', h1⟩, div_blk hq', h2⟩⟩, kronE_blk _ ha ha hp' hq', if_pos rfl]
    · rw [if_neg hab, hp.outside]
      rintro ⟨i', -, j', -, k, hk, hr⟩
      rw [rect_blk, div_blk hp', div_blk hq'] at hr
      have e1 := congrArg (· % n) hr.1.1
      have e2 := congrArg (· % n) hr.2.1
      simp only [mod_blk ha, mod_blk hb, mod_blk hk] at e1 e2
      omega

end Humoto
