import Verif.Model.Kronecker
import Verif.Lemmas.Eigentools

/-!
# Lemmas on Kronecker products and block diagonal products
-/

namespace Humoto

open Spec

set_option linter.unusedSectionVars false

variable {K : Type}

theorem block_ok {A : Mat K} {r c h w : ℕ} (h1 : r + h ≤ A.rows) (h2 : c + w ≤ A.cols) :
    A.block r c h w = .ok ⟨h, w, fun i j => A.e (r + i) (c + j)⟩ := if_pos ⟨h1, h2⟩

theorem mul_ok [AddCommMonoid K] [Mul K] {A B : Mat K} (h : A.cols = B.rows) :
    A.mul B = .ok ⟨A.rows, B.cols, fun i j => ∑ k ∈ Finset.range A.cols, A.e i k * B.e k j⟩ := if_pos h

/-- A block matrix with whole numbers of blocks. -/
structure Whole (M : BlockMat K) (nv nh : ℕ) : Prop where
  br : 0 < M.br
  bc : 0 < M.bc
  rows : M.m.rows = nv * M.br
  cols : M.m.cols = nh * M.bc

theorem Whole.nVert {M : BlockMat K} {nv nh : ℕ} (h : Whole M nv nh) : M.nVert = nv := by
  unfold BlockMat.nVert
  rw [h.rows, Nat.mul_div_cancel _ h.br]

theorem Whole.nHor {M : BlockMat K} {nv nh : ℕ} (h : Whole M nv nh) : M.nHor = nh := by
  unfold BlockMat.nHor
  rw [h.cols, Nat.mul_div_cancel _ h.bc]

theorem finalize_whole {M M' : BlockMat K} (h : M.finalize = .ok M') : M' = M ∧ Whole M M.nVert M.nHor := by
  unfold BlockMat.finalize at h
  by_cases h1 : M.br > 0
  · rw [assertThat_true h1, ok_bind] at h
    by_cases h2 : M.m.rows % M.br = 0
    · rw [assertThat_true h2, ok_bind] at h
      by_cases h3 : M.bc > 0
      · rw [assertThat_true h3, ok_bind] at h
        by_cases h4 : M.m.cols % M.bc = 0
        · rw [assertThat_true h4, ok_bind] at h
          cases h
          refine ⟨rfl, h1, h3, ?_, ?_⟩
          · exact (Nat.div_mul_cancel (Nat.dvd_of_mod_eq_zero h2)).symm
          · exact (Nat.div_mul_cancel (Nat.dvd_of_mod_eq_zero h4)).symm
        · rw [assertThat_false h4] at h; cases h
      · rw [assertThat_false h3] at h; cases h
    · rw [assertThat_false h2] at h; cases h
  · rw [assertThat_false h1] at h; cases h

theorem Whole.finalize {M : BlockMat K} {nv nh : ℕ} (h : Whole M nv nh) : M.finalize = .ok M := by
  unfold BlockMat.finalize
  rw [assertThat_true h.br, ok_bind, assertThat_true (by rw [h.rows, Nat.mul_mod_left]), ok_bind, assertThat_true h.bc, ok_bind,
    assertThat_true (by rw [h.cols, Nat.mul_mod_left])]
  rfl

theorem blk_in {i n h m : ℕ} (hi : i < n) (hm : m = n * h) : i * h + h ≤ m := by
  rw [hm, ← Nat.succ_mul]; exact Nat.mul_le_mul_right _ hi

theorem Whole.blk {M : BlockMat K} {nv nh i j : ℕ} (h : Whole M nv nh) (hi : i < nv) (hj : j < nh) :
    M.blk i j = .ok ⟨M.br, M.bc, fun p q => M.m.e (i * M.br + p) (j * M.bc + q)⟩ :=
  block_ok (blk_in hi h.rows) (blk_in hj h.cols)

/-! ### Evaluation -/

/-- The entries of the Kronecker product. -/
def kronE [Zero K] (M : Mat K) (br bc n : ℕ) (x y : ℕ) : K :=
  if x / br % n = y / bc % n then M.e (x / br / n * br + x % br) (y / bc / n * bc + y % bc) else 0

theorem kronE_blk [Zero K] (M : Mat K) {br bc n i j a b p q : ℕ} (ha : a < n) (hb : b < n) (hp : p < br) (hq : q < bc) :
    kronE M br bc n ((i * n + a) * br + p) ((j * n + b) * bc + q) = if a = b then M.e (i * br + p) (j * bc + q) else 0 := by
  unfold kronE
  rw [div_blk hp, div_blk hq, mod_blk hp, mod_blk hq, div_blk ha, div_blk hb, mod_blk ha, mod_blk hb]

theorem evaluateStep_ok [Zero K] {X : Kron K} {nv nh : ℕ} (hX : Whole X.M nv nh) {O : Mat K} (hr : O.rows = X.id * X.M.m.rows)
    (hc : O.cols = X.id * X.M.m.cols) {i j k : ℕ} (hi : i < nv) (hj : j < nh) (hk : k < X.id) :
    ∃ O', X.evaluateStep O i j k = .ok O' ∧
      Painted (Rect ((i * X.id + k) * X.M.br) ((j * X.id + k) * X.M.bc) X.M.br X.M.bc) (kronE X.M.m X.M.br X.M.bc X.id) O O' := by
  unfold Kron.evaluateStep
  rw [hX.blk hi hj, ok_bind]
  have e1 : i * X.id + k < nv * X.id := by rw [blk_lt hk]; exact hi
  have e2 : j * X.id + k < nh * X.id := by rw [blk_lt hk]; exact hj
  refine paint_setBlock ?_ ?_ rfl rfl ?_
  · exact blk_in e1 (by rw [hr, hX.rows]; ring)
  · exact blk_in e2 (by rw [hc, hX.cols]; ring)
  · intro p hp q hq
    rw [kronE_blk _ hk hk hp hq, if_pos rfl]

theorem blk_index {i n br rows : ℕ} (hbr : 0 < br) (h : rows = n * br) (hi : (i + 1) * br ≤ rows) : i < n := by
  rw [h] at hi
  exact Nat.lt_of_succ_le (Nat.le_of_mul_le_mul_right hi hbr)

theorem evaluate_ok [Zero K] {X : Kron K} {nv nh : ℕ} (hX : Whole X.M nv nh) :
    ∃ E, X.evaluate = .ok E ∧ KroneckerOf X.M.m X.M.br X.M.bc X.id E := by
  unfold Kron.evaluate
  rw [hX.nHor, hX.nVert]
  obtain ⟨E, hE, hp⟩ := paint_forRange (n := nh) (M := (⟨X.id * X.M.m.rows, X.id * X.M.m.cols, fun _ _ => 0⟩ : Mat K))
    (G := kronE X.M.m X.M.br X.M.bc X.id) (body := fun O j => forRange nv O fun O i => forRange X.id O fun O k =>
      X.evaluateStep O i j k) (W := fun j x y => ∃ i < nv, ∃ k < X.id,
      Rect ((i * X.id + k) * X.M.br) ((j * X.id + k) * X.M.bc) X.M.br X.M.bc x y) (by
    intro j hj N hr hc
    exact paint_forRange (fun i x y => ∃ k < X.id, Rect ((i * X.id + k) * X.M.br) ((j * X.id + k) * X.M.bc) X.M.br X.M.bc x y)
      (by
        intro i hi N' hr' hc'
        exact paint_forRange (fun k => Rect ((i * X.id + k) * X.M.br) ((j * X.id + k) * X.M.bc) X.M.br X.M.bc) (by
          intro k hk N'' hr'' hc''
          exact evaluateStep_ok hX (hr''.trans (hr'.trans hr)) (hc''.trans (hc'.trans hc)) hi hj hk)))
  refine ⟨E, hE, hp.rows, hp.cols, ?_⟩
  intro i j a b p q hi hj ha hb hp' hq'
  have hi' := blk_index hX.br hX.rows hi
  have hj' := blk_index hX.bc hX.cols hj
  by_cases hab : a = b
  · subst hab
    rw [if_pos rfl, hp.inside _ _ ⟨j, hj', i, hi', a, ha, by
      rw [rect_blk]; exact ⟨⟨div_blk hp', hX.br⟩, div_blk hq', hX.bc⟩⟩, kronE_blk _ ha ha hp' hq', if_pos rfl]
  · rw [if_neg hab, hp.outside]
    rintro ⟨j', -, i', -, k, hk, hr⟩
    rw [rect_blk, div_blk hp', div_blk hq'] at hr
    have e1 := congrArg (· % X.id) hr.1.1
    have e2 := congrArg (· % X.id) hr.2.1
    simp only [mod_blk ha, mod_blk hb, mod_blk hk] at e1 e2
    omega

theorem evaluateLLT_ok [Zero K] {X : Kron K} {nv nh : ℕ} (hX : Whole X.M nv nh) (hL : LowerTriangular X.M.m X.M.br X.M.bc) :
    ∃ E, X.evaluateLLT = .ok E ∧ KroneckerOf X.M.m X.M.br X.M.bc X.id E := by
  unfold Kron.evaluateLLT
  rw [hX.nHor, hX.nVert]
  obtain ⟨E, hE, hp⟩ := paint_forRange (n := nh) (M := (⟨X.id * X.M.m.rows, X.id * X.M.m.cols, fun _ _ => 0⟩ : Mat K))
    (G := kronE X.M.m X.M.br X.M.bc X.id) (body := fun O j => forRange (nv - j) O fun O i => forRange X.id O fun O k =>
      X.evaluateStep O (j + i) j k) (W := fun j x y => ∃ i < nv - j, ∃ k < X.id,
      Rect (((j + i) * X.id + k) * X.M.br) ((j * X.id + k) * X.M.bc) X.M.br X.M.bc x y) (by
    intro j hj N hr hc
    exact paint_forRange
      (fun i x y => ∃ k < X.id, Rect (((j + i) * X.id + k) * X.M.br) ((j * X.id + k) * X.M.bc) X.M.br X.M.bc x y)
      (by
        intro i hi N' hr' hc'
        exact paint_forRange (fun k => Rect (((j + i) * X.id + k) * X.M.br) ((j * X.id + k) * X.M.bc) X.M.br X.M.bc) (by
          intro k hk N'' hr'' hc''
          exact evaluateStep_ok hX (hr''.trans (hr'.trans hr)) (hc''.trans (hc'.trans hc)) (by omega) hj hk)))
  refine ⟨E, hE, hp.rows, hp.cols, ?_⟩
  intro i j a b p q hi hj ha hb hp' hq'
  have hi' := blk_index hX.br hX.rows hi
  have hj' := blk_index hX.bc hX.cols hj
  by_cases hab : a = b
  · subst hab
    rw [if_pos rfl]
    by_cases hij : i < j
    · rw [hL i j p q hij hi hj hp' hq', hp.outside]
      rintro ⟨j', -, i', -, k, hk, hr⟩
      rw [rect_blk, div_blk hp', div_blk hq'] at hr
      have e1 := congrArg (· / X.id) hr.1.1
      have e2 := congrArg (· / X.id) hr.2.1
      simp only [div_blk ha, div_blk hk] at e1 e2
      omega
    · rw [hp.inside _ _ ⟨j, hj', i - j, by omega, a, ha, by
        rw [rect_blk, show j + (i - j) = i by omega]; exact ⟨⟨div_blk hp', hX.br⟩, div_blk hq', hX.bc⟩⟩,
        kronE_blk _ ha ha hp' hq', if_pos rfl]
  · rw [if_neg hab, hp.outside]
    rintro ⟨j', -, i', -, k, hk, hr⟩
    rw [rect_blk, div_blk hp', div_blk hq'] at hr
    have e1 := congrArg (· % X.id) hr.1.1
    have e2 := congrArg (· % X.id) hr.2.1
    simp only [mod_blk ha, mod_blk hb, mod_blk hk] at e1 e2
    omega

/-! ### Blocks 1x1 -/

theorem kronE_one [Zero K] (M : Mat K) {n i j k : ℕ} (hk : k < n) : kronE M 1 1 n (i * n + k) (j * n + k) = M.e i j := by
  have := kronE_blk M (br := 1) (bc := 1) (i := i) (j := j) hk hk Nat.zero_lt_one Nat.zero_lt_one
  simpa using this

theorem evaluate1_step [Zero K] {X : Kron K} {nv nh : ℕ} (hX : Whole X.M nv nh) (h1 : X.M.br = 1) (h2 : X.M.bc = 1) {O : Mat K}
    (hr : O.rows = X.id * X.M.m.rows) (hc : O.cols = X.id * X.M.m.cols) {i j k : ℕ} (hi : i < nv) (hj : j < nh) (hk : k < X.id) :
    ∃ O', (do let x ← X.M.m.get i j; O.set (i * X.id + k) (j * X.id + k) x) = .ok O' ∧
      Painted (fun a b => a = i * X.id + k ∧ b = j * X.id + k) (kronE X.M.m 1 1 X.id) O O' := by
  have e1 : i * X.id + k < nv * X.id := by rw [blk_lt hk]; exact hi
  have e2 : j * X.id + k < nh * X.id := by rw [blk_lt hk]; exact hj
  have r1 := hX.rows
  have r2 := hX.cols
  rw [h1, Nat.mul_one] at r1
  rw [h2, Nat.mul_one] at r2
  rw [Mat.get_ok (by omega) (by omega), ok_bind]
  refine paint_set ?_ ?_ ?_
  · rw [hr, r1, Nat.mul_comm X.id nv]; exact e1
  · rw [hc, r2, Nat.mul_comm X.id nh]; exact e2
  · rw [kronE_one _ hk]

theorem evaluate1_ok [Zero K] {X : Kron K} {nv nh : ℕ} (hX : Whole X.M nv nh) (h1 : X.M.br = 1) (h2 : X.M.bc = 1) :
    ∃ E, X.evaluate1 = .ok E ∧ KroneckerOf X.M.m 1 1 X.id E := by
  unfold Kron.evaluate1
  rw [hX.nHor, hX.nVert]
  obtain ⟨E, hE, hp⟩ := paint_forRange (n := nh) (M := (⟨X.id * X.M.m.rows, X.id * X.M.m.cols, fun _ _ => 0⟩ : Mat K))
    (G := kronE X.M.m 1 1 X.id) (body := fun O j => forRange nv O fun O i => forRange X.id O fun O k => do
      let x ← X.M.m.get i j
      O.set (i * X.id + k) (j * X.id + k) x) (W := fun j x y => ∃ i < nv, ∃ k < X.id, x = i * X.id + k ∧ y = j * X.id + k) (by
    intro j hj N hr hc
    exact paint_forRange (fun i x y => ∃ k < X.id, x = i * X.id + k ∧ y = j * X.id + k)
      (by
        intro i hi N' hr' hc'
        exact paint_forRange (fun k x y => x = i * X.id + k ∧ y = j * X.id + k) (by
          intro k hk N'' hr'' hc''
          exact evaluate1_step hX h1 h2 (hr''.trans (hr'.trans hr)) (hc''.trans (hc'.trans hc)) hi hj hk)))
  have r1 := hX.rows
  have r2 := hX.cols
  rw [h1] at r1
  rw [h2] at r2
  refine ⟨E, hE, hp.rows, hp.cols, ?_⟩
  intro i j a b p q hi hj ha hb hp' hq'
  obtain rfl : p = 0 := by omega
  obtain rfl : q = 0 := by omega
  simp only [Nat.mul_one, Nat.add_zero]
  by_cases hab : a = b
  · subst hab
    rw [if_pos rfl, hp.inside _ _ ⟨j, by omega, i, by omega, a, ha, rfl, rfl⟩, kronE_one _ ha]
  · rw [if_neg hab, hp.outside]
    rintro ⟨j', -, i', -, k, hk, hr⟩
    have e1 := congrArg (· % X.id) hr.1
    have e2 := congrArg (· % X.id) hr.2
    simp only [mod_blk ha, mod_blk hb, mod_blk hk] at e1 e2
    omega

theorem evaluate1LLT_ok [Zero K] {X : Kron K} {nv nh : ℕ} (hX : Whole X.M nv nh) (h1 : X.M.br = 1) (h2 : X.M.bc = 1)
    (hL : LowerTriangular X.M.m 1 1) : ∃ E, X.evaluate1LLT = .ok E ∧ KroneckerOf X.M.m 1 1 X.id E := by
  unfold Kron.evaluate1LLT
  rw [hX.nHor, hX.nVert]
  obtain ⟨E, hE, hp⟩ := paint_forRange (n := nh) (M := (⟨X.id * X.M.m.rows, X.id * X.M.m.cols, fun _ _ => 0⟩ : Mat K))
    (G := kronE X.M.m 1 1 X.id) (body := fun O j => forRange (nv - j) O fun O i => forRange X.id O fun O k => do
      let x ← X.M.m.get (j + i) j
      O.set ((j + i) * X.id + k) (j * X.id + k) x)
      (W := fun j x y => ∃ i < nv - j, ∃ k < X.id, x = (j + i) * X.id + k ∧ y = j * X.id + k) (by
    intro j hj N hr hc
    exact paint_forRange (fun i x y => ∃ k < X.id, x = (j + i) * X.id + k ∧ y = j * X.id + k)
      (by
        intro i hi N' hr' hc'
        exact paint_forRange (fun k x y => x = (j + i) * X.id + k ∧ y = j * X.id + k) (by
          intro k hk N'' hr'' hc''
          exact evaluate1_step hX h1 h2 (hr''.trans (hr'.trans hr)) (hc''.trans (hc'.trans hc)) (by omega) hj hk)))
  have r1 := hX.rows
  have r2 := hX.cols
  rw [h1] at r1
  rw [h2] at r2
  refine ⟨E, hE, hp.rows, hp.cols, ?_⟩
  intro i j a b p q hi hj ha hb hp' hq'
  obtain rfl : p = 0 := by omega
  obtain rfl : q = 0 := by omega
  have hL' := fun h => hL i j 0 0 h hi hj hp' hq'
  simp only [Nat.mul_one, Nat.add_zero] at hL' ⊢
  by_cases hab : a = b
  · subst hab
    rw [if_pos rfl]
    by_cases hij : i < j
    · rw [hL' hij, hp.outside]
      rintro ⟨j', -, i', -, k, hk, hr⟩
      have e1 := congrArg (· / X.id) hr.1
      have e2 := congrArg (· / X.id) hr.2
      simp only [div_blk ha, div_blk hk] at e1 e2
      omega
    · rw [hp.inside _ _ ⟨j, by omega, i - j, by omega, a, ha, by rw [show j + (i - j) = i by omega], rfl⟩, kronE_one _ ha]
  · rw [if_neg hab, hp.outside]
    rintro ⟨j', -, i', -, k, hk, hr⟩
    have e1 := congrArg (· % X.id) hr.1
    have e2 := congrArg (· % X.id) hr.2
    simp only [mod_blk ha, mod_blk hb, mod_blk hk] at e1 e2
    omega

/-! ### Products -/

theorem exists_blk {h x n : ℕ} (hx : x < n * h) : ∃ i p, i < n ∧ p < h ∧ x = i * h + p := by
  have h0 : 0 < h := by
    rcases Nat.eq_zero_or_pos h with rfl | h0
    · simp at hx
    · exact h0
  refine ⟨x / h, x % h, ?_, Nat.mod_lt _ h0, ?_⟩
  · exact Nat.div_lt_of_lt_mul (by rw [Nat.mul_comm]; exact hx)
  · rw [Nat.mul_comm]; exact (Nat.div_add_mod x h).symm

/-- An entry of the product of a Kronecker product and a block diagonal matrix. -/
theorem kron_sum [Semiring K] {M E D : Mat K} {br bc n nv nh w : ℕ} (hE : KroneckerOf M br bc n E) (hr : M.rows = nv * br)
    (hc : M.cols = nh * bc) (hDr : D.rows = nh * (bc * n)) (hDc : D.cols = nh * w) (hD : Diagonal D (bc * n) w)
    {i a p j q : ℕ} (hi : i < nv) (ha : a < n) (hp : p < br) (hj : j < nh) (hq : q < w) :
    ∑ k ∈ Finset.range E.cols, E.e ((i * n + a) * br + p) k * D.e k (j * w + q) =
      ∑ c ∈ Finset.range bc, M.e (i * br + p) (j * bc + c) * D.e (j * (bc * n) + (a * bc + c)) (j * w + q) := by
  have hcols : E.cols = nh * n * bc := by rw [hE.cols, hc]; ring
  have one : ∀ {i n h m : ℕ}, i < n → m = n * h → (i + 1) * h ≤ m := by
    intro i n h m hi hm
    rw [hm]; exact Nat.mul_le_mul_right _ hi
  rw [hcols, sum_blk, sum_blk, Finset.sum_eq_single j]
  · rw [Finset.sum_eq_single a]
    · refine Finset.sum_congr rfl fun c hc' => ?_
      rw [hE.entries i j a a p c (one hi hr) (one hj hc) ha ha hp (Finset.mem_range.mp hc'), if_pos rfl]
      congr 2; ring
    · intro b hb hba
      refine Finset.sum_eq_zero fun c hc' => ?_
      rw [hE.entries i j a b p c (one hi hr) (one hj hc) ha (Finset.mem_range.mp hb) hp (Finset.mem_range.mp hc'),
        if_neg (Ne.symm hba), zero_mul]
    · intro h; exact absurd (Finset.mem_range.mpr ha) h
  · intro j' hj' hne
    refine Finset.sum_eq_zero fun b hb => Finset.sum_eq_zero fun c hc' => ?_
    have hb' := Finset.mem_range.mp hb
    have hc'' := Finset.mem_range.mp hc'
    have e : (j' * n + b) * bc + c = j' * (bc * n) + (b * bc + c) := by ring
    have hlt : b * bc + c < bc * n := by
      rw [Nat.mul_comm bc n, blk_lt hc'']; exact hb'
    rw [e, hD j' j _ q hne (one (Finset.mem_range.mp hj') hDr) (one hj hDc) hlt hq, mul_zero]
  · intro h; exact absurd (Finset.mem_range.mpr hj) h

theorem indices_ok {X : Kron K} {nv nh : ℕ} (hX : Whole X.M nv nh) (junk : ℕ → ℕ) :
    ∃ v, X.indices junk = .ok v ∧ v.n = X.id * X.M.m.rows ∧
      ∀ i a p, i < nv → a < X.id → p < X.M.br → v.e ((i * X.id + a) * X.M.br + p) = a * X.M.m.rows + (i * X.M.br + p) := by
  unfold Kron.indices
  rw [hX.nVert]
  have e : ∀ j i : ℕ, j * X.M.br * X.id + i * X.M.br = (j * X.id + i) * X.M.br := by intro j i; ring
  obtain ⟨v, hv, hp⟩ := vpaint_forRange (n := X.id) (v := (⟨X.id * X.M.m.rows, junk⟩ : Vec ℕ))
    (g := fun x => x / X.M.br % X.id * X.M.m.rows + (x / X.M.br / X.id * X.M.br + x % X.M.br))
    (body := fun v i => forRange nv v fun v j =>
      v.setSegment (j * X.M.br * X.id + i * X.M.br) X.M.br ⟨X.M.br, fun r => i * X.M.m.rows + j * X.M.br + r⟩)
    (W := fun i x => ∃ j < nv, (j * X.id + i) * X.M.br ≤ x ∧ x < (j * X.id + i) * X.M.br + X.M.br) (by
    intro i hi u hu
    exact vpaint_forRange (fun j x => (j * X.id + i) * X.M.br ≤ x ∧ x < (j * X.id + i) * X.M.br + X.M.br) (by
      intro j hj u' hu'
      rw [e]
      refine paint_setSegment ?_ rfl ?_
      · refine blk_in (n := nv * X.id) ((blk_lt hi).mpr hj) ?_
        rw [hu', hu, hX.rows]; ring
      · intro p hp
        simp only
        rw [div_blk hp, mod_blk hp, div_blk hi, mod_blk hi, Nat.add_assoc]))
  refine ⟨v, hv, hp.n, ?_⟩
  intro i a p hi ha hp'
  rw [hp.inside _ ⟨a, ha, i, hi, by omega, by omega⟩, div_blk hp', mod_blk hp', div_blk ha, mod_blk ha]

theorem checkRight_ok {X : Kron K} {D : BlockMat K} {nv nh : ℕ} (hX : Whole X.M nv nh) (hD : Whole D nh nh)
    (hb : D.br = X.M.bc * X.id) : X.checkRight D = .ok () := by
  unfold Kron.checkRight
  rw [assertThat_true hb, ok_bind, assertThat_true (by rw [hX.nHor, hD.nVert]), ok_bind, assertThat_true]
  rw [hX.nHor, hD.rows, hb]; ring

/-- The last step of both products: the permutation puts the rows in order. -/
theorem permute_product [Semiring K] {X : Kron K} {D : BlockMat K} {nv nh : ℕ} (hX : Whole X.M nv nh) (hD : Whole D nh nh)
    (hb : D.br = X.M.bc * X.id) (hdiag : Diagonal D.m D.br D.bc) {E R : Mat K} {v : Vec ℕ}
    (hE : KroneckerOf X.M.m X.M.br X.M.bc X.id E) (hv : v.n = X.id * X.M.m.rows)
    (hvi : ∀ i a p, i < nv → a < X.id → p < X.M.br → v.e ((i * X.id + a) * X.M.br + p) = a * X.M.m.rows + (i * X.M.br + p))
    (hR1 : R.rows = X.id * X.M.m.rows) (hR2 : R.cols = D.m.cols)
    (hR : ∀ a r j q, a < X.id → r < X.M.m.rows → j < nh → q < D.bc → R.e (a * X.M.m.rows + r) (j * D.bc + q) =
      ∑ c ∈ Finset.range X.M.bc, X.M.m.e r (j * X.M.bc + c) * D.m.e (j * D.br + (a * X.M.bc + c)) (j * D.bc + q)) :
    ∃ P, Kron.permuteRows v R = .ok P ∧ ProductOf E D.m P := by
  have split : ∀ x, x < X.id * X.M.m.rows → ∃ i a p, i < nv ∧ a < X.id ∧ p < X.M.br ∧ x = (i * X.id + a) * X.M.br + p := by
    intro x hx
    have : x < (nv * X.id) * X.M.br := by
      rw [hX.rows] at hx
      have e : X.id * (nv * X.M.br) = nv * X.id * X.M.br := by ring
      omega
    obtain ⟨y, p, hy, hp, rfl⟩ := exists_blk this
    obtain ⟨i, a, hi, ha, rfl⟩ := exists_blk hy
    exact ⟨i, a, p, hi, ha, hp, rfl⟩
  have hrow : ∀ i p, i < nv → p < X.M.br → i * X.M.br + p < X.M.m.rows := by
    intro i p hi hp
    rw [hX.rows, blk_lt hp]; exact hi
  unfold Kron.permuteRows
  rw [require_true]
  · refine ⟨_, rfl, ?_, ?_, hR2, ?_⟩
    · rw [hE.cols, hX.cols, hD.rows, hb]; ring
    · rw [hE.rows]; exact hR1
    · intro x hx y hy
      rw [hE.rows] at hx
      obtain ⟨i, a, p, hi, ha, hp, rfl⟩ := split x hx
      obtain ⟨j, q, hj, hq, rfl⟩ := exists_blk (n := nh) (h := D.bc) (by rw [← hD.cols]; exact hy)
      simp only
      rw [hvi i a p hi ha hp, hR a _ j q ha (hrow i p hi hp) hj hq,
        kron_sum hE hX.rows hX.cols (by rw [hD.rows, hb]) hD.cols (by rw [← hb]; exact hdiag) hi ha hp hj hq, hb]
  · refine ⟨by rw [hv, hR1], ?_⟩
    intro x hx
    obtain ⟨i, a, p, hi, ha, hp, rfl⟩ := split x (by omega)
    rw [hvi i a p hi ha hp, hR1, blk_lt (hrow i p hi hp)]
    exact ha

/-- The entries of the products before the permutation. -/
def rightE [Semiring K] (X : Kron K) (D : BlockMat K) (x y : ℕ) : K :=
  ∑ c ∈ Finset.range X.M.bc, X.M.m.e (x % X.M.m.rows) (y / D.bc * X.M.bc + c) *
    D.m.e (y / D.bc * D.br + (x / X.M.m.rows * X.M.bc + c)) y

theorem rightE_blk [Semiring K] (X : Kron K) (D : BlockMat K) {a r j q : ℕ} (hr : r < X.M.m.rows) (hq : q < D.bc) :
    rightE X D (a * X.M.m.rows + r) (j * D.bc + q) =
      ∑ c ∈ Finset.range X.M.bc, X.M.m.e r (j * X.M.bc + c) * D.m.e (j * D.br + (a * X.M.bc + c)) (j * D.bc + q) := by
  unfold rightE
  rw [div_blk hr, mod_blk hr, div_blk hq]

theorem width {D : BlockMat K} {nh : ℕ} (hD : Whole D nh nh) (h0 : nh ≠ 0) : D.m.cols / nh = D.bc := by
  rw [hD.cols, Nat.mul_div_cancel_left _ (Nat.pos_of_ne_zero h0)]

theorem multiplyRight_ok [Semiring K] {X : Kron K} {D : BlockMat K} {nv nh : ℕ} (junk : ℕ → ℕ → K) (junkI : ℕ → ℕ)
    (hX : Whole X.M nv nh) (hD : Whole D nh nh) (hb : D.br = X.M.bc * X.id)
    (hdiag : Diagonal D.m D.br D.bc) {E : Mat K} (hE : KroneckerOf X.M.m X.M.br X.M.bc X.id E) :
    ∃ P, X.multiplyRight junk junkI D = .ok P ∧ ProductOf E D.m P := by
  unfold Kron.multiplyRight
  rw [checkRight_ok hX hD hb, ok_bind, hX.nHor]
  by_cases h0 : nh = 0
  · rw [if_neg (by simpa using h0)]
    refine ⟨_, rfl, ?_, hE.rows.symm, rfl, ?_⟩
    · rw [hE.cols, hX.cols, hD.rows, hb]; ring
    · intro x _ y hy
      rw [hD.cols, h0] at hy; omega
  · rw [if_pos h0]
    obtain ⟨v, hv, hvn, hvi⟩ := indices_ok hX junkI
    rw [hv, ok_bind]
    simp only [width hD h0]
    obtain ⟨R, hR, hp⟩ := paint_forRange (n := X.id) (M := (⟨X.id * X.M.m.rows, D.m.cols, junk⟩ : Mat K))
      (G := rightE X D) (body := fun R i => forRange nh R fun R j => do
        let c ← X.M.column j 0
        let b ← D.blk j j
        let b ← b.block (i * X.M.bc) 0 X.M.bc D.bc
        let p ← c.mul b
        R.setBlock (i * X.M.m.rows) (D.bc * j) X.M.m.rows D.bc p)
      (W := fun i x y => ∃ j < nh, Rect (i * X.M.m.rows) (j * D.bc) X.M.m.rows D.bc x y) (by
      intro i hi N hr hc
      exact paint_forRange (fun j => Rect (i * X.M.m.rows) (j * D.bc) X.M.m.rows D.bc) (by
        intro j hj N' hr' hc'
        have hcol : X.M.column j 0 = .ok ⟨X.M.m.rows, X.M.bc, fun p q => X.M.m.e p (j * X.M.bc + q)⟩ := by
          unfold BlockMat.column
          rw [hX.nVert, Nat.sub_zero, ← hX.rows, block_ok (by omega) (blk_in hj hX.cols)]
          simp
        rw [hcol, ok_bind, hD.blk hj hj, ok_bind, block_ok (by
          show i * X.M.bc + X.M.bc ≤ D.br
          exact blk_in hi (by rw [hb]; ring)) (by show 0 + D.bc ≤ D.bc; omega), ok_bind, mul_ok rfl, ok_bind, Nat.mul_comm D.bc j]
        refine paint_setBlock ?_ ?_ rfl rfl ?_
        · exact blk_in hi (by rw [hr', hr])
        · exact blk_in hj (by rw [hc', hc]; exact hD.cols)
        · intro p hp q hq
          rw [rightE_blk X D hp hq]
          simp))
    rw [hR, ok_bind]
    refine permute_product hX hD hb hdiag hE hvn hvi hp.rows hp.cols ?_
    intro a r j q ha hr hj hq
    rw [hp.inside _ _ ⟨a, ha, j, hj, by rw [rect_blk]; exact ⟨⟨div_blk hr, by omega⟩, div_blk hq, by omega⟩⟩,
      rightE_blk X D hr hq]

theorem multiplyRightLLT_ok [Semiring K] {X : Kron K} {D : BlockMat K} {nv nh : ℕ} (junkI : ℕ → ℕ) (hX : Whole X.M nv nh)
    (hD : Whole D nh nh) (hb : D.br = X.M.bc * X.id) (hdiag : Diagonal D.m D.br D.bc)
    (hL : LowerTriangular X.M.m X.M.br X.M.bc) (hle : nh ≤ nv + 1) {E : Mat K}
    (hE : KroneckerOf X.M.m X.M.br X.M.bc X.id E) : ∃ P, X.multiplyRightLLT junkI D = .ok P ∧ ProductOf E D.m P := by
  unfold Kron.multiplyRightLLT
  rw [checkRight_ok hX hD hb, ok_bind, hX.nHor]
  by_cases h0 : nh = 0
  · rw [if_neg (by simpa using h0)]
    refine ⟨_, rfl, ?_, hE.rows.symm, rfl, ?_⟩
    · rw [hE.cols, hX.cols, hD.rows, hb]; ring
    · intro x _ y hy
      rw [hD.cols, h0] at hy; omega
  · rw [if_pos h0]
    obtain ⟨v, hv, hvn, hvi⟩ := indices_ok hX junkI
    rw [hv, ok_bind]
    simp only [width hD h0, hX.nVert]
    obtain ⟨R, hR, hp⟩ := paint_forRange (n := X.id) (M := (⟨X.id * X.M.m.rows, D.m.cols, fun _ _ => 0⟩ : Mat K))
      (G := rightE X D) (body := fun R i => forRange nh R fun R j => do
        let c ← X.M.column j j
        let b ← D.blk j j
        let b ← b.block (i * X.M.bc) 0 X.M.bc D.bc
        let p ← c.mul b
        require (j ≤ nv)
        R.setBlock (i * X.M.m.rows + j * X.M.br) (D.bc * j) ((nv - j) * X.M.br) D.bc p)
      (W := fun i x y => ∃ j < nh, Rect (i * X.M.m.rows + j * X.M.br) (j * D.bc) ((nv - j) * X.M.br) D.bc x y) (by
      intro i hi N hr hc
      exact paint_forRange (fun j => Rect (i * X.M.m.rows + j * X.M.br) (j * D.bc) ((nv - j) * X.M.br) D.bc) (by
        intro j hj N' hr' hc'
        have hfit : j * X.M.br + (nv - j) * X.M.br = X.M.m.rows := by
          rw [← Nat.add_mul, hX.rows, show j + (nv - j) = nv by omega]
        have hcol : X.M.column j j = .ok ⟨(nv - j) * X.M.br, X.M.bc, fun p q => X.M.m.e (j * X.M.br + p) (j * X.M.bc + q)⟩ := by
          unfold BlockMat.column
          rw [hX.nVert, block_ok (by omega) (blk_in hj hX.cols)]
        rw [hcol, ok_bind, hD.blk hj hj, ok_bind, block_ok (by
          show i * X.M.bc + X.M.bc ≤ D.br
          exact blk_in hi (by rw [hb]; ring)) (by show 0 + D.bc ≤ D.bc; omega), ok_bind, mul_ok rfl, ok_bind,
          require_true (by omega), ok_bind, Nat.mul_comm D.bc j]
        refine paint_setBlock ?_ ?_ rfl rfl ?_
        · have := blk_in (h := X.M.m.rows) hi (m := N'.rows) (by rw [hr', hr])
          omega
        · exact blk_in hj (by rw [hc', hc]; exact hD.cols)
        · intro p hp q hq
          rw [Nat.add_assoc, rightE_blk X D (by omega) hq]
          simp))
    rw [hR, ok_bind]
    refine permute_product hX hD hb hdiag hE hvn hvi hp.rows hp.cols ?_
    intro a r j q ha hr hj hq
    by_cases hjr : j * X.M.br ≤ r
    · rw [hp.inside, rightE_blk X D hr hq]
      refine ⟨a, ha, j, hj, ⟨by omega, ?_⟩, by omega, by omega⟩
      have : j * X.M.br + (nv - j) * X.M.br = X.M.m.rows := by
        rw [← Nat.add_mul, hX.rows, show j + (nv - j) = nv by omega]
      omega
    · rw [hp.outside]
      · symm
        refine Finset.sum_eq_zero fun c hc => ?_
        obtain ⟨i, p, hi, hp', rfl⟩ := exists_blk (n := nv) (h := X.M.br) (by rw [← hX.rows]; exact hr)
        have hij : i < j := by
          by_contra hij
          exact hjr ((blk_le hp').mpr (by omega))
        rw [hL i j p c hij (by rw [hX.rows]; exact Nat.mul_le_mul_right _ hi) (by rw [hX.cols]; exact Nat.mul_le_mul_right _ hj)
          hp' (Finset.mem_range.mp hc), zero_mul]
      · rintro ⟨a', ha', j', hj', ⟨h1, h2⟩, h3⟩
        have hj'' : j' = j := by
          have := (rect_blk (i := 0) (h := 1) (x := 0)).mp ⟨⟨by omega, by omega⟩, h3⟩
          rw [div_blk hq] at this
          exact this.2.1.symm
        subst hj''
        have hfit : j' * X.M.br + (nv - j') * X.M.br = X.M.m.rows := by
          rw [← Nat.add_mul, hX.rows, show j' + (nv - j') = nv by omega]
        have e1 : a' ≤ a := (blk_le (h := X.M.m.rows) hr).mp (by omega)
        have e2 : a < a' + 1 := (blk_lt (h := X.M.m.rows) hr).mp (by rw [Nat.add_mul]; omega)
        obtain rfl : a' = a := by omega
        omega

theorem multiplyRightVec_ok [Semiring K] {X : Kron K} {nv nh : ℕ} (junk junk' : ℕ → K) (hX : Whole X.M nv nh) {x : Vec K}
    (hx : x.n = X.id * X.M.m.cols) {E : Mat K} (hE : KroneckerOf X.M.m X.M.br X.M.bc X.id E) :
    ∃ y, X.multiplyRightVec junk junk' x = .ok y ∧ VecProductOf E x y := by
  unfold Kron.multiplyRightVec
  rw [hX.nVert, hX.nHor]
  have ec : ∀ j i : ℕ, j * X.M.bc * X.id + i * X.M.bc = (j * X.id + i) * X.M.bc := by intro j i; ring
  have er : ∀ j i : ℕ, j * X.M.br * X.id + i * X.M.br = (j * X.id + i) * X.M.br := by intro j i; ring
  have hcols : E.cols = nh * X.id * X.M.bc := by rw [hE.cols, hX.cols]; ring
  -- entries of the product
  set g : ℕ → K := fun z => ∑ j ∈ Finset.range nh, ∑ c ∈ Finset.range X.M.bc,
    X.M.m.e (z / X.M.br / X.id * X.M.br + z % X.M.br) (j * X.M.bc + c) * x.e ((j * X.id + z / X.M.br % X.id) * X.M.bc + c) with hg
  have hloop : ∃ s, forRange X.id ((⟨X.id * X.M.m.rows, junk⟩ : Vec K), (⟨X.M.m.cols, junk'⟩ : Vec K)) (fun s i => do
      let part ← forRange nh s.2 fun part j => do
        let g ← Kron.segment x (j * X.M.bc * X.id + i * X.M.bc) X.M.bc
        part.setSegment (j * X.M.bc) X.M.bc g
      let y ← X.M.m.mulVec part
      let res ← forRange nv s.1 fun res j => do
        let g ← Kron.segment y (j * X.M.br) X.M.br
        res.setSegment (j * X.M.br * X.id + i * X.M.br) X.M.br g
      pure (res, part)) = .ok s ∧ (s.2.n = X.M.m.cols ∧
      VPainted (fun z => ∃ i < X.id, ∃ j < nv, (j * X.id + i) * X.M.br ≤ z ∧ z < (j * X.id + i) * X.M.br + X.M.br) g
        (⟨X.id * X.M.m.rows, junk⟩ : Vec K) s.1) := by
    refine forRange_post (P := fun k s => s.2.n = X.M.m.cols ∧
      VPainted (fun z => ∃ i < k, ∃ j < nv, (j * X.id + i) * X.M.br ≤ z ∧ z < (j * X.id + i) * X.M.br + X.M.br) g
        (⟨X.id * X.M.m.rows, junk⟩ : Vec K) s.1) ?_ ?_ (fun s hs => hs)
    · exact ⟨rfl, rfl, by rintro z ⟨i, hi, -⟩; omega, fun _ _ => rfl⟩
    · rintro i ⟨res, part⟩ hi ⟨hpn, hres⟩
      simp only at hpn hres ⊢
      obtain ⟨part', h1, h2⟩ := vpaint_forRange (n := nh) (v := part)
        (g := fun z => x.e ((z / X.M.bc * X.id + i) * X.M.bc + z % X.M.bc))
        (body := fun part j => do
          let g ← Kron.segment x (j * X.M.bc * X.id + i * X.M.bc) X.M.bc
          part.setSegment (j * X.M.bc) X.M.bc g)
        (W := fun j z => j * X.M.bc ≤ z ∧ z < j * X.M.bc + X.M.bc) (by
        intro j hj u hu
        rw [ec]
        have hseg : Kron.segment x ((j * X.id + i) * X.M.bc) X.M.bc =
            .ok ⟨X.M.bc, fun c => x.e ((j * X.id + i) * X.M.bc + c)⟩ := by
          unfold Kron.segment
          rw [if_pos]
          refine blk_in (n := nh * X.id) ((blk_lt hi).mpr hj) ?_
          rw [hx, hX.cols]; ring
        rw [hseg, ok_bind]
        refine paint_setSegment ?_ rfl ?_
        · exact blk_in hj (by rw [hu, hpn]; exact hX.cols)
        · intro c hc
          simp only
          rw [div_blk hc, mod_blk hc])
      rw [h1, ok_bind]
      have hmul : X.M.m.mulVec part' = .ok ⟨X.M.m.rows, fun r => ∑ j ∈ Finset.range nh, ∑ c ∈ Finset.range X.M.bc,
          X.M.m.e r (j * X.M.bc + c) * x.e ((j * X.id + i) * X.M.bc + c)⟩ := by
        unfold Mat.mulVec
        rw [if_pos (by rw [h2.n]; exact hpn.symm)]
        congr 2
        funext r
        rw [hX.cols, sum_blk]
        refine Finset.sum_congr rfl fun j hj => Finset.sum_congr rfl fun c hc => ?_
        have hj' := Finset.mem_range.mp hj
        have hc' := Finset.mem_range.mp hc
        rw [h2.inside _ ⟨j, hj', by omega, by omega⟩, div_blk hc', mod_blk hc']
      rw [hmul, ok_bind]
      obtain ⟨res', h3, h4⟩ := vpaint_forRange (n := nv) (v := res) (g := g)
        (body := fun res j => do
          let g ← Kron.segment (⟨X.M.m.rows, fun r => ∑ j ∈ Finset.range nh, ∑ c ∈ Finset.range X.M.bc,
            X.M.m.e r (j * X.M.bc + c) * x.e ((j * X.id + i) * X.M.bc + c)⟩ : Vec K) (j * X.M.br) X.M.br
          res.setSegment (j * X.M.br * X.id + i * X.M.br) X.M.br g)
        (W := fun j z => (j * X.id + i) * X.M.br ≤ z ∧ z < (j * X.id + i) * X.M.br + X.M.br) (by
        intro j hj u hu
        rw [er]
        unfold Kron.segment
        rw [if_pos (by exact blk_in hj hX.rows), ok_bind]
        refine paint_setSegment ?_ rfl ?_
        · refine blk_in (n := nv * X.id) ((blk_lt hi).mpr hj) ?_
          rw [hu, hres.n, hX.rows]; ring
        · intro p hp
          simp only [hg]
          rw [div_blk hp, mod_blk hp, div_blk hi, mod_blk hi])
      rw [h3, ok_bind]
      refine ⟨(res', part'), rfl, h2.n.trans hpn, h4.n.trans hres.n, ?_, ?_⟩
      · rintro z ⟨i', hi', hw⟩
        by_cases hz : ∃ j < nv, (j * X.id + i) * X.M.br ≤ z ∧ z < (j * X.id + i) * X.M.br + X.M.br
        · exact h4.inside z hz
        · rw [h4.outside z hz]
          have : i' ≠ i := by rintro rfl; exact hz hw
          exact hres.inside z ⟨i', by omega, hw⟩
      · intro z hno
        rw [h4.outside z (fun hw => hno ⟨i, by omega, hw⟩)]
        exact hres.outside z (fun ⟨i', hi', hw⟩ => hno ⟨i', by omega, hw⟩)
  obtain ⟨s, hs, -, hp⟩ := hloop
  rw [hs, ok_bind]
  refine ⟨s.1, rfl, by rw [hE.cols, hx], by rw [hp.n, hE.rows], ?_⟩
  intro z hz
  rw [hE.rows, hX.rows] at hz
  obtain ⟨y, p, hy, hp', rfl⟩ := exists_blk (n := nv * X.id) (h := X.M.br) (x := z) (by
    have e : X.id * (nv * X.M.br) = nv * X.id * X.M.br := by ring
    omega)
  obtain ⟨i, a, hi, ha, rfl⟩ := exists_blk hy
  rw [hp.inside _ ⟨a, ha, i, hi, by omega, by omega⟩, hcols, sum_blk, sum_blk]
  simp only [hg]
  rw [div_blk hp', mod_blk hp', div_blk ha, mod_blk ha]
  refine Finset.sum_congr rfl fun j hj => ?_
  have hj' := Finset.mem_range.mp hj
  have hi2 : (i + 1) * X.M.br ≤ X.M.m.rows := by rw [hX.rows]; exact Nat.mul_le_mul_right _ hi
  have hj2 : (j + 1) * X.M.bc ≤ X.M.m.cols := by rw [hX.cols]; exact Nat.mul_le_mul_right _ hj'
  symm
  rw [Finset.sum_eq_single a]
  · refine Finset.sum_congr rfl fun c hc => ?_
    rw [hE.entries i j a a p c hi2 hj2 ha ha hp' (Finset.mem_range.mp hc), if_pos rfl]
  · intro b hb hba
    refine Finset.sum_eq_zero fun c hc => ?_
    rw [hE.entries i j a b p c hi2 hj2 ha (Finset.mem_range.mp hb) hp' (Finset.mem_range.mp hc), if_neg (Ne.symm hba), zero_mul]
  · intro h; exact absurd (Finset.mem_range.mpr ha) h

end Humoto
