import Verif.Lemmas.Condense2
import Verif.Lemmas.PepperModel
import Verif.Model.PepperMpc
import Verif.Spec.PepperMpc

/-!
# Lemmas on the control problem of Pepper
-/

set_option linter.unusedSectionVars false
set_option linter.unusedSimpArgs false

namespace Humoto.Pepper

open Spec

variable {K : Type} [Field K] [LinearOrder K] [IsStrictOrderedRing K]

/-! ### Kronecker products with the identity 2x2 -/

theorem kron_row {M E : Mat K} {br bc nv nh : ℕ} (hE : KroneckerOf M br bc 2 E) (hr : M.rows = nv * br)
    (hc : M.cols = nh * bc) (x : ℕ → K) {i a p : ℕ} (hi : i < nv) (ha : a < 2) (hp : p < br) :
    ∑ k ∈ Finset.range E.cols, E.e ((i * 2 + a) * br + p) k * x k =
      ∑ j ∈ Finset.range nh, ∑ q ∈ Finset.range bc, M.e (i * br + p) (j * bc + q) * x ((j * 2 + a) * bc + q) := by
  have hcols : E.cols = nh * 2 * bc := by rw [hE.cols, hc]; ring
  rw [hcols, sum_blk, sum_blk]
  refine Finset.sum_congr rfl fun j hj => ?_
  have hj' := Finset.mem_range.mp hj
  rw [Finset.sum_eq_single a]
  · refine Finset.sum_congr rfl fun q hq => ?_
    rw [hE.entries i j a a p q (one_blk hi hr) (one_blk hj' hc) ha ha hp (Finset.mem_range.mp hq), if_pos rfl]
  · intro b hb hba
    refine Finset.sum_eq_zero fun q hq => ?_
    rw [hE.entries i j a b p q (one_blk hi hr) (one_blk hj' hc) ha (Finset.mem_range.mp hb) hp (Finset.mem_range.mp hq),
      if_neg (fun h => hba h.symm), zero_mul]
  · intro h; exact absurd (Finset.mem_range.mpr ha) h

theorem kron_ok {M : BlockMat K} {nv nh : ℕ} (h : Whole M nv nh) : M.kron 2 = .ok ⟨M, 2⟩ := by
  unfold BlockMat.kron Kron.construct
  rw [Whole.finalize (M := ⟨M.br, M.bc, M.m⟩) ⟨h.br, h.bc, h.rows, h.cols⟩, ok_bind, assertThat_true (by omega)]
  rfl

/-- Coordinate `a` of a vector which consists of groups of three numbers. -/
def axis (x : Vec K) (a : ℕ) : ℕ → K := fun l => x.e (a * 3 + l)

/-- Controls of the coordinate `a`. -/
def ctrl (x : ℕ → K) (a : ℕ) : ℕ → ℕ → K := fun m _ => x (m * 2 + a)

theorem kronVec_ok (junk junk' : ℕ → K) {U : BlockMat K} {N h : ℕ} (hb : U.br = h) (hc : U.bc = 3) (hh : 0 < h)
    (h1 : U.m.rows = N * h) (h2 : U.m.cols = 3) {x : Vec K} (hx : x.n = 6) :
    ∃ y, kronVec junk junk' U x = .ok y ∧ y.n = 2 * (N * h) ∧ ∀ i < N, ∀ a < 2, ∀ p < h,
      y.e ((i * 2 + a) * h + p) = stateTerm U.m h 3 (axis x a) i p := by
  have hw : Whole U N 1 := ⟨by omega, by omega, by rw [h1, hb], by rw [h2, hc, one_mul]⟩
  obtain ⟨E, hE, hk⟩ := Humoto.evaluate_ok (X := ⟨U, 2⟩) hw
  obtain ⟨y, hy, p1, p2, p3⟩ := multiplyRightVec_ok (X := ⟨U, 2⟩) junk junk' hw (x := x)
    (by show x.n = 2 * U.m.cols; rw [hx, h2]) hk
  unfold kronVec
  rw [kron_ok hw, ok_bind]
  refine ⟨y, hy, by rw [p2, hk.rows, h1], ?_⟩
  intro i hi a ha p hp
  have hk' : KroneckerOf U.m h 3 2 E := by rw [← hb, ← hc]; exact hk
  rw [p3 _ (by
    rw [hk.rows, h1]
    calc (i * 2 + a) * h + p < N * 2 * h := by rw [blk_lt hp]; omega
      _ = 2 * (N * h) := by ring)]
  rw [kron_row hk' h1 (by rw [h2] : U.m.cols = 1 * 3) _ hi ha hp]
  unfold stateTerm axis
  rw [Finset.sum_range_one]
  refine Finset.sum_congr rfl fun q hq => ?_
  simp

theorem kronLLT_row {U E : Mat K} {N h : ℕ} (h1 : U.rows = N * h) (h2 : U.cols = N) (hk : KroneckerOf U h 1 2 E)
    (x : ℕ → K) {i a p : ℕ} (hi : i < N) (ha : a < 2) (hp : p < h) :
    ∑ c ∈ Finset.range E.cols, E.e ((i * 2 + a) * h + p) c * x c = controlTerm U h 1 N (ctrl x a) i p := by
  rw [kron_row hk h1 (by rw [h2, mul_one]) _ hi ha hp]
  unfold controlTerm ctrl
  refine Finset.sum_congr rfl fun j hj => Finset.sum_congr rfl fun q hq => ?_
  have hq' : q = 0 := by have := Finset.mem_range.mp hq; omega
  subst q
  simp

/-- Evaluation of the product with a triangular matrix. -/
theorem kronLLT_ok {U : BlockMat K} {N h : ℕ} (hb : U.br = h) (hc : U.bc = 1) (hh : 0 < h) (h1 : U.m.rows = N * h)
    (h2 : U.m.cols = N) (hL : LowerTriangular U.m h 1) :
    ∃ E, Kron.evaluateLLT ⟨U, 2⟩ = .ok E ∧ E.rows = 2 * (N * h) ∧ E.cols = 2 * N ∧ ∀ (x : ℕ → K), ∀ i < N, ∀ a < 2, ∀ p < h,
      ∑ c ∈ Finset.range (2 * N), E.e ((i * 2 + a) * h + p) c * x c = controlTerm U.m h 1 N (ctrl x a) i p := by
  have hw : Whole U N N := ⟨by omega, by omega, by rw [h1, hb], by rw [h2, hc, mul_one]⟩
  obtain ⟨E, hE, hk⟩ := evaluateLLT_ok (X := ⟨U, 2⟩) hw (by rw [hb, hc]; exact hL)
  have hk' : KroneckerOf U.m h 1 2 E := by rw [← hb, ← hc]; exact hk
  have hcol : E.cols = 2 * N := by rw [hk.cols, h2]
  refine ⟨E, hE, by rw [hk.rows, h1], hcol, ?_⟩
  intro x i hi a ha p hp
  rw [← hcol]
  exact kronLLT_row h1 h2 hk' x hi ha hp

/-- The same for blocks 1x1. -/
theorem kron1LLT_ok {U : BlockMat K} {N : ℕ} (hb : U.br = 1) (hc : U.bc = 1) (h1 : U.m.rows = N)
    (h2 : U.m.cols = N) (hL : LowerTriangular U.m 1 1) :
    ∃ E, Kron.evaluate1LLT ⟨U, 2⟩ = .ok E ∧ KroneckerOf U.m 1 1 2 E ∧ E.rows = 2 * N ∧ E.cols = 2 * N ∧
      ∀ (x : ℕ → K), ∀ i < N, ∀ a < 2,
      ∑ c ∈ Finset.range (2 * N), E.e (i * 2 + a) c * x c = controlTerm U.m 1 1 N (ctrl x a) i 0 := by
  have hw : Whole U N N := ⟨by omega, by omega, by rw [h1, hb, mul_one], by rw [h2, hc, mul_one]⟩
  obtain ⟨E, hE, hk⟩ := evaluate1LLT_ok (X := ⟨U, 2⟩) hw hb hc hL
  have hcol : E.cols = 2 * N := by rw [hk.cols, h2]
  refine ⟨E, hE, hk, by rw [hk.rows, h1], hcol, ?_⟩
  intro x i hi a ha
  rw [← hcol]
  have := kronLLT_row (h := 1) (by rw [h1, mul_one]) h2 hk x hi ha Nat.zero_lt_one
  rw [mul_one, add_zero] at this
  exact this

/-! ### Selection of rows -/

theorem selectRowInBlocks_ok {U : BlockMat K} {N nh w row : ℕ} (hb : U.br = 3) (hc : U.bc = w) (hw : 0 < w)
    (h1 : U.m.rows = N * 3) (h2 : U.m.cols = nh * w) (hrow : row < 3) (hN : 0 < N) :
    ∃ m : Mat K, U.selectRowInBlocks row = .ok ⟨1, w, m⟩ ∧ m.rows = N ∧ m.cols = nh * w ∧
      ∀ i < N, ∀ j < nh * w, m.e i j = U.m.e (i * 3 + row) j := by
  have hr : (N * 3 - row + 3 - 1) / 3 = N := by omega
  unfold BlockMat.selectRowInBlocks selectRows
  rw [require_true ⟨by omega, by omega⟩, ok_bind, pure_eq_ok, ok_bind]
  unfold MapView.toMat
  simp only
  have key : ∀ i j, i < N → (row + i * 3 + j * (N * 3)) = j * (N * 3) + (i * 3 + row) := by intro i j _; ring
  rw [require_true, ok_bind, pure_eq_ok, ok_bind]
  · refine ⟨⟨(U.m.rows - row + U.br - 1) / U.br, U.m.cols, fun i j => U.m.e ((row + i * U.br + j * U.m.rows) % U.m.rows)
      ((row + i * U.br + j * U.m.rows) / U.m.rows)⟩, ?_, by rw [hb, h1, hr], h2, ?_⟩
    · rw [hc]
      refine Whole.finalize (nv := N) (nh := nh) ⟨Nat.one_pos, hw, ?_, h2⟩
      show (U.m.rows - row + U.br - 1) / U.br = N * 1
      rw [hb, h1, hr, mul_one]
    · intro i hi j hj
      simp only [hb, h1]
      rw [key i j hi]
      have hlt : i * 3 + row < N * 3 := by omega
      rw [mod_blk hlt, div_blk hlt]
  · simp only [hb, h1, h2, hr]
    intro i hi j hj
    rw [key i j hi]
    have hlt : i * 3 + row < N * 3 := by omega
    calc j * (N * 3) + (i * 3 + row) < nh * w * (N * 3) := by rw [blk_lt hlt]; exact hj
      _ = N * 3 * (nh * w) := by ring

theorem rowVec_ok (junk : ℕ → ℕ → K) {U : BlockMat K} {N row : ℕ} (hb : U.br = 3) (hc : U.bc = 3)
    (h1 : U.m.rows = N * 3) (h2 : U.m.cols = 3) (hrow : row < 3) (hN : 0 < N) {x : Vec K} (hx : x.n = 6) :
    ∃ y, rowVec junk U row x = .ok y ∧ y.n = 2 * N ∧ ∀ i < N, ∀ a < 2, y.e (i * 2 + a) = stateTerm U.m 3 3 (axis x a) i row := by
  obtain ⟨m, hm, m1, m2, m3⟩ := selectRowInBlocks_ok (nh := 1) hb hc (by omega) h1 h2 hrow hN
  unfold rowVec
  rw [hm, ok_bind]
  obtain ⟨y, hy, hn, he⟩ := kronVec_ok (junk 0) (junk 1) (U := ⟨1, 3, m⟩) (N := N) (h := 1) rfl rfl (by omega)
    (by rw [mul_one]; exact m1) m2 hx
  refine ⟨y, hy, by rw [hn, mul_one], ?_⟩
  intro i hi a ha
  have := he i hi a ha 0 (by omega)
  rw [mul_one, add_zero] at this
  rw [this]
  unfold stateTerm
  refine Finset.sum_congr rfl fun j hj => ?_
  simp only [mul_one, add_zero]
  rw [m3 i hi j (by have := Finset.mem_range.mp hj; omega)]

theorem selected_triangular {U : Mat K} {m : Mat K} {N row : ℕ} (h1 : U.rows = N * 3) (h2 : U.cols = N) (hrow : row < 3)
    (hL : LowerTriangular U 3 1) (m1 : m.rows = N) (m2 : m.cols = N) (m3 : ∀ i < N, ∀ j < N, m.e i j = U.e (i * 3 + row) j) :
    LowerTriangular m 1 1 := by
  intro i j p q hij hi hj hp hq
  have hp' : p = 0 := by omega
  have hq' : q = 0 := by omega
  subst p q
  rw [m1] at hi
  rw [m2] at hj
  rw [mul_one, mul_one, add_zero, add_zero, m3 i (by omega) j (by omega)]
  have := hL i j row 0 hij (by omega) (by omega) hrow (by omega)
  rwa [mul_one, add_zero] at this

theorem controlTerm_selected {U m : Mat K} {N row : ℕ} (m3 : ∀ i < N, ∀ j < N, m.e i j = U.e (i * 3 + row) j)
    (u : ℕ → ℕ → K) {i : ℕ} (hi : i < N) : controlTerm m 1 1 N u i 0 = controlTerm U 3 1 N u i row := by
  unfold controlTerm
  refine Finset.sum_congr rfl fun j hj => Finset.sum_congr rfl fun q hq => ?_
  have hq' : q = 0 := by have := Finset.mem_range.mp hq; omega
  subst q
  simp only [mul_one, add_zero]
  rw [m3 i hi j (Finset.mem_range.mp hj)]

theorem rowMat_ok {U : BlockMat K} {N row : ℕ} (hb : U.br = 3) (hc : U.bc = 1)
    (h1 : U.m.rows = N * 3) (h2 : U.m.cols = N) (hrow : row < 3) (hN : 0 < N) (hL : LowerTriangular U.m 3 1) :
    ∃ E, rowMat U row = .ok E ∧ E.rows = 2 * N ∧ E.cols = 2 * N ∧ ∀ (x : ℕ → K), ∀ i < N, ∀ a < 2,
      ∑ c ∈ Finset.range (2 * N), E.e (i * 2 + a) c * x c = controlTerm U.m 3 1 N (ctrl x a) i row := by
  obtain ⟨m, hm, m1, m2, m3⟩ := selectRowInBlocks_ok (nh := N) hb hc (by omega) h1 (by rw [h2, mul_one]) hrow hN
  rw [mul_one] at m2
  have m3' : ∀ i < N, ∀ j < N, m.e i j = U.m.e (i * 3 + row) j := fun i hi j hj => m3 i hi j (by omega)
  unfold rowMat
  rw [hm, ok_bind, kron_ok (nv := N) (nh := N) ⟨by simp, by simp, by simp [m1], by simp [m2]⟩, ok_bind]
  obtain ⟨E, hE, -, e1, e2, e3⟩ := kron1LLT_ok (U := ⟨1, 1, m⟩) rfl rfl m1 m2
    (selected_triangular h1 h2 hrow hL m1 m2 m3')
  refine ⟨E, hE, e1, e2, ?_⟩
  intro x i hi a ha
  rw [e3 x i hi a ha]
  exact controlTerm_selected m3' _ hi

/-! ### Matrices of the intervals -/

theorem like {M : Mat K} {f : Res (Mat K)} (hf : f = makeBlockDiagonalCopies M 1) : ∃ R, f = .ok R ∧ R.Equiv M := by
  obtain ⟨R, h1, h2, h3, h4⟩ := copies_one M
  exact ⟨R, by rw [hf, h1], h2, h3, fun i hi j hj => h4 i (by omega) j (by omega)⟩

/-- One matrix for each of the first `n` intervals. -/
def ListOf (intervals : List (Interval K)) (n : ℕ) (f : Interval K → Mat K) (l : List (Mat K)) : Prop :=
  l.length = n ∧ ∀ (k : ℕ) iv, k < n → intervals[k]? = some iv → ∃ a, l[k]? = some a ∧ a.Equiv (f iv)

theorem ListOf.nil (intervals : List (Interval K)) (f : Interval K → Mat K) : ListOf intervals 0 f [] :=
  ⟨rfl, fun k _ hk => absurd hk (by omega)⟩

theorem ListOf.append {intervals : List (Interval K)} {n : ℕ} {f : Interval K → Mat K} {l : List (Mat K)}
    (h : ListOf intervals n f l) {iv : Interval K} (hiv : intervals[n]? = some iv) {a : Mat K} (ha : a.Equiv (f iv)) :
    ListOf intervals (n + 1) f (l ++ [a]) := by
  refine ⟨by rw [List.length_append, h.1]; rfl, ?_⟩
  intro k iv' hk hiv'
  by_cases hkn : k < n
  · obtain ⟨b, hb, hb'⟩ := h.2 k iv' hkn hiv'
    exact ⟨b, by rw [List.getElem?_append_left (by rw [h.1]; exact hkn)]; exact hb, hb'⟩
  · have hk' : k = n := by omega
    subst hk'
    rw [hiv] at hiv'; cases hiv'
    exact ⟨a, by rw [List.getElem?_append_right (by rw [h.1]), h.1]; simp, ha⟩

theorem ListOf.allSize {intervals : List (Interval K)} {n : ℕ} {f : Interval K → Mat K} {l : List (Mat K)}
    (h : ListOf intervals n f l) (hn : intervals.length = n) {r c : ℕ} (hr : ∀ iv, (f iv).rows = r) (hc : ∀ iv, (f iv).cols = c) :
    AllSize l r c := by
  intro M hM
  obtain ⟨k, hk, rfl⟩ := List.getElem_of_mem hM
  have hk' : k < intervals.length := by rw [hn, ← h.1]; exact hk
  obtain ⟨a, ha, hae⟩ := h.2 k intervals[k] (by omega) (List.getElem?_eq_getElem hk')
  rw [List.getElem?_eq_getElem hk] at ha
  cases ha
  exact ⟨by rw [hae.1, hr], by rw [hae.2.1, hc]⟩

/-- Entries of a block diagonal matrix, one block for each of the first `n` intervals. -/
def diagE (intervals : List (Interval K)) (f : Interval K → Mat K) (n i j p q : ℕ) : K :=
  if i = j ∧ i < n then (match intervals[i]? with | some iv => (f iv).e p q | none => 0) else 0

theorem diagE_self {intervals : List (Interval K)} (f : Interval K → Mat K) {n i : ℕ} (p q : ℕ) (hi : i < n) {iv : Interval K}
    (hiv : intervals[i]? = some iv) : diagE intervals f n i i p q = (f iv).e p q := by
  unfold diagE
  rw [if_pos ⟨rfl, hi⟩, hiv]

theorem diagE_set {intervals : List (Interval K)} {f : Interval K → Mat K} {N n h w : ℕ} (hn : n < N) {M : BlockMat K}
    (hM : BlkM M N N h w (diagE intervals f n)) {iv : Interval K} (hiv : intervals[n]? = some iv) (h1 : (f iv).rows = h)
    (h2 : (f iv).cols = w) : ∃ M', M.setBlk n n (f iv) = .ok M' ∧ BlkM M' N N h w (diagE intervals f (n + 1)) := by
  obtain ⟨M', e, hM'⟩ := hM.set hn hn (Blk.one' h1 h2)
  refine ⟨M', e, hM'.br, hM'.bc, hM'.blk.congr ?_⟩
  intro i j p q hi hj hp hq
  by_cases hij : i = j
  · subst hij
    by_cases hin : i = n
    · subst hin
      simp only [and_self, if_true]
      rw [diagE_self f p q (by omega) hiv]
    · rw [if_neg (by omega)]
      unfold diagE
      by_cases hlt : i < n
      · rw [if_pos ⟨rfl, hlt⟩, if_pos ⟨rfl, by omega⟩]
      · rw [if_neg (by omega), if_neg (by omega)]
  · rw [if_neg (by omega)]
    unfold diagE
    rw [if_neg (by omega), if_neg (by omega)]

theorem diagE_zero {intervals : List (Interval K)} {f : Interval K → Mat K} {N h w : ℕ} (hh : 0 < h) (hw : 0 < w) :
    ∃ M, BlockMat.setZero (⟨h, w, ⟨0, 0, fun _ _ => 0⟩⟩ : BlockMat K) N N = .ok M ∧ BlkM M N N h w (diagE intervals f 0) := by
  obtain ⟨M, e, hM⟩ := BlkM.setZero (⟨h, w, ⟨0, 0, fun _ _ => 0⟩⟩ : BlockMat K) N N hh hw
  refine ⟨M, e, hM.br, hM.bc, hM.blk.congr ?_⟩
  intro i j p q _ _ _ _
  unfold diagE
  rw [if_neg (by omega)]

theorem formRotationMatrices_ok (intervals : List (Interval K)) : ∃ R, formRotationMatrices intervals = .ok R ∧
    BlkM R intervals.length intervals.length 2 2
      (diagE intervals (fun iv => ofMatrix2 iv.rotation.transpose 0) intervals.length) := by
  obtain ⟨M, e, hM⟩ := diagE_zero (intervals := intervals) (f := fun iv => ofMatrix2 iv.rotation.transpose 0)
    (N := intervals.length) (h := 2) (w := 2) (by omega) (by omega)
  unfold formRotationMatrices
  rw [e, ok_bind]
  refine forRange_inv (fun n R => BlkM R intervals.length intervals.length 2 2
      (diagE intervals (fun iv => ofMatrix2 iv.rotation.transpose 0) n)) hM ?_
  intro i R hi hR
  have hiv : intervals[i]? = some intervals[i] := List.getElem?_eq_getElem hi
  obtain ⟨R', e', hR'⟩ := diagE_set hi hR hiv rfl rfl
  exact ⟨R', by rw [vecAt_ok hiv, ok_bind]; exact e', hR'⟩

/-- The matrix `A` for the velocity of the base as the control. -/
def baseA (iv : Interval K) : Mat K := Mat.ofRows 3 [[1, 2 * iv.T / 3, iv.T * iv.T / 6], [0, 0, 0], [0, -2 / iv.T, -1]]
/-- The matrix `B` for the base. -/
def baseB (iv : Interval K) : Mat K := Mat.ofRows 1 [[iv.T / 3], [1], [2 / iv.T]]
/-- The matrix `A` for the jerk of the body as the control. -/
def bodyA (iv : Interval K) : Mat K := Mat.ofRows 3 [[1, iv.T, iv.T * iv.T / 2], [0, 1, iv.T], [0, 0, 1]]
/-- The matrix `B` for the body. -/
def bodyB (iv : Interval K) : Mat K := Mat.ofRows 1 [[iv.T * iv.T * iv.T / 6], [iv.T * iv.T / 2], [iv.T]]
/-- The row which gives the jerk of the base. -/
def jerkD (iv : Interval K) : Mat K := Mat.ofRows 3 [[0, -2 / (iv.T * iv.T), -2 / iv.T]]
/-- See `jerkD`. -/
def jerkE (iv : Interval K) : Mat K := getEjs3 iv.T
/-- The rows which give the centre of pressure. -/
def copS (iv : Interval K) : Mat K := getDps3 iv.base_height iv.base_mass iv.body_mass
/-- See `copS`. -/
def copD (iv : Interval K) : Mat K := getDpd3 iv.body_height iv.base_mass iv.body_mass

/-- The matrices of the first `n` intervals. -/
structure SystemsOf (intervals : List (Interval K)) (n : ℕ) (y : Systems K) : Prop where
  As : ListOf intervals n baseA y.As
  Bs : ListOf intervals n baseB y.Bs
  Ad : ListOf intervals n bodyA y.Ad
  Bd : ListOf intervals n bodyB y.Bd
  Djs : ListOf intervals n jerkD y.Djs
  Ejs : ListOf intervals n jerkE y.Ejs
  Dps : BlkM y.Dps intervals.length intervals.length 1 3 (diagE intervals copS n)
  Dpd : BlkM y.Dpd intervals.length intervals.length 1 3 (diagE intervals copD n)

theorem systems_ok (intervals : List (Interval K)) :
    ∃ y, systems intervals.length intervals = .ok y ∧ SystemsOf intervals intervals.length y := by
  obtain ⟨M, e, hM⟩ := diagE_zero (intervals := intervals) (f := copS) (N := intervals.length) (h := 1) (w := 3) (by omega)
    (by omega)
  obtain ⟨M', e', hM'⟩ := diagE_zero (intervals := intervals) (f := copD) (N := intervals.length) (h := 1) (w := 3) (by omega)
    (by omega)
  unfold systems
  have hMM : M = M' := by injection e.symm.trans e'
  subst hMM
  rw [e, ok_bind, ok_bind]
  refine forRange_inv (SystemsOf intervals) ⟨.nil _ _, .nil _ _, .nil _ _, .nil _ _, .nil _ _, .nil _ _, hM, hM'⟩ ?_
  intro i y hi hy
  have hiv : intervals[i]? = some intervals[i] := List.getElem?_eq_getElem hi
  generalize intervals[i] = iv at hiv
  obtain ⟨as, e1, h1⟩ := like (f := getAs3 iv.T) (M := baseA iv) rfl
  obtain ⟨bs, e2, h2⟩ := like (f := getBs3 iv.T) (M := baseB iv) rfl
  obtain ⟨ad, e3, h3⟩ := like (f := getAd3 iv.T) (M := bodyA iv) rfl
  obtain ⟨bd, e4, h4⟩ := like (f := getBd3 iv.T) (M := bodyB iv) rfl
  obtain ⟨dj, e5, h5⟩ := like (f := getDjs3 iv.T) (M := jerkD iv) rfl
  obtain ⟨P, e6, h6⟩ := diagE_set hi hy.Dps hiv rfl rfl
  obtain ⟨Q, e7, h7⟩ := diagE_set hi hy.Dpd hiv rfl rfl
  have e6 : y.Dps.setBlk i i (getDps3 iv.base_height iv.base_mass iv.body_mass) = .ok P := e6
  have e7 : y.Dpd.setBlk i i (getDpd3 iv.body_height iv.base_mass iv.body_mass) = .ok Q := e7
  unfold Systems.step
  rw [vecAt_ok hiv, ok_bind, e1, ok_bind, e2, ok_bind, e3, ok_bind, e4, ok_bind, e5, ok_bind, e6, ok_bind, e7, ok_bind]
  exact ⟨_, rfl, hy.As.append hiv h1, hy.Bs.append hiv h2, hy.Ad.append hiv h3, hy.Bd.append hiv h4, hy.Djs.append hiv h5,
    hy.Ejs.append hiv ⟨rfl, rfl, fun _ _ _ _ => rfl⟩, h6, h7⟩

/-! ### Condensing -/

theorem condensed_lower {S U : Mat K} {A B : List (Mat K)} {ns nu : ℕ} (h : Condensed S U A B ns nu) :
    LowerTriangular U ns nu := by
  intro i j p q hij hi hj hp hq
  exact condensed_causal h (blk_index (by omega) h.colsU hj) hij hp hq

theorem condensedOutput_lower {Ox Ou : Mat K} {A B D E : List (Mat K)} {ns nu ny : ℕ} (h : CondensedOutput Ox Ou A B D E ns nu ny)
    (hD : D.length = A.length) (hE : E.length = A.length) : LowerTriangular Ou ny nu := by
  intro k m i q hkm hi hm hi' hq
  have hm' : m < A.length := blk_index (by omega) h.colsOu hm
  have hd : D[k]? = some (D[k]'(by omega)) := List.getElem?_eq_getElem (by omega)
  have he : E[k]? = some (E[k]'(by omega)) := List.getElem?_eq_getElem (by omega)
  have e1 := h.outputs _ _ (traj_trajectory A B ns nu (fun _ => 0) (unitControl m q)) k _ _ hd he i hi'
  rw [show (traj A B ns nu (fun _ => 0) (unitControl m q) 0) = fun _ => 0 from rfl, stateTerm_zero, zero_add,
    controlTerm_unit _ _ _ _ _ _ _ _ hm' hq] at e1
  rw [e1]
  have hu : ∀ l, l < m → ∀ j, (unitControl m q : ℕ → ℕ → K) l j = 0 := by
    intro l hl j
    unfold unitControl
    rw [if_neg (by omega)]
  unfold output
  rw [Finset.sum_eq_zero, Finset.sum_eq_zero, add_zero]
  · intro j _
    rw [hu k hkm, mul_zero]
  · intro j _
    rw [traj_zero A B ns nu _ m hu k (by omega), mul_zero]

/-- Sizes of condensed matrices of one group of coordinates. -/
structure Sizes (N : ℕ) (Ux Uu : BlockMat K) : Prop where
  xbr : Ux.br = 3
  xbc : Ux.bc = 3
  xrows : Ux.m.rows = N * 3
  xcols : Ux.m.cols = 3
  ubr : Uu.br = 3
  ubc : Uu.bc = 1
  urows : Uu.m.rows = N * 3
  ucols : Uu.m.cols = N
  lower : LowerTriangular Uu.m 3 1

theorem sizes_of_condensed {Ux Uu : BlockMat K} {A B : List (Mat K)} (h1 : Ux.br = 3) (h2 : Ux.bc = 3) (h3 : Uu.br = 3)
    (h4 : Uu.bc = 1) (h : Condensed Ux.m Uu.m A B 3 1) : Sizes A.length Ux Uu :=
  ⟨h1, h2, h.rowsS, h.colsS, h3, h4, h.rowsU, by rw [h.colsU, mul_one], condensed_lower h⟩

theorem Sizes.whole {N : ℕ} {Ux Uu : BlockMat K} (h : Sizes N Ux Uu) : Whole Uu N N :=
  ⟨by rw [h.ubr]; omega, by rw [h.ubc]; omega, by rw [h.urows, h.ubr], by rw [h.ucols, h.ubc, mul_one]⟩

/-! ### States -/

theorem updateS_thrown (junk : ℕ → ℕ → K) {oldS : Mat K} {N : ℕ} (Uus Uud : BlockMat K) (hN : 0 < N)
    (h : ¬ (oldS.rows % (6 * N) = 0 ∧ oldS.cols % (2 * N) = 0)) :
    updateS junk oldS (12 * N) (4 * N) Uus Uud = .error .thrown := by
  have e1 : 12 * N / 2 = 6 * N := by omega
  have e2 : 4 * N / 2 = 2 * N := by omega
  unfold updateS BlockMat.finalize
  simp only
  rw [e1, e2, assertThat_true (by omega), ok_bind]
  by_cases hr : oldS.rows % (6 * N) = 0
  · rw [assertThat_true hr, ok_bind, assertThat_true (by omega), ok_bind, assertThat_false (fun hc => h ⟨hr, hc⟩)]
    rfl
  · rw [assertThat_false hr]
    rfl

theorem updateS_ok (junk : ℕ → ℕ → K) {oldS : Mat K} {N : ℕ} {Uxs Uus Uxd Uud : BlockMat K} (hN : 0 < N)
    (hs : Sizes N Uxs Uus) (hd : Sizes N Uxd Uud)
    (hr : oldS.rows % (6 * N) = 0) (hc : oldS.cols % (2 * N) = 0) :
    ∃ S, updateS junk oldS (12 * N) (4 * N) Uus Uud = .ok S ∧ S.rows = 12 * N ∧ S.cols = 4 * N ∧
      ∀ (x : ℕ → K), ∀ i < N, ∀ a < 2, ∀ p < 3,
        ∑ c ∈ Finset.range (4 * N), S.e ((i * 2 + a) * 3 + p) c * x c = controlTerm Uus.m 3 1 N (ctrl x a) i p ∧
        ∑ c ∈ Finset.range (4 * N), S.e (6 * N + ((i * 2 + a) * 3 + p)) c * x c =
          controlTerm Uud.m 3 1 N (ctrl (fun c => x (2 * N + c)) a) i p := by
  have e1 : 12 * N / 2 = 6 * N := by omega
  have e2 : 4 * N / 2 = 2 * N := by omega
  obtain ⟨E, hE, E1, E2, E3⟩ := kronLLT_ok hs.ubr hs.ubc (by omega) hs.urows hs.ucols hs.lower
  obtain ⟨E', hE', E1', E2', E3'⟩ := kronLLT_ok hd.ubr hd.ubc (by omega) hd.urows hd.ucols hd.lower
  have hw : Whole (⟨6 * N, 2 * N, oldS⟩ : BlockMat K) (oldS.rows / (6 * N)) (oldS.cols / (2 * N)) :=
    whole_of_mod (M := ⟨6 * N, 2 * N, oldS⟩) (by simpa using hN) (by simpa using hN) hr hc
  obtain ⟨S0, f0, h0⟩ := BlkM.resize ⟨6 * N, 2 * N, oldS⟩ junk 2 2 (by simpa using hN) (by simpa using hN)
  obtain ⟨S1, f1, h1⟩ := h0.set (i0 := 0) (j0 := 0) (by omega) (by omega) (Blk.one' (B := E) (by rw [E1]; show 2 * (N * 3) = 6 * N; ring) E2)
  obtain ⟨S2, f2, h2⟩ := h1.set (i0 := 0) (j0 := 1) (by omega) (by omega) (Blk.one' (B := ⟨6 * N, 2 * N, fun _ _ => 0⟩) rfl rfl)
  obtain ⟨S3, f3, h3⟩ := h2.set (i0 := 1) (j0 := 0) (by omega) (by omega) (Blk.one' (B := ⟨6 * N, 2 * N, fun _ _ => 0⟩) rfl rfl)
  obtain ⟨S4, f4, h4⟩ := h3.set (i0 := 1) (j0 := 1) (by omega) (by omega) (Blk.one' (B := E') (by rw [E1']; show 2 * (N * 3) = 6 * N; ring) E2')
  unfold updateS
  rw [e1, e2, hw.finalize, ok_bind, f0, ok_bind, kron_ok hs.whole, ok_bind, hE, ok_bind, f1, ok_bind, f2, ok_bind, f3, ok_bind,
    kron_ok hd.whole, ok_bind, hE', ok_bind, f4, ok_bind]
  refine ⟨_, rfl, by rw [h4.blk.rows]; show 2 * (6 * N) = 12 * N; ring, by rw [h4.blk.cols]; show 2 * (2 * N) = 4 * N; ring, ?_⟩
  intro x i hi a ha p hp
  have hlt : (i * 2 + a) * 3 + p < 6 * N := by omega
  have row : ∀ b < 2, ∑ c ∈ Finset.range (4 * N), S4.m.e (b * (6 * N) + ((i * 2 + a) * 3 + p)) c * x c =
      ∑ j ∈ Finset.range 2, ∑ q ∈ Finset.range (2 * N), S4.m.e (b * (6 * N) + ((i * 2 + a) * 3 + p)) (j * (2 * N) + q) *
        x (j * (2 * N) + q) := by
    intro b hb
    rw [show 4 * N = 2 * (2 * N) by ring, sum_blk]
  constructor
  · have r := row 0 (by omega)
    rw [zero_mul, zero_add] at r
    rw [r, Finset.sum_range_succ, Finset.sum_range_one, Finset.sum_eq_zero (s := Finset.range (2 * N)) (f := fun q =>
      S4.m.e ((i * 2 + a) * 3 + p) (1 * (2 * N) + q) * x (1 * (2 * N) + q)), add_zero, ← E3 x i hi a ha p hp]
    · refine Finset.sum_congr rfl fun q hq => ?_
      have := h4.blk.entry 0 0 _ q (by omega) (by omega) hlt (Finset.mem_range.mp hq)
      simp only [zero_mul, zero_add] at this ⊢
      rw [this]
      simp
    · intro q hq
      have := h4.blk.entry 0 1 _ q (by omega) (by omega) hlt (Finset.mem_range.mp hq)
      simp only [zero_mul, zero_add] at this ⊢
      rw [this]
      simp
  · have r := row 1 (by omega)
    rw [one_mul] at r
    rw [r, Finset.sum_range_succ, Finset.sum_range_one, Finset.sum_eq_zero (s := Finset.range (2 * N)) (f := fun q =>
      S4.m.e (6 * N + ((i * 2 + a) * 3 + p)) (0 * (2 * N) + q) * x (0 * (2 * N) + q)), zero_add, ← E3' _ i hi a ha p hp]
    · refine Finset.sum_congr rfl fun q hq => ?_
      have := h4.blk.entry 1 1 _ q (by omega) (by omega) hlt (Finset.mem_range.mp hq)
      simp only [one_mul] at this ⊢
      rw [this]
      simp
    · intro q hq
      have := h4.blk.entry 1 0 _ q (by omega) (by omega) hlt (Finset.mem_range.mp hq)
      simp only [one_mul] at this ⊢
      rw [this]
      simp

theorem updateVecS_ok (junk : ℕ → ℕ → K) {N : ℕ} {Uxs Uus Uxd Uud : BlockMat K} (hs : Sizes N Uxs Uus) (hd : Sizes N Uxd Uud)
    {base body : Vec K} (hb : base.n = 6) (hb' : body.n = 6) :
    ∃ s, updateVecS junk (12 * N) Uxs Uxd base body = .ok s ∧ s.n = 12 * N ∧ ∀ i < N, ∀ a < 2, ∀ p < 3,
      s.e ((i * 2 + a) * 3 + p) = stateTerm Uxs.m 3 3 (axis base a) i p ∧
      s.e (6 * N + ((i * 2 + a) * 3 + p)) = stateTerm Uxd.m 3 3 (axis body a) i p := by
  obtain ⟨u, hu, u1, u2⟩ := kronVec_ok (junk 0) (junk 1) hs.xbr hs.xbc (by omega) hs.xrows hs.xcols hb
  obtain ⟨v, hv, v1, v2⟩ := kronVec_ok (junk 2) (junk 3) hd.xbr hd.xbc (by omega) hd.xrows hd.xcols hb'
  unfold updateVecS
  rw [hu, ok_bind, hv, ok_bind, require_true (by omega), ok_bind]
  refine ⟨_, rfl, by show u.n + v.n = _; omega, ?_⟩
  intro i hi a ha p hp
  constructor
  · show (if (i * 2 + a) * 3 + p < u.n then _ else _) = _
    rw [if_pos (by omega), u2 i hi a ha p hp]
  · show (if 6 * N + ((i * 2 + a) * 3 + p) < u.n then _ else _) = _
    rw [if_neg (by omega), show 6 * N + ((i * 2 + a) * 3 + p) - u.n = (i * 2 + a) * 3 + p by omega, v2 i hi a ha p hp]

/-! ### Outputs -/

theorem BlkM.diag {D : BlockMat K} {intervals : List (Interval K)} {f : Interval K → Mat K} {h w : ℕ} (hh : 0 < h) (hw : 0 < w)
    (hD : BlkM D intervals.length intervals.length h w (diagE intervals f intervals.length)) :
    Whole D intervals.length intervals.length ∧ Diagonal D.m D.br D.bc := by
  refine ⟨⟨by rw [hD.br]; exact hh, by rw [hD.bc]; exact hw, by rw [hD.blk.rows, hD.br], by rw [hD.blk.cols, hD.bc]⟩, ?_⟩
  intro i j p q hij hi hj hp hq
  rw [hD.br] at hi hp ⊢
  rw [hD.bc] at hj hq ⊢
  rw [hD.blk.entry i j p q (blk_index hh hD.blk.rows hi) (blk_index hw hD.blk.cols hj) hp hq]
  unfold diagE
  rw [if_neg (by omega)]

/-- A row of the product with a block diagonal matrix. -/
theorem diag_row {D : BlockMat K} {intervals : List (Interval K)} {f : Interval K → Mat K} {h w : ℕ} (hh : 0 < h) (hw : 0 < w)
    (hD : BlkM D intervals.length intervals.length h w (diagE intervals f intervals.length)) {i p : ℕ} {iv : Interval K}
    (hiv : intervals[i]? = some iv) (hp : p < h) (g : ℕ → K) :
    ∑ k ∈ Finset.range D.m.cols, D.m.e (i * h + p) k * g k = ∑ l ∈ Finset.range w, (f iv).e p l * g (i * w + l) := by
  have hi : i < intervals.length := (List.getElem?_eq_some_iff.mp hiv).1
  obtain ⟨h1, h2⟩ := BlkM.diag hh hw hD
  have := diag_sum_right h1 h2 (f := g) hi (p := p) (by rw [hD.br]; exact hp)
  rw [hD.br, hD.bc] at this
  rw [this]
  refine Finset.sum_congr rfl fun l hl => ?_
  rw [hD.blk.entry i i p l hi hi hp (Finset.mem_range.mp hl), diagE_self f p l hi hiv]

theorem output_product {D : BlockMat K} {intervals : List (Interval K)} {f : Interval K → Mat K} (junk : ℕ → ℕ → K)
    (hD : BlkM D intervals.length intervals.length 1 3 (diagE intervals f intervals.length)) {U : Mat K}
    (h1 : U.rows = intervals.length * 3) : ∃ P, D.diagMultiplyRight junk U = .ok P ∧ P.rows = intervals.length ∧ P.cols = U.cols ∧
      ∀ (i : ℕ) iv, intervals[i]? = some iv → ∀ j < U.cols, P.e i j = ∑ l ∈ Finset.range 3, (f iv).e 0 l * U.e (i * 3 + l) j := by
  obtain ⟨g1, g2⟩ := BlkM.diag (by omega) (by omega) hD
  have hc : D.m.cols = intervals.length * 3 := hD.blk.cols
  have hr : D.m.rows = intervals.length := by rw [hD.blk.rows, mul_one]
  obtain ⟨P, hP, -, p2, p3, p4⟩ := diagMultiplyRight_ok junk g1 g2 (A := U) (by rw [h1, hc])
  refine ⟨P, hP, by rw [p2, hr], p3, ?_⟩
  intro i iv hiv j hj
  have hi : i < intervals.length := (List.getElem?_eq_some_iff.mp hiv).1
  rw [p4 i (by omega) j hj]
  have := diag_row (by omega) (by omega) hD hiv Nat.one_pos (fun k => U.e k j)
  rw [mul_one, add_zero] at this
  exact this

theorem outputVec_ok {D : BlockMat K} {intervals : List (Interval K)} {f : Interval K → Mat K} (junk : ℕ → ℕ → ℕ → K)
    (hD : BlkM D intervals.length intervals.length 1 3 (diagE intervals f intervals.length)) {Ux Uu : BlockMat K}
    (hs : Sizes intervals.length Ux Uu) {x : Vec K} (hx : x.n = 6) :
    ∃ y, outputVec junk D Ux x = .ok y ∧ y.n = 2 * intervals.length ∧ ∀ (i : ℕ) iv, intervals[i]? = some iv → ∀ a < 2,
      y.e (i * 2 + a) = ∑ l ∈ Finset.range 3, (f iv).e 0 l * stateTerm Ux.m 3 3 (axis x a) i l := by
  obtain ⟨P, hP, p1, p2, p3⟩ := output_product (junk 0) hD hs.xrows
  rw [hs.xcols] at p2 p3
  have hk := kron_ok (M := ⟨1, 3, P⟩) (nv := intervals.length) (nh := 1) ⟨by simp, by simp, by simp [p1], by simp [p2]⟩
  obtain ⟨y, hy, y1, y2⟩ := kronVec_ok (junk 1 0) (junk 2 0) (U := ⟨1, 3, P⟩) (N := intervals.length) (h := 1) rfl rfl (by omega)
    (by simp [p1]) p2 hx
  unfold outputVec
  rw [hP, ok_bind]
  unfold kronVec at hy
  refine ⟨y, hy, by rw [y1, mul_one], ?_⟩
  intro i iv hiv a ha
  have hi : i < intervals.length := (List.getElem?_eq_some_iff.mp hiv).1
  have := y2 i hi a ha 0 (by omega)
  rw [mul_one, add_zero] at this
  rw [this]
  unfold stateTerm
  simp only [mul_one, add_zero, Finset.mul_sum]
  rw [Finset.sum_comm]
  refine Finset.sum_congr rfl fun j hj => ?_
  rw [p3 i iv hiv j (Finset.mem_range.mp hj), Finset.sum_mul]
  exact Finset.sum_congr rfl fun l _ => by ring

theorem outputMat_ok {D : BlockMat K} {intervals : List (Interval K)} {f : Interval K → Mat K} (junk : ℕ → ℕ → K)
    (hD : BlkM D intervals.length intervals.length 1 3 (diagE intervals f intervals.length)) {Ux Uu : BlockMat K}
    (hs : Sizes intervals.length Ux Uu) :
    ∃ E, outputMat junk D Uu = .ok E ∧ E.rows = 2 * intervals.length ∧ E.cols = 2 * intervals.length ∧
      ∀ (x : ℕ → K) (i : ℕ) iv, intervals[i]? = some iv → ∀ a < 2,
      ∑ c ∈ Finset.range (2 * intervals.length), E.e (i * 2 + a) c * x c =
        ∑ l ∈ Finset.range 3, (f iv).e 0 l * controlTerm Uu.m 3 1 intervals.length (ctrl x a) i l := by
  obtain ⟨P, hP, p1, p2, p3⟩ := output_product junk hD hs.urows
  rw [hs.ucols] at p2 p3
  have hL : LowerTriangular P 1 1 := by
    intro i j p q hij hi hj hp hq
    have hp' : p = 0 := by omega
    have hq' : q = 0 := by omega
    subst p q
    rw [mul_one, mul_one, add_zero, add_zero]
    have hi' : i < intervals.length := by omega
    rw [p3 i _ (List.getElem?_eq_getElem hi') j (by omega)]
    refine Finset.sum_eq_zero fun l hl => ?_
    have := hs.lower i j l 0 hij (by rw [hs.urows]; omega) (by rw [hs.ucols]; omega) (Finset.mem_range.mp hl) (by omega)
    rw [mul_one, add_zero] at this
    rw [this, mul_zero]
  have hk := kron_ok (M := ⟨1, 1, P⟩) (nv := intervals.length) (nh := intervals.length)
    ⟨by simp, by simp, by simp [p1], by simp [p2]⟩
  obtain ⟨E, hE, -, e1, e2, e3⟩ := kron1LLT_ok (U := ⟨1, 1, P⟩) rfl rfl p1 p2 hL
  unfold outputMat
  rw [hP, ok_bind]
  unfold BlockMat.kron at hk
  rw [hk, ok_bind]
  refine ⟨E, hE, e1, e2, ?_⟩
  intro x i iv hiv a ha
  have hi : i < intervals.length := (List.getElem?_eq_some_iff.mp hiv).1
  rw [e3 x i hi a ha]
  unfold controlTerm
  simp only [Finset.sum_range_one, mul_one, add_zero, Finset.mul_sum]
  rw [Finset.sum_comm]
  refine Finset.sum_congr rfl fun j hj => ?_
  rw [p3 i iv hiv j (Finset.mem_range.mp hj), Finset.sum_mul]
  exact Finset.sum_congr rfl fun l _ => by ring

theorem updateSp_ok {Dps Dpd : BlockMat K} {intervals : List (Interval K)} {f g : Interval K → Mat K} (junk : ℕ → ℕ → ℕ → ℕ → K)
    (hD : BlkM Dps intervals.length intervals.length 1 3 (diagE intervals f intervals.length))
    (hD' : BlkM Dpd intervals.length intervals.length 1 3 (diagE intervals g intervals.length)) {Uxs Uus Uxd Uud : BlockMat K}
    (hs : Sizes intervals.length Uxs Uus) (hd : Sizes intervals.length Uxd Uud) {base body : Vec K} (hb : base.n = 6)
    (hb' : body.n = 6) :
    ∃ y, updateSp junk Dps Dpd Uxs Uxd base body = .ok y ∧ y.n = 2 * intervals.length ∧
      ∀ (i : ℕ) iv, intervals[i]? = some iv → ∀ a < 2, y.e (i * 2 + a) =
        ∑ l ∈ Finset.range 3, (f iv).e 0 l * stateTerm Uxs.m 3 3 (axis base a) i l +
        ∑ l ∈ Finset.range 3, (g iv).e 0 l * stateTerm Uxd.m 3 3 (axis body a) i l := by
  obtain ⟨u, hu, u1, u2⟩ := outputVec_ok (junk 0) hD hs hb
  obtain ⟨v, hv, v1, v2⟩ := outputVec_ok (junk 1) hD' hd hb'
  unfold updateSp
  rw [hu, ok_bind, hv, ok_bind]
  refine ⟨_, if_pos (by rw [u1, v1]), u1, ?_⟩
  intro i iv hiv a ha
  show u.e _ + v.e _ = _
  rw [u2 i iv hiv a ha, v2 i iv hiv a ha]

theorem sum_two (n : ℕ) (f : ℕ → K) : ∑ c ∈ Finset.range (4 * n), f c =
    ∑ c ∈ Finset.range (2 * n), f c + ∑ c ∈ Finset.range (2 * n), f (2 * n + c) := by
  rw [show 4 * n = 2 * n + 2 * n by ring, Finset.sum_range_add]

theorem updateAp_ok {Dps Dpd : BlockMat K} {intervals : List (Interval K)} {f g : Interval K → Mat K} (junk : ℕ → ℕ → ℕ → K)
    (hD : BlkM Dps intervals.length intervals.length 1 3 (diagE intervals f intervals.length))
    (hD' : BlkM Dpd intervals.length intervals.length 1 3 (diagE intervals g intervals.length)) {Uxs Uus Uxd Uud : BlockMat K}
    (hs : Sizes intervals.length Uxs Uus) (hd : Sizes intervals.length Uxd Uud) :
    ∃ A, updateAp junk intervals.length (4 * intervals.length) Dps Dpd Uus Uud = .ok A ∧ A.rows = 2 * intervals.length ∧
      A.cols = 4 * intervals.length ∧ ∀ (x : ℕ → K) (i : ℕ) iv, intervals[i]? = some iv → ∀ a < 2,
      ∑ c ∈ Finset.range (4 * intervals.length), A.e (i * 2 + a) c * x c =
        ∑ l ∈ Finset.range 3, (f iv).e 0 l * controlTerm Uus.m 3 1 intervals.length (ctrl x a) i l +
        ∑ l ∈ Finset.range 3, (g iv).e 0 l *
          controlTerm Uud.m 3 1 intervals.length (ctrl (fun c => x (2 * intervals.length + c)) a) i l := by
  obtain ⟨u, hu, u1, u2, u3⟩ := outputMat_ok (junk 1) hD hs
  obtain ⟨v, hv, v1, v2, v3⟩ := outputMat_ok (junk 2) hD' hd
  unfold updateAp
  rw [show 4 * intervals.length / 2 = 2 * intervals.length by omega,
    show 4 * intervals.length - 2 * intervals.length = 2 * intervals.length by omega]
  simp only
  rw [hu, ok_bind, Mat.setBlock_ok (by simp) (by simp; omega) u1 u2, ok_bind, hv, ok_bind,
    Mat.setBlock_ok (by simp) (by simp; omega) v1 v2]
  refine ⟨_, rfl, rfl, rfl, ?_⟩
  intro x i iv hiv a ha
  have hi : i < intervals.length := (List.getElem?_eq_some_iff.mp hiv).1
  rw [sum_two, ← u3 x i iv hiv a ha, ← v3 _ i iv hiv a ha]
  congr 1
  · refine Finset.sum_congr rfl fun c hc => ?_
    have := Finset.mem_range.mp hc
    congr 1
    simp only
    rw [if_neg (by omega), if_pos (by omega)]
    simp
  · refine Finset.sum_congr rfl fun c hc => ?_
    have := Finset.mem_range.mp hc
    congr 1
    simp only
    rw [if_pos (by omega)]
    simp

/-! ### Rotated difference of positions -/

/-- The transposed rotation matrix of an interval. -/
def rotT (iv : Interval K) : Mat K := ofMatrix2 iv.rotation.transpose 0

theorem rotT_e (iv : Interval K) (a b : Fin 2) : (rotT iv).e a b = iv.rotation b a := dif_pos ⟨a.2, b.2⟩

theorem updateSpd_ok {R : BlockMat K} {intervals : List (Interval K)} (junk : ℕ → ℕ → ℕ → K) (hN : 0 < intervals.length)
    (hR : BlkM R intervals.length intervals.length 2 2 (diagE intervals rotT intervals.length)) {Uxs Uus Uxd Uud : BlockMat K}
    (hs : Sizes intervals.length Uxs Uus) (hd : Sizes intervals.length Uxd Uud) {base body : Vec K} (hb : base.n = 6)
    (hb' : body.n = 6) :
    ∃ y, updateSpd junk R Uxs Uxd base body = .ok y ∧ y.n = 2 * intervals.length ∧
      ∀ (i : ℕ) iv, intervals[i]? = some iv → ∀ a < 2, y.e (i * 2 + a) =
        ∑ b ∈ Finset.range 2, (rotT iv).e a b *
          (stateTerm Uxs.m 3 3 (axis base b) i 0 - stateTerm Uxd.m 3 3 (axis body b) i 0) := by
  obtain ⟨u, hu, u1, u2⟩ := rowVec_ok (junk 0) hs.xbr hs.xbc hs.xrows hs.xcols (row := 0) (by omega) hN hb
  obtain ⟨v, hv, v1, v2⟩ := rowVec_ok (junk 1) hd.xbr hd.xbc hd.xrows hd.xcols (row := 0) (by omega) hN hb'
  obtain ⟨g1, g2⟩ := BlkM.diag (by omega) (by omega) hR
  have hc : R.m.cols = intervals.length * 2 := hR.blk.cols
  have hr : R.m.rows = intervals.length * 2 := hR.blk.rows
  have hsub : u.sub v = .ok ⟨u.n, fun i => u.e i - v.e i⟩ := if_pos (by rw [u1, v1])
  obtain ⟨P, hP, -, p2, p3, p4⟩ := diagMultiplyRight_ok (junk 2) g1 g2 (A := Vec.toMat ⟨u.n, fun i => u.e i - v.e i⟩)
    (by rw [hc]; show u.n = _; rw [u1]; ring)
  unfold updateSpd
  rw [hu, ok_bind, hv, ok_bind, hsub, ok_bind, hP, ok_bind]
  unfold Mat.toVec
  rw [require_true (by rw [p3]; rfl), ok_bind]
  refine ⟨_, rfl, by show P.rows = _; rw [p2, hr]; ring, ?_⟩
  intro i iv hiv a ha
  have hi : i < intervals.length := (List.getElem?_eq_some_iff.mp hiv).1
  show P.e (i * 2 + a) 0 = _
  rw [p4 (i * 2 + a) (by rw [hr]; omega) 0 (by show 0 < 1; omega)]
  refine (diag_row (by omega) (by omega) hR hiv ha (fun k => u.e k - v.e k)).trans ?_
  refine Finset.sum_congr rfl fun b hb => ?_
  rw [u2 i hi b (Finset.mem_range.mp hb), v2 i hi b (Finset.mem_range.mp hb)]

theorem rotatedMat_ok {R : BlockMat K} {intervals : List (Interval K)} (hN : 0 < intervals.length)
    (hR : BlkM R intervals.length intervals.length 2 2 (diagE intervals rotT intervals.length)) {Ux Uu : BlockMat K}
    (hs : Sizes intervals.length Ux Uu) :
    ∃ E, rotatedMat R Uu = .ok E ∧ E.rows = 2 * intervals.length ∧ E.cols = 2 * intervals.length ∧
      ∀ (x : ℕ → K) (i : ℕ) iv, intervals[i]? = some iv → ∀ a < 2,
      ∑ c ∈ Finset.range (2 * intervals.length), E.e (i * 2 + a) c * x c =
        ∑ b ∈ Finset.range 2, (rotT iv).e a b * controlTerm Uu.m 3 1 intervals.length (ctrl x b) i 0 := by
  obtain ⟨m, hm, m1, m2, m3⟩ := selectRowInBlocks_ok (nh := intervals.length) hs.ubr hs.ubc (by omega) hs.urows
    (by rw [hs.ucols, mul_one]) (row := 0) (by omega) hN
  rw [mul_one] at m2
  have m3' : ∀ i < intervals.length, ∀ j < intervals.length, m.e i j = Uu.m.e (i * 3 + 0) j :=
    fun i hi j hj => m3 i hi j (by omega)
  have hL := selected_triangular hs.urows hs.ucols (by omega) hs.lower m1 m2 m3'
  have hw : Whole (⟨1, 1, m⟩ : BlockMat K) intervals.length intervals.length := ⟨by simp, by simp, by simp [m1], by simp [m2]⟩
  obtain ⟨E, hE, hk, e1, e2, e3⟩ := kron1LLT_ok (U := ⟨1, 1, m⟩) rfl rfl m1 m2 hL
  obtain ⟨g1, g2⟩ := BlkM.diag (by omega) (by omega) hR
  have hc : R.m.cols = intervals.length * 2 := hR.blk.cols
  have hr : R.m.rows = intervals.length * 2 := hR.blk.rows
  obtain ⟨P, hP, p1, p2, p3, p4⟩ := multiplyLeft1LLT_ok (X := ⟨⟨1, 1, m⟩, 2⟩) (⟨0, 0, fun _ _ => 0⟩ : Mat K) hw rfl rfl g1 hR.br
    hR.bc (by simp) (by simp) hL g2 hk
  unfold rotatedMat
  rw [hm, ok_bind, kron_ok hw, ok_bind]
  refine ⟨P, hP, by rw [p2, hr]; ring, by rw [p3, e2], ?_⟩
  intro x i iv hiv a ha
  have hi : i < intervals.length := (List.getElem?_eq_some_iff.mp hiv).1
  have step : ∀ c ∈ Finset.range (2 * intervals.length), P.e (i * 2 + a) c * x c =
      ∑ b ∈ Finset.range 2, (rotT iv).e a b * (E.e (i * 2 + b) c * x c) := by
    intro c hcc
    rw [p4 (i * 2 + a) (by rw [hr]; omega) c (by rw [e2]; exact Finset.mem_range.mp hcc),
      diag_row (by omega) (by omega) hR hiv ha (fun k => E.e k c), Finset.sum_mul]
    exact Finset.sum_congr rfl fun b _ => by ring
  rw [Finset.sum_congr rfl step, Finset.sum_comm]
  refine Finset.sum_congr rfl fun b hb => ?_
  rw [← Finset.mul_sum, e3 x i hi b (Finset.mem_range.mp hb), controlTerm_selected m3' _ hi]

theorem updateApd_ok {R : BlockMat K} {intervals : List (Interval K)} (hN : 0 < intervals.length)
    (hR : BlkM R intervals.length intervals.length 2 2 (diagE intervals rotT intervals.length)) {Uxs Uus Uxd Uud : BlockMat K}
    (hs : Sizes intervals.length Uxs Uus) (hd : Sizes intervals.length Uxd Uud) :
    ∃ A, updateApd intervals.length (4 * intervals.length) R Uus Uud = .ok A ∧ A.rows = 2 * intervals.length ∧
      A.cols = 4 * intervals.length ∧ ∀ (x : ℕ → K) (i : ℕ) iv, intervals[i]? = some iv → ∀ a < 2,
      ∑ c ∈ Finset.range (4 * intervals.length), A.e (i * 2 + a) c * x c =
        ∑ b ∈ Finset.range 2, (rotT iv).e a b * (controlTerm Uus.m 3 1 intervals.length (ctrl x b) i 0 -
          controlTerm Uud.m 3 1 intervals.length (ctrl (fun c => x (2 * intervals.length + c)) b) i 0) := by
  obtain ⟨u, hu, u1, u2, u3⟩ := rotatedMat_ok hN hR hs
  obtain ⟨v, hv, v1, v2, v3⟩ := rotatedMat_ok hN hR hd
  unfold updateApd
  rw [hu, ok_bind, hv, ok_bind]
  unfold Mat.commaHor
  rw [require_true ⟨u1, v1, by rw [u2]; show _ + v.cols = _; rw [v2]; ring⟩, ok_bind]
  refine ⟨_, rfl, rfl, rfl, ?_⟩
  intro x i iv hiv a ha
  rw [sum_two]
  simp only [mul_sub, Finset.sum_sub_distrib]
  rw [← u3 x i iv hiv a ha, ← v3 _ i iv hiv a ha, sub_eq_add_neg, ← Finset.sum_neg_distrib]
  congr 1
  · refine Finset.sum_congr rfl fun c hc => ?_
    have := Finset.mem_range.mp hc
    show (if _ then _ else _) * _ = _
    rw [if_pos (by omega)]
  · refine Finset.sum_congr rfl fun c hc => ?_
    have := Finset.mem_range.mp hc
    show (if _ then _ else _) * _ = _
    rw [if_neg (by omega), u2, Nat.add_sub_cancel_left]
    show -v.e _ _ * _ = _
    ring

/-! ### Trajectories -/

theorem SystemsOf.base_trajectory {intervals : List (Interval K)} {y : Systems K} (hy : SystemsOf intervals intervals.length y)
    (hT : ∀ iv ∈ intervals, iv.T ≠ 0) {x0 : Vec K} {x : ℕ → K} {X : ℕ → Vec K} (hX : Simulates intervals x0 x X) {a : ℕ}
    (ha : a < 2) : Trajectory y.As y.Bs 3 1 (fun k l => (X k).e (3 * a + l)) (ctrl x a) := by
  intro k A B hA hB i hi
  have hk : k < intervals.length := by rw [← hy.As.1]; exact (List.getElem?_eq_some_iff.mp hA).1
  have hiv : intervals[k]? = some intervals[k] := List.getElem?_eq_getElem hk
  have hT' := hT intervals[k] (List.getElem_mem hk)
  generalize intervals[k] = iv at hiv hT'
  obtain ⟨A', hA', eA⟩ := hy.As.2 k iv hk hiv
  obtain ⟨B', hB', eB⟩ := hy.Bs.2 k iv hk hiv
  rw [hA] at hA'; cases hA'
  rw [hB] at hB'; cases hB'
  have rA : ∀ j < 3, A.e i j = (baseA iv).e i j := fun j hj => eA.2.2 i (by rw [eA.1]; exact hi) j (by rw [eA.2.1]; exact hj)
  have rB : B.e i 0 = (baseB iv).e i 0 := eB.2.2 i (by rw [eB.1]; exact hi) 0 (by rw [eB.2.1]; exact Nat.one_pos)
  obtain ⟨-, -, -, h1, -⟩ := hX.2 k iv hiv
  obtain ⟨j, hv, hp, hv', ha'⟩ := h1 a ha
  have hu : (controlAt intervals.length x k).e a = ctrl x a k 0 := by
    have : a = 0 ∨ a = 1 := by omega
    rcases this with rfl | rfl
    · show x (2 * k) = x (k * 2 + 0); congr 1; omega
    · show x (2 * k + 1) = x (k * 2 + 1); congr 1; omega
  have hj : j = 2 / (iv.T * iv.T) * (ctrl x a k 0 - (X k).e (3 * a + 1) - iv.T * (X k).e (3 * a + 2)) := by
    rw [← hu, ← hv]
    unfold velocityAt
    field_simp
    ring
  simp only [Finset.sum_range_succ, Finset.sum_range_zero, zero_add]
  rw [rA 0 (by omega), rA 1 (by omega), rA 2 (by omega), rB]
  unfold positionAt at hp
  unfold velocityAt at hv'
  unfold accelerationAt at ha'
  have hi' : i = 0 ∨ i = 1 ∨ i = 2 := by omega
  rcases hi' with rfl | rfl | rfl
  · rw [add_zero, hp, hj]
    simp only [baseA, baseB, Mat.ofRows, List.getD_cons_zero, List.getD_cons_succ]
    field_simp
    ring
  · rw [hv', hj]
    simp only [baseA, baseB, Mat.ofRows, List.getD_cons_zero, List.getD_cons_succ]
    field_simp
    ring
  · rw [ha', hj]
    simp only [baseA, baseB, Mat.ofRows, List.getD_cons_zero, List.getD_cons_succ]
    field_simp
    ring

theorem SystemsOf.body_trajectory {intervals : List (Interval K)} {y : Systems K} (hy : SystemsOf intervals intervals.length y)
    {x0 : Vec K} {x : ℕ → K} {X : ℕ → Vec K} (hX : Simulates intervals x0 x X) {a : ℕ}
    (ha : a < 2) : Trajectory y.Ad y.Bd 3 1 (fun k l => (X k).e (3 * (a + 2) + l))
      (ctrl (fun c => x (2 * intervals.length + c)) a) := by
  intro k A B hA hB i hi
  have hk : k < intervals.length := by rw [← hy.Ad.1]; exact (List.getElem?_eq_some_iff.mp hA).1
  have hiv : intervals[k]? = some intervals[k] := List.getElem?_eq_getElem hk
  generalize intervals[k] = iv at hiv
  obtain ⟨A', hA', eA⟩ := hy.Ad.2 k iv hk hiv
  obtain ⟨B', hB', eB⟩ := hy.Bd.2 k iv hk hiv
  rw [hA] at hA'; cases hA'
  rw [hB] at hB'; cases hB'
  have rA : ∀ j < 3, A.e i j = (bodyA iv).e i j := fun j hj => eA.2.2 i (by rw [eA.1]; exact hi) j (by rw [eA.2.1]; exact hj)
  have rB : B.e i 0 = (bodyB iv).e i 0 := eB.2.2 i (by rw [eB.1]; exact hi) 0 (by rw [eB.2.1]; exact Nat.one_pos)
  obtain ⟨-, -, -, -, h1⟩ := hX.2 k iv hiv
  obtain ⟨hp, hv', ha'⟩ := h1 (a + 2) (by omega) (by omega)
  have hu : (controlAt intervals.length x k).e (a + 2) = ctrl (fun c => x (2 * intervals.length + c)) a k 0 := by
    have : a = 0 ∨ a = 1 := by omega
    rcases this with rfl | rfl
    · show x (2 * intervals.length + 2 * k) = x (2 * intervals.length + (k * 2 + 0)); congr 1; omega
    · show x (2 * intervals.length + 2 * k + 1) = x (2 * intervals.length + (k * 2 + 1)); congr 1; omega
  rw [hu] at hp hv' ha'
  simp only [Finset.sum_range_succ, Finset.sum_range_zero, zero_add]
  rw [rA 0 (by omega), rA 1 (by omega), rA 2 (by omega), rB]
  unfold positionAt at hp
  unfold velocityAt at hv'
  unfold accelerationAt at ha'
  have hi' : i = 0 ∨ i = 1 ∨ i = 2 := by omega
  rcases hi' with rfl | rfl | rfl
  · rw [add_zero, hp]
    simp only [bodyA, bodyB, Mat.ofRows, List.getD_cons_zero, List.getD_cons_succ]
    ring
  · rw [hv']
    simp only [bodyA, bodyB, Mat.ofRows, List.getD_cons_zero, List.getD_cons_succ]
    ring
  · rw [ha']
    simp only [bodyA, bodyB, Mat.ofRows, List.getD_cons_zero, List.getD_cons_succ]
    ring

/-! ### All matrices -/

theorem axis_base (model : Model K) {a : ℕ} (ha : a < 2) {l : ℕ} (hl : l < 3) :
    axis (Model.getMPCBaseState model.state) a l = model.getMPCState.e (3 * a + l) := by
  show _ = (if 3 * a + l < 6 then (Model.getMPCBaseState model.state).e (3 * a + l) else _)
  rw [if_pos (by omega)]
  unfold axis
  congr 1; ring

theorem axis_body (model : Model K) {a : ℕ} (ha : a < 2) {l : ℕ} (hl : l < 3) :
    axis (Model.getMPCBodyState model.state) a l = model.getMPCState.e (3 * (a + 2) + l) := by
  show _ = (if 3 * (a + 2) + l < 6 then _ else (Model.getMPCBodyState model.state).e (3 * (a + 2) + l - 6))
  rw [if_neg (by omega)]
  unfold axis
  congr 1; omega

theorem stateTerm_congr {S : Mat K} {h ns : ℕ} {x y : ℕ → K} (hxy : ∀ l < ns, x l = y l) (k i : ℕ) :
    stateTerm S h ns x k i = stateTerm S h ns y k i := by
  unfold stateTerm
  exact Finset.sum_congr rfl fun l hl => by rw [hxy l (Finset.mem_range.mp hl)]

theorem updateMatrices_ok (junk : ℕ → ℕ → ℕ → ℕ → K) {intervals : List (Interval K)} {oldS : Mat K} (model : Model K)
    (hN : 0 < intervals.length) (hT : ∀ iv ∈ intervals, iv.T ≠ 0)
    (hr : oldS.rows % (6 * intervals.length) = 0) (hc : oldS.cols % (2 * intervals.length) = 0) :
    ∃ m, updateMatrices junk intervals.length intervals oldS model = .ok m ∧ m.solution = solutionStructure intervals.length ∧
      MpcMatrices intervals model.getMPCState m := by
  obtain ⟨R, eR, hR⟩ := formRotationMatrices_ok intervals
  have hR : BlkM R intervals.length intervals.length 2 2 (diagE intervals rotT intervals.length) := hR
  obtain ⟨y, ey, hy⟩ := systems_ok intervals
  have lAs := hy.As.1
  have lAd := hy.Ad.1
  obtain ⟨Uxs, Uus, e1, a1, a2, a3, a4, hs⟩ := condense_ok (junk 0 0) (A := y.As) (B := y.Bs) (ns := 3) (nu := 1)
    (S0 := ⟨3, 3, ⟨0, 0, fun _ _ => 0⟩⟩) (U0 := ⟨3, 1, ⟨0, 0, fun _ _ => 0⟩⟩) (by omega) (by rw [hy.As.1, hy.Bs.1])
    (hy.As.allSize rfl (fun _ => rfl) (fun _ => rfl)) (hy.Bs.allSize rfl (fun _ => rfl) (fun _ => rfl)) (by omega) (by omega)
    rfl rfl rfl rfl
  obtain ⟨Uxd, Uud, e2, b1, b2, b3, b4, hd⟩ := condense_ok (junk 0 1) (A := y.Ad) (B := y.Bd) (ns := 3) (nu := 1)
    (S0 := ⟨3, 3, ⟨0, 0, fun _ _ => 0⟩⟩) (U0 := ⟨3, 1, ⟨0, 0, fun _ _ => 0⟩⟩) (by omega) (by rw [hy.Ad.1, hy.Bd.1])
    (hy.Ad.allSize rfl (fun _ => rfl) (fun _ => rfl)) (hy.Bd.allSize rfl (fun _ => rfl) (fun _ => rfl)) (by omega) (by omega)
    rfl rfl rfl rfl
  obtain ⟨Ox, Ou, e3, c1, c2, c3, c4, hO⟩ := condenseOutput_ok' (junk 0 2) (A := y.As) (B := y.Bs) (D := y.Djs) (E := y.Ejs)
    (ns := 3) (nu := 1) (ny := 1) (Ox0 := ⟨1, 3, ⟨0, 0, fun _ _ => 0⟩⟩) (Ou0 := ⟨1, 1, ⟨0, 0, fun _ _ => 0⟩⟩) (by omega)
    (by omega) (by omega) (by omega) a1 a2 a3 a4 hs rfl rfl rfl rfl (by rw [hy.Djs.1, lAs]) (by rw [hy.Ejs.1, lAs])
    (hy.Djs.allSize rfl (fun _ => rfl) (fun _ => rfl)) (hy.Ejs.allSize rfl (fun _ => rfl) (fun _ => rfl))
  have zs := sizes_of_condensed a1 a2 a3 a4 hs
  have zd := sizes_of_condensed b1 b2 b3 b4 hd
  have lO := condensedOutput_lower hO (by rw [hy.Djs.1, lAs]) (by rw [hy.Ejs.1, lAs])
  have o1 := hO.rowsOx
  have o2 := hO.colsOx
  have o3 := hO.rowsOu
  have o4 := hO.colsOu
  rw [lAs] at zs o1 o3 o4
  rw [lAd] at zd
  rw [mul_one] at o3 o4
  have hb : (Model.getMPCBaseState model.state).n = 6 := rfl
  have hb' : (Model.getMPCBodyState model.state).n = 6 := rfl
  obtain ⟨S, f1, S1, S2, S3⟩ := updateS_ok (junk 0 3) hN zs zd hr hc
  obtain ⟨s, f2, s1, s2⟩ := updateVecS_ok (junk 0 4) zs zd hb hb'
  obtain ⟨sp, f3, sp1, sp2⟩ := updateSp_ok (fun k => junk (k + 1)) hy.Dps hy.Dpd zs zd hb hb'
  obtain ⟨Ap, f4, Ap1, Ap2, Ap3⟩ := updateAp_ok (junk 3) hy.Dps hy.Dpd zs zd
  obtain ⟨sas, f5, sas1, sas2⟩ := rowVec_ok (junk 4 0) zs.xbr zs.xbc zs.xrows zs.xcols (row := 2) (by omega) hN hb
  obtain ⟨Aas, f6, Aas1, Aas2, Aas3⟩ := rowMat_ok zs.ubr zs.ubc zs.urows zs.ucols (row := 2) (by omega) hN zs.lower
  obtain ⟨sps, f7, sps1, sps2⟩ := rowVec_ok (junk 4 1) zs.xbr zs.xbc zs.xrows zs.xcols (row := 0) (by omega) hN hb
  obtain ⟨Aps, f8, Aps1, Aps2, Aps3⟩ := rowMat_ok zs.ubr zs.ubc zs.urows zs.ucols (row := 0) (by omega) hN zs.lower
  obtain ⟨spd, f9, spd1, spd2⟩ := updateSpd_ok (junk 5) hN hR zs zd hb hb'
  obtain ⟨Apd, f10, Apd1, Apd2, Apd3⟩ := updateApd_ok hN hR zs zd
  obtain ⟨sjs, f11, sjs1, sjs2⟩ := kronVec_ok (junk 6 0 0) (junk 6 0 1) c1 c2 (by omega) (by rw [o1]) o2 hb
  obtain ⟨Ajs, f12, -, Ajs1, Ajs2, Ajs3⟩ := kron1LLT_ok c3 c4 o3 o4 lO
  have hk := kron_ok (M := Ou) (nv := intervals.length) (nh := intervals.length)
    ⟨by rw [c3]; omega, by rw [c4]; omega, by rw [c3, o3, mul_one], by rw [c4, o4, mul_one]⟩
  have hv : (solutionStructure intervals.length).nvars = 4 * intervals.length := by
    show 0 + intervals.length * 2 + intervals.length * 2 = _
    ring
  unfold updateMatrices
  simp only [numStates, hv]
  rw [eR, ok_bind, ey, ok_bind, e1, ok_bind]
  simp only
  rw [e2, ok_bind]
  simp only
  rw [e3, ok_bind]
  simp only
  rw [f1, ok_bind, f2, ok_bind, f3, ok_bind, f4, ok_bind, f5, ok_bind, f6, ok_bind, f7, ok_bind, f8, ok_bind, f9, ok_bind, f10,
    ok_bind, f11, ok_bind, hk, ok_bind, f12, ok_bind]
  refine ⟨_, rfl, rfl, ?_⟩
  have pred : ∀ {x X}, Simulates intervals model.getMPCState x X → ∀ i < intervals.length, ∀ a < 2, ∀ p < 3,
      stateTerm Uxs.m 3 3 (axis (Model.getMPCBaseState model.state) a) i p +
        controlTerm Uus.m 3 1 intervals.length (ctrl x a) i p = (X (i + 1)).e (3 * a + p) ∧
      stateTerm Uxd.m 3 3 (axis (Model.getMPCBodyState model.state) a) i p +
        controlTerm Uud.m 3 1 intervals.length (ctrl (fun c => x (2 * intervals.length + c)) a) i p =
        (X (i + 1)).e (3 * (a + 2) + p) := by
    intro x X hX i hi a ha p hp
    have g1 := hs.states _ _ (hy.base_trajectory hT hX ha) i (by rw [lAs]; exact hi) p hp
    have g2 := hd.states _ _ (hy.body_trajectory hX ha) i (by rw [lAd]; exact hi) p hp
    rw [lAs] at g1
    rw [lAd] at g2
    simp only [hX.1] at g1 g2
    constructor
    · rw [← g1, stateTerm_congr (fun l hl => axis_base model ha hl)]
    · rw [← g2, stateTerm_congr (fun l hl => axis_body model ha hl)]
  refine ⟨S2, s1, Ap2, sp1, Ajs2, sjs1.trans (by ring), Aas2, sas1, Aps2, sps1, Apd2, spd1, S1, Ap1, Ajs1, Aas1, Aps1, Apd1,
    hR.blk.rows, hR.blk.cols, ?_, ?_, ?_, ?_, ?_, ?_, ?_⟩
  · intro k iv hiv a b
    have hk : k < intervals.length := (List.getElem?_eq_some_iff.mp hiv).1
    have := hR.blk.entry k k a b hk hk a.2 b.2
    rw [diagE_self rotT _ _ hk hiv, mul_comm k 2] at this
    show R.m.e _ _ = _
    rw [this, rotT_e]
  · intro x X hX k hk i hi
    obtain ⟨a, p, ha, hp, rfl⟩ := exists_blk (h := 3) (n := 2) hi
    obtain ⟨p1, p2⟩ := pred hX k hk a ha p hp
    obtain ⟨r1, r2⟩ := S3 x k hk a ha p hp
    obtain ⟨q1, q2⟩ := s2 k hk a ha p hp
    unfold AffineRow
    simp only [S2]
    rw [show 6 * k + (a * 3 + p) = (k * 2 + a) * 3 + p by ring,
      show 6 * intervals.length + 6 * k + (a * 3 + p) = 6 * intervals.length + ((k * 2 + a) * 3 + p) by ring,
      r1, r2, q1, q2, add_comm (controlTerm _ _ _ _ _ _ _), p1, add_comm (controlTerm _ _ _ _ _ _ _), p2]
    constructor <;> congr 1 <;> ring
  · intro x X hX k iv hiv hm a ha
    have hk : k < intervals.length := (List.getElem?_eq_some_iff.mp hiv).1
    have t0 := pred hX k hk a ha 0 (by omega)
    have t1 := pred hX k hk a ha 1 (by omega)
    have t2 := pred hX k hk a ha 2 (by omega)
    unfold AffineRow
    simp only [Ap2]
    rw [mul_comm 2 k, Ap3 x k iv hiv a ha, sp2 k iv hiv a ha]
    unfold intervalCop
    rw [show 3 * a = 3 * a + 0 from rfl, show 3 * (a + 2) = 3 * (a + 2) + 0 from rfl, ← t0.1, ← t0.2]
    simp only [add_zero]
    rw [← t2.1, ← t2.2]
    simp only [Finset.sum_range_succ, Finset.sum_range_zero, zero_add, copS, copD, getDps3, getDpd3, gravity, Mat.ofRows,
      List.getD_cons_zero, List.getD_cons_succ]
    field_simp
    ring
  · intro x X hX k iv hiv a ha
    have hk : k < intervals.length := (List.getElem?_eq_some_iff.mp hiv).1
    have hT' := hT iv (List.mem_of_getElem? hiv)
    obtain ⟨d, hd1, hd2⟩ := hy.Djs.2 k iv hk hiv
    obtain ⟨e, he1, he2⟩ := hy.Ejs.2 k iv hk hiv
    have g := hO.outputs _ _ (hy.base_trajectory hT hX ha) k d e hd1 he1 0 (by omega)
    rw [lAs] at g
    simp only [hX.1] at g
    have q := sjs2 k hk a ha 0 (by omega)
    rw [mul_one, add_zero] at q
    refine ⟨_, rfl, ?_⟩
    simp only [Ajs2]
    rw [mul_comm 2 k, Ajs3 x k hk a ha, q, add_comm (controlTerm _ _ _ _ _ _ _), stateTerm_congr (fun l hl => axis_base model ha hl), g]
    unfold output velocityAt ctrl
    simp only [Finset.sum_range_succ, Finset.sum_range_zero, zero_add]
    have rd : ∀ j < 3, d.e 0 j = (jerkD iv).e 0 j := fun j hj =>
      hd2.2.2 0 (by rw [hd2.1]; exact Nat.one_pos) j (by rw [hd2.2.1]; exact hj)
    have re : e.e 0 0 = (jerkE iv).e 0 0 := he2.2.2 0 (by rw [he2.1]; exact Nat.one_pos) 0 (by rw [he2.2.1]; exact Nat.one_pos)
    rw [rd 0 (by omega), rd 1 (by omega), rd 2 (by omega), re]
    have hE : (jerkE iv).e 0 0 = 2 / (iv.T * iv.T) := by
      simp [jerkE, getEjs3, TripleIntegrator.getEVel, TripleIntegrator.scaledIdentity, Mat.ofRows]
    rw [hE]
    simp only [jerkD, Mat.ofRows, List.getD_cons_zero, List.getD_cons_succ]
    field_simp
    ring
  · intro x X hX k hk a ha
    unfold AffineRow
    simp only [Aas2]
    rw [mul_comm 2 k, Aas3 x k hk a ha, sas2 k hk a ha, add_comm, (pred hX k hk a ha 2 (by omega)).1]
  · intro x X hX k hk a ha
    unfold AffineRow
    simp only [Aps2]
    rw [mul_comm 2 k, Aps3 x k hk a ha, sps2 k hk a ha, add_comm, (pred hX k hk a ha 0 (by omega)).1]
    rfl
  · intro x X hX k iv hiv a
    have hk : k < intervals.length := (List.getElem?_eq_some_iff.mp hiv).1
    have t0 := pred hX k hk 0 (by omega) 0 (by omega)
    have t1 := pred hX k hk 1 (by omega) 0 (by omega)
    have e0 : (rotT iv).e a 0 = iv.rotation 0 a := rotT_e iv a 0
    have e1 : (rotT iv).e a 1 = iv.rotation 1 a := rotT_e iv a 1
    unfold AffineRow
    simp only [Apd2]
    rw [mul_comm 2 k, Apd3 x k iv hiv a a.2, spd2 k iv hiv a a.2]
    simp only [Finset.sum_range_succ, Finset.sum_range_zero, zero_add, e0, e1]
    rw [show (X (k + 1)).e 0 = (X (k + 1)).e (3 * 0 + 0) from rfl, show (X (k + 1)).e 6 = (X (k + 1)).e (3 * (0 + 2) + 0) from rfl,
      show (X (k + 1)).e 3 = (X (k + 1)).e (3 * 1 + 0) from rfl, show (X (k + 1)).e 9 = (X (k + 1)).e (3 * (1 + 2) + 0) from rfl,
      ← t0.1, ← t0.2, ← t1.1, ← t1.2]
    ring

end Humoto.Pepper
