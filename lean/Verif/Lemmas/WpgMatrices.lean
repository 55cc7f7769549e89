import Verif.Lemmas.WpgMpc

/-!
# Matrices of the control problem of the walking pattern generator
-/

set_option linter.unusedSectionVars false
set_option linter.unusedSimpArgs false

namespace Humoto.Wpg

open Spec Spec.Wpg
open Pepper (ofMatrix2 kron_row kron_ok kronVec_ok kronVec axis ctrl kronLLT_row Sizes sizes_of_condensed)
open Pepper.Mpc (noMat noVec)

/-! ### Products with block diagonal matrices -/

/-- A block diagonal matrix of rotations. -/
def RotOf (R : BlockMat ℝ) (n : ℕ) (r : ℕ → Matrix (Fin 2) (Fin 2) ℝ) : Prop :=
  BlkM R n n 2 2 fun i j p q => if i = j then (ofMatrix2 (r i) 0).e p q else 0

/-- Coordinate `a` of the product of the rotation and the part `i` of a vector. -/
def turned (A : Matrix (Fin 2) (Fin 2) ℝ) (a : ℕ) (g : ℕ → ℝ) (i : ℕ) : ℝ :=
  (ofMatrix2 A 0).e a 0 * g (i * 2) + (ofMatrix2 A 0).e a 1 * g (i * 2 + 1)

theorem RotOf.diag {R : BlockMat ℝ} {n : ℕ} {r : ℕ → Matrix (Fin 2) (Fin 2) ℝ} (h : RotOf R n r) :
    Whole R n n ∧ Diagonal R.m R.br R.bc := by
  refine ⟨⟨by rw [h.br]; decide, by rw [h.bc]; decide, by rw [h.blk.rows, h.br], by rw [h.blk.cols, h.bc]⟩, ?_⟩
  intro i j p q hij hi hj hp hq
  rw [h.br] at hi hp ⊢
  rw [h.bc] at hj hq ⊢
  rw [h.blk.entry i j p q (blk_index (by decide) h.blk.rows hi) (blk_index (by decide) h.blk.cols hj) hp hq, if_neg hij]

theorem RotOf.row {R : BlockMat ℝ} {n : ℕ} {r : ℕ → Matrix (Fin 2) (Fin 2) ℝ} (h : RotOf R n r) (g : ℕ → ℝ) {i a : ℕ} (hi : i < n)
    (ha : a < 2) : ∑ k ∈ Finset.range R.m.cols, R.m.e (i * 2 + a) k * g k = turned (r i) a g i := by
  obtain ⟨h1, h2⟩ := h.diag
  have := diag_sum_right h1 h2 (f := g) hi (p := a) (by rw [h.br]; exact ha)
  rw [h.br, h.bc] at this
  rw [this, Finset.sum_range_succ, Finset.sum_range_one, h.blk.entry i i a 0 hi hi ha (by decide),
    h.blk.entry i i a 1 hi hi ha (by decide), if_pos rfl, if_pos rfl]
  rfl

theorem product_row {E D P : Mat ℝ} (h : ProductOf E D P) (x : ℕ → ℝ) {r : ℕ} (hr : r < E.rows) :
    ∑ c ∈ Finset.range P.cols, P.e r c * x c =
      ∑ k ∈ Finset.range E.cols, E.e r k * ∑ c ∈ Finset.range D.cols, D.e k c * x c := by
  obtain ⟨-, -, h3, h4⟩ := h
  rw [h3, Finset.sum_congr rfl (g := fun c => ∑ k ∈ Finset.range E.cols, E.e r k * (D.e k c * x c))]
  · rw [Finset.sum_comm]
    exact Finset.sum_congr rfl fun k _ => by rw [Finset.mul_sum]
  · intro c hc
    rw [h4 r hr c (Finset.mem_range.mp hc), Finset.sum_mul]
    exact Finset.sum_congr rfl fun k _ => by ring

/-- A row of the product of a Kronecker product and a block diagonal matrix, blocks with one column. -/
theorem kronRot_row {M E P : Mat ℝ} {R : BlockMat ℝ} {h nv nh : ℕ} {r : ℕ → Matrix (Fin 2) (Fin 2) ℝ} (hE : KroneckerOf M h 1 2 E)
    (hr : M.rows = nv * h) (hc : M.cols = nh) (hR : RotOf R nh r) (hP : ProductOf E R.m P) (x : ℕ → ℝ) {i a p : ℕ} (hi : i < nv)
    (ha : a < 2) (hp : p < h) :
    ∑ c ∈ Finset.range P.cols, P.e ((i * 2 + a) * h + p) c * x c =
      ∑ j ∈ Finset.range nh, M.e (i * h + p) j * turned (r j) a x j := by
  rw [product_row hP x (by
      rw [hE.rows, hr]
      calc (i * 2 + a) * h + p < nv * 2 * h := by rw [blk_lt hp]; omega
        _ = 2 * (nv * h) := by ring),
    kron_row hE hr (by rw [hc, mul_one]) _ hi ha hp]
  refine Finset.sum_congr rfl fun j hj => ?_
  rw [Finset.sum_range_one, mul_one, add_zero, mul_one, add_zero, hR.row x (Finset.mem_range.mp hj) ha]

/-! ### Loops -/

theorem formRh_ok {H : Horizon} {r : ℕ → Matrix (Fin 2) (Fin 2) ℝ} (h : ∀ i < H.intervals.n, H.getRotationMatrix i = .ok (r i)) :
    ∃ R, formRh H = .ok R ∧ RotOf R H.intervals.n r := by
  obtain ⟨M, e, hM⟩ := diagL_zero H.intervals.n
  unfold formRh
  rw [e, ok_bind]
  obtain ⟨y, hy, hy'⟩ := forRange_inv (fun i y => BlkM y H.intervals.n H.intervals.n 2 2 (diagL ((List.range i).map r))) hM (n := H.intervals.n)
    (body := fun R i => do
      let r ← H.getRotationMatrix i
      R.setBlk i i (ofMatrix2 r 0)) (by
    intro i y hi hy
    rw [h i hi, ok_bind, List.range_succ, List.map_append]
    have := diagL_set (l := (List.range i).map r) (by simpa using hi) hy (r i)
    rw [List.length_map, List.length_range] at this
    exact this)
  refine ⟨y, hy, hy'.br, hy'.bc, hy'.blk.congr ?_⟩
  intro i j p q hi hj hp hq
  unfold diagL
  by_cases hij : i = j
  · rw [if_pos hij, if_pos hij, List.getElem?_map, List.getElem?_range hi]
    rfl
  · rw [if_neg hij, if_neg hij]

/-- Entries of the selection of steps. -/
structure IrOf (steps : List ℕ) (N : ℕ) (I : Mat ℝ) : Prop where
  rows : I.rows = N
  cols : I.cols = steps.length
  entry : ∀ i < N, ∀ (j k : ℕ), steps[j]? = some k → I.e i j = if k ≤ i then 1 else 0

theorem formIr_ok {H : Horizon} (h : ∀ k ∈ H.variable_steps, k < H.intervals.n) :
    ∃ I, formIr H = .ok I ∧ IrOf H.variable_steps H.intervals.n I := by
  unfold formIr
  obtain ⟨y, hy, h1, h2, h3⟩ := forRange_inv (fun m (I : Mat ℝ) => I.rows = H.intervals.n ∧ I.cols = H.variable_steps.length ∧
      ∀ i < H.intervals.n, ∀ (j k : ℕ), H.variable_steps[j]? = some k → I.e i j = if j < m ∧ k ≤ i then 1 else 0)
    (n := H.variable_steps.length) (s := (⟨H.intervals.n, H.getNumberOfVariableSteps, fun _ _ => 0⟩ : Mat ℝ)) (body := fun I i => do
      let k ← nth H.variable_steps i
      require (k ≤ H.intervals.n)
      I.setBlock k i (H.intervals.n - k) 1 ⟨H.intervals.n - k, 1, fun _ _ => 1⟩) ⟨rfl, rfl, fun _ _ _ _ _ => by rw [if_neg (by omega)]⟩ (by
    rintro m I hm ⟨g1, g2, g3⟩
    have hs : H.variable_steps[m]? = some H.variable_steps[m] := List.getElem?_eq_getElem hm
    have hk := h _ (List.getElem_mem hm)
    generalize H.variable_steps[m] = k at hs hk
    rw [nth_ok hs, ok_bind, require_true hk.le, ok_bind, Mat.setBlock_ok (h := H.intervals.n - k) (w := 1) (by omega) (by omega) rfl rfl]
    refine ⟨_, rfl, g1, g2, ?_⟩
    intro i hi j k' hk'
    show (if (k ≤ i ∧ i < k + (H.intervals.n - k)) ∧ (m ≤ j ∧ j < m + 1) then (1 : ℝ) else I.e i j) = _
    by_cases hjm : j = m
    · subst hjm
      rw [hs] at hk'
      cases hk'
      by_cases hki : k ≤ i
      · rw [if_pos ⟨⟨hki, by omega⟩, by omega, by omega⟩, if_pos ⟨by omega, hki⟩]
      · rw [if_neg (by omega), if_neg (by omega), g3 i hi j k hs, if_neg (by omega)]
    · rw [if_neg (by omega), g3 i hi j k' hk']
      congr 1
      simp only [eq_iff_iff]
      omega)
  refine ⟨y, hy, h1, h2, ?_⟩
  intro i hi j k hk
  have := h3 i hi j k hk
  rw [this]
  congr 1
  simp only [eq_iff_iff]
  have := (List.getElem?_eq_some_iff.mp hk).1
  omega

theorem formV_ok (junk : ℕ → ℕ → ℝ) {N n : ℕ} {I : Mat ℝ} {R : BlockMat ℝ} {r : ℕ → Matrix (Fin 2) (Fin 2) ℝ} (h1 : I.rows = N)
    (h2 : I.cols = n) (hR : RotOf R n r) :
    ∃ V, formV junk I R = .ok V ∧ V.rows = 2 * N ∧ V.cols = 2 * n ∧ ∀ (x : ℕ → ℝ), ∀ i < N, ∀ a < 2,
      ∑ c ∈ Finset.range (2 * n), V.e (i * 2 + a) c * x c = ∑ j ∈ Finset.range n, I.e i j * turned (r j) a x j := by
  have hw : Whole (⟨1, 1, I⟩ : BlockMat ℝ) N n := ⟨by simp, by simp, by simp [h1], by simp [h2]⟩
  obtain ⟨E, -, hk⟩ := Humoto.evaluate_ok (X := ⟨⟨1, 1, I⟩, 2⟩) hw
  obtain ⟨g1, g2⟩ := hR.diag
  obtain ⟨P, hP, hP'⟩ := multiplyRight1_ok (X := ⟨⟨1, 1, I⟩, 2⟩) noMat junk hw rfl rfl g1 hR.br (by simp [noMat]) (by simp [noMat]) g2 hk
  have hc : P.cols = 2 * n := by rw [hP'.2.2.1, hR.blk.cols]; ring
  unfold formV
  refine ⟨P, ?_, by rw [hP'.2.1, hk.rows, h1], hc, ?_⟩
  · have := kron_ok hw
    unfold BlockMat.kron at this
    rw [this, ok_bind]
    exact hP
  · intro x i hi a ha
    have := kronRot_row (h := 1) (nv := N) hk (by simp [h1]) h2 hR hP' x hi ha (p := 0) (by decide)
    rw [hc, mul_one, add_zero] at this
    rw [this]
    exact Finset.sum_congr rfl fun j _ => by rw [mul_one, add_zero]

theorem Vfp_ok {n : ℕ} {R : BlockMat ℝ} {r : ℕ → Matrix (Fin 2) (Fin 2) ℝ} (hR : RotOf R n r) :
    ∃ V, (lowerIdentities n).mul R.m = .ok V ∧ V.rows = 2 * n ∧ V.cols = 2 * n ∧ ∀ (x : ℕ → ℝ), ∀ i < n, ∀ a < 2,
      ∑ c ∈ Finset.range (2 * n), V.e (i * 2 + a) c * x c = ∑ j ∈ Finset.range (i + 1), turned (r j) a x j := by
  have hm : (lowerIdentities n).mul R.m = .ok _ := if_pos (by show n * 2 = _; rw [hR.blk.rows])
  have hc : R.m.cols = 2 * n := by rw [hR.blk.cols]; ring
  refine ⟨_, hm, by show n * 2 = _; ring, hc, ?_⟩
  intro x i hi a ha
  have hprod : ProductOf (lowerIdentities n) R.m ⟨(lowerIdentities n).rows, R.m.cols, fun i j =>
      ∑ k ∈ Finset.range (lowerIdentities n).cols, (lowerIdentities n).e i k * R.m.e k j⟩ :=
    ⟨by show n * 2 = _; rw [hR.blk.rows], rfl, rfl, fun _ _ _ _ => rfl⟩
  have := product_row hprod x (r := i * 2 + a) (by show _ < n * 2; omega)
  rw [show (⟨(lowerIdentities n).rows, R.m.cols, fun i j =>
      ∑ k ∈ Finset.range (lowerIdentities n).cols, (lowerIdentities n).e i k * R.m.e k j⟩ : Mat ℝ).cols = 2 * n from hc] at this
  rw [this]
  have hcol : (lowerIdentities n).cols = n * 2 := rfl
  rw [hcol, sum_blk]
  have inner : ∀ j ∈ Finset.range n, ∑ q ∈ Finset.range 2, (lowerIdentities n).e (i * 2 + a) (j * 2 + q) *
      ∑ c ∈ Finset.range (2 * n), R.m.e (j * 2 + q) c * x c = if j < i + 1 then turned (r j) a x j else 0 := by
    intro j hj
    have hj := Finset.mem_range.mp hj
    rw [Finset.sum_eq_single a]
    · rw [← hc, hR.row x hj ha]
      show (if j * 2 + a ≤ i * 2 + a ∧ (i * 2 + a) % 2 = (j * 2 + a) % 2 then (1 : ℝ) else 0) * _ = _
      by_cases hji : j < i + 1
      · rw [if_pos ⟨by omega, by omega⟩, if_pos hji, one_mul]
      · rw [if_neg (by omega), if_neg hji, zero_mul]
    · intro q hq hqa
      have hq := Finset.mem_range.mp hq
      show (if j * 2 + q ≤ i * 2 + a ∧ (i * 2 + a) % 2 = (j * 2 + q) % 2 then (1 : ℝ) else 0) * _ = _
      rw [if_neg (by omega), zero_mul]
    · intro h; exact absurd (Finset.mem_range.mpr ha) h
  rw [Finset.sum_congr rfl inner, ← Finset.sum_filter]
  refine Finset.sum_congr ?_ fun _ _ => rfl
  ext j
  simp only [Finset.mem_filter, Finset.mem_range]
  omega

/-! ### States and velocities -/

/-- Change of the centre of pressure due to the solution. -/
noncomputable def copPart (I : Mat ℝ) (n : ℕ) (rh r : ℕ → Matrix (Fin 2) (Fin 2) ℝ) (z f : ℕ → ℝ) (a m : ℕ) : ℝ :=
  turned (rh m) a z m + ∑ j ∈ Finset.range n, I.e m j * turned (r j) a f j

theorem sum_split (A B : Mat ℝ) (x : ℕ → ℝ) (r : ℕ) {k l : ℕ} (hA : A.cols = k) (hB : B.cols = l) :
    ∑ c ∈ Finset.range (k + l), (if c < A.cols then A.e r c else B.e r (c - A.cols)) * x c =
      ∑ c ∈ Finset.range A.cols, A.e r c * x c + ∑ c ∈ Finset.range B.cols, B.e r c * x (k + c) := by
  rw [Finset.sum_range_add, hA, hB]
  congr 1
  · refine Finset.sum_congr rfl fun c hc => ?_
    rw [if_pos (Finset.mem_range.mp hc)]
  · refine Finset.sum_congr rfl fun c _ => ?_
    rw [if_neg (by omega), Nat.add_sub_cancel_left]

/-- Adding two products gives the product with the sum of controls. -/
theorem control_sum (U I : Mat ℝ) (h N n : ℕ) (g d : ℕ → ℝ) (i p : ℕ) {Q : ℕ → ℝ}
    (hQ : ∀ j < n, Q j = ∑ m ∈ Finset.range N, U.e (i * h + p) m * I.e m j) :
    (∑ m ∈ Finset.range N, U.e (i * h + p) m * g m) + ∑ j ∈ Finset.range n, Q j * d j =
      controlTerm U h 1 N (fun m _ => g m + ∑ j ∈ Finset.range n, I.e m j * d j) i p := by
  have hd : ∑ j ∈ Finset.range n, Q j * d j = ∑ m ∈ Finset.range N, ∑ j ∈ Finset.range n, U.e (i * h + p) m * (I.e m j * d j) := by
    rw [Finset.sum_comm]
    refine Finset.sum_congr rfl fun j hj => ?_
    rw [hQ j (Finset.mem_range.mp hj), Finset.sum_mul]
    exact Finset.sum_congr rfl fun m _ => by ring
  unfold controlTerm
  rw [hd, ← Finset.sum_add_distrib]
  refine Finset.sum_congr rfl fun m _ => ?_
  rw [Finset.sum_range_one, mul_one, add_zero, mul_add, Finset.mul_sum]

theorem updateS_ok (junk : ℕ → ℕ → ℝ) (junkI : ℕ → ℕ → ℕ) {N n : ℕ} {Ux Uu Rh R : BlockMat ℝ} {I : Mat ℝ}
    {rh r : ℕ → Matrix (Fin 2) (Fin 2) ℝ} (hs : Sizes N Ux Uu) (hRh : RotOf Rh N rh) (hR : RotOf R n r) (h1 : I.rows = N)
    (h2 : I.cols = n) : ∃ S, updateS junk junkI (6 * N) (2 * N + 2 * n) Uu Rh R I = .ok S ∧ S.rows = 6 * N ∧
      S.cols = 2 * N + 2 * n ∧ ∀ (x : ℕ → ℝ), ∀ i < N, ∀ a < 2, ∀ p < 3,
        ∑ c ∈ Finset.range (2 * N + 2 * n), S.e ((i * 2 + a) * 3 + p) c * x c =
          controlTerm Uu.m 3 1 N (fun m _ => copPart I n rh r x (fun c => x (2 * N + c)) a m) i p := by
  have hm : Uu.m.mul I = .ok ⟨Uu.m.rows, I.cols, fun i j => ∑ k ∈ Finset.range Uu.m.cols, Uu.m.e i k * I.e k j⟩ :=
    if_pos (by rw [hs.ucols, h1])
  generalize hQ : (⟨Uu.m.rows, I.cols, fun i j => ∑ k ∈ Finset.range Uu.m.cols, Uu.m.e i k * I.e k j⟩ : Mat ℝ) = Q at hm
  have q1 : Q.rows = N * 3 := by rw [← hQ]; exact hs.urows
  have q2 : Q.cols = n := by rw [← hQ]; exact h2
  have q3 : ∀ i j, Q.e i j = ∑ k ∈ Finset.range N, Uu.m.e i k * I.e k j := by intro i j; rw [← hQ, ← hs.ucols]
  have hwQ : Whole (⟨3, 1, Q⟩ : BlockMat ℝ) N n := ⟨by simp, by simp, by simp [q1], by simp [q2]⟩
  obtain ⟨E, -, hE⟩ := Humoto.evaluate_ok (X := ⟨Uu, 2⟩) hs.whole
  obtain ⟨F, -, hF⟩ := Humoto.evaluate_ok (X := ⟨⟨3, 1, Q⟩, 2⟩) hwQ
  obtain ⟨g1, g2⟩ := hRh.diag
  obtain ⟨k1, k2⟩ := hR.diag
  have hE' : KroneckerOf Uu.m 3 1 2 E := by have := hE; rw [hs.ubr, hs.ubc] at this; exact this
  obtain ⟨A, eA, hA⟩ := multiplyRightLLT_ok (X := ⟨Uu, 2⟩) (junkI 0) hs.whole g1 (by rw [hRh.br, hs.ubc, one_mul]) g2
    (by rw [hs.ubr, hs.ubc]; exact hs.lower) (by omega) hE
  obtain ⟨B, eB, hB⟩ := multiplyRight_ok (X := ⟨⟨3, 1, Q⟩, 2⟩) junk (junkI 1) hwQ k1 (by rw [hR.br]; rfl) k2 hF
  have a1 : A.rows = 6 * N := by rw [hA.2.1, hE'.rows, hs.urows]; ring
  have a2 : A.cols = 2 * N := by rw [hA.2.2.1, hRh.blk.cols]; ring
  have b1 : B.rows = 6 * N := by rw [hB.2.1, hF.rows, q1]; ring
  have b2 : B.cols = 2 * n := by rw [hB.2.2.1, hR.blk.cols]; ring
  unfold updateS
  rw [hm, ok_bind, hwQ.finalize, ok_bind, kron_ok hs.whole, ok_bind, eA, ok_bind, kron_ok hwQ, ok_bind, eB, ok_bind]
  unfold Mat.commaHor
  rw [require_true ⟨a1, b1, by rw [a2, b2]⟩, ok_bind]
  refine ⟨_, rfl, rfl, rfl, ?_⟩
  intro x i hi a ha p hp
  refine (sum_split A B x _ a2 b2).trans ?_
  rw [kronRot_row hE' hs.urows hs.ucols hRh hA x hi ha hp, kronRot_row hF q1 q2 hR hB _ hi ha hp]
  exact control_sum Uu.m I 3 N n (fun j => turned (rh j) a x j) (fun j => turned (r j) a (fun c => x (2 * N + c)) j) i p
    (fun j _ => q3 _ j)

theorem lower_sum {U : Mat ℝ} {N : ℕ} (h1 : U.rows = N) (h2 : U.cols = N) (hL : LowerTriangular U 1 1) {i : ℕ} (hi : i < N)
    (g : ℕ → ℝ) : ∑ k ∈ Finset.range N, (if k ≤ i then U.e i k else 0) * g k = ∑ k ∈ Finset.range N, U.e i k * g k := by
  refine Finset.sum_congr rfl fun k hk => ?_
  have hk := Finset.mem_range.mp hk
  by_cases hki : k ≤ i
  · rw [if_pos hki]
  · have := hL i k 0 0 (by omega) (by omega) (by omega) (by omega) (by omega)
    rw [mul_one, mul_one, add_zero, add_zero] at this
    rw [if_neg hki, this]

/-- Sizes of matrices of the outputs. -/
structure OutSizes (N : ℕ) (Ox Ou : BlockMat ℝ) : Prop where
  xbr : Ox.br = 1
  xbc : Ox.bc = 3
  xrows : Ox.m.rows = N
  xcols : Ox.m.cols = 3
  ubr : Ou.br = 1
  ubc : Ou.bc = 1
  urows : Ou.m.rows = N
  ucols : Ou.m.cols = N
  lower : LowerTriangular Ou.m 1 1

theorem OutSizes.whole {N : ℕ} {Ox Ou : BlockMat ℝ} (h : OutSizes N Ox Ou) : Whole Ou N N :=
  ⟨by rw [h.ubr]; omega, by rw [h.ubc]; omega, by rw [h.urows, h.ubr, mul_one], by rw [h.ucols, h.ubc, mul_one]⟩

theorem updateSdz_ok (junk : ℕ → ℕ → ℝ) {N n : ℕ} {Ox Ou Rh R : BlockMat ℝ} {I : Mat ℝ}
    {rh r : ℕ → Matrix (Fin 2) (Fin 2) ℝ} (hs : OutSizes N Ox Ou) (hRh : RotOf Rh N rh) (hR : RotOf R n r) (h1 : I.rows = N)
    (h2 : I.cols = n) : ∃ S, updateSdz junk N (2 * N + 2 * n) Ou Rh R I = .ok S ∧ S.rows = 2 * N ∧
      S.cols = 2 * N + 2 * n ∧ ∀ (x : ℕ → ℝ), ∀ i < N, ∀ a < 2,
        ∑ c ∈ Finset.range (2 * N + 2 * n), S.e (i * 2 + a) c * x c =
          controlTerm Ou.m 1 1 N (fun m _ => copPart I n rh r x (fun c => x (2 * N + c)) a m) i 0 := by
  have hm : multiplyLower Ou I = .ok ⟨Ou.m.rows, I.cols, fun i j => ∑ k ∈ Finset.range Ou.m.cols,
      (if k ≤ i then Ou.m.e i k else 0) * I.e k j⟩ := by
    unfold multiplyLower
    rw [assertThat_true (by rw [h1, hs.ucols]), ok_bind]
    exact if_pos (by show Ou.m.cols = I.rows; rw [hs.ucols, h1])
  generalize hQ : (⟨Ou.m.rows, I.cols, fun i j => ∑ k ∈ Finset.range Ou.m.cols,
      (if k ≤ i then Ou.m.e i k else 0) * I.e k j⟩ : Mat ℝ) = Q at hm
  have q1 : Q.rows = N := by rw [← hQ]; exact hs.urows
  have q2 : Q.cols = n := by rw [← hQ]; exact h2
  have q3 : ∀ i < N, ∀ j, Q.e i j = ∑ k ∈ Finset.range N, Ou.m.e i k * I.e k j := by
    intro i hi j
    rw [← hQ]
    show ∑ k ∈ Finset.range Ou.m.cols, (if k ≤ i then Ou.m.e i k else 0) * I.e k j = _
    rw [hs.ucols]
    exact lower_sum hs.urows hs.ucols hs.lower hi _
  have hwQ : Whole (⟨1, 1, Q⟩ : BlockMat ℝ) N n := ⟨by simp, by simp, by simp [q1], by simp [q2]⟩
  obtain ⟨E, -, hE⟩ := Humoto.evaluate_ok (X := ⟨Ou, 2⟩) hs.whole
  obtain ⟨F, -, hF⟩ := Humoto.evaluate_ok (X := ⟨⟨1, 1, Q⟩, 2⟩) hwQ
  obtain ⟨g1, g2⟩ := hRh.diag
  obtain ⟨k1, k2⟩ := hR.diag
  have hE' : KroneckerOf Ou.m 1 1 2 E := by have := hE; rw [hs.ubr, hs.ubc] at this; exact this
  obtain ⟨A, eA, hA⟩ := multiplyRight1LLT_ok (X := ⟨Ou, 2⟩) noMat hs.whole hs.ubr hs.ubc g1 hRh.br (by simp [noMat]) (by simp [noMat])
    hs.lower g2 hE'
  obtain ⟨B, eB, hB⟩ := multiplyRight1_ok (X := ⟨⟨1, 1, Q⟩, 2⟩) noMat junk hwQ rfl rfl k1 hR.br (by simp [noMat]) (by simp [noMat]) k2 hF
  have a1 : A.rows = 2 * N := by rw [hA.2.1, hE'.rows, hs.urows]
  have a2 : A.cols = 2 * N := by rw [hA.2.2.1, hRh.blk.cols]; ring
  have b1 : B.rows = 2 * N := by rw [hB.2.1, hF.rows, q1]
  have b2 : B.cols = 2 * n := by rw [hB.2.2.1, hR.blk.cols]; ring
  unfold updateSdz
  rw [hm, ok_bind, hwQ.finalize, ok_bind, kron_ok hs.whole, ok_bind, eA, ok_bind, kron_ok hwQ, ok_bind, eB, ok_bind]
  unfold Mat.commaHor
  rw [require_true ⟨a1, b1, by rw [a2, b2]⟩, ok_bind]
  refine ⟨_, rfl, rfl, rfl, ?_⟩
  intro x i hi a ha
  refine (sum_split A B x _ a2 b2).trans ?_
  have e1 := kronRot_row (h := 1) (nv := N) hE' (by rw [hs.urows, mul_one]) hs.ucols hRh hA x hi ha (p := 0) (by decide)
  have e2 := kronRot_row (h := 1) (nv := N) hF (by rw [mul_one]; exact q1) q2 hR hB (fun c => x (2 * N + c)) hi ha (p := 0) (by decide)
  rw [mul_one, add_zero] at e1 e2
  rw [e1, e2]
  exact control_sum Ou.m I 1 N n (fun j => turned (rh j) a x j) (fun j => turned (r j) a (fun c => x (2 * N + c)) j) i 0
    (fun j _ => by show Q.e (i * 1 + 0) j = _; rw [mul_one, add_zero]; exact q3 i hi j)

/-- The product with a vector of two entries. -/
theorem kronPair_ok {U : BlockMat ℝ} {E : Mat ℝ} {N h : ℕ} (h1 : U.m.rows = N * h) (h2 : U.m.cols = 1)
    (hE : KroneckerOf U.m h 1 2 E) {x y : Vec ℝ} (hy : VecProductOf E x y) {i a p : ℕ} (hi : i < N) (ha : a < 2) (hp : p < h) :
    y.e ((i * 2 + a) * h + p) = U.m.e (i * h + p) 0 * x.e a := by
  rw [hy.2.2 _ (by
      rw [hE.rows, h1]
      calc (i * 2 + a) * h + p < N * 2 * h := by rw [blk_lt hp]; omega
        _ = 2 * (N * h) := by ring),
    kron_row hE h1 (by rw [h2] : U.m.cols = 1 * 1) _ hi ha hp, Finset.sum_range_one, Finset.sum_range_one]
  simp

theorem updateVecS_ok (junk : ℕ → ℕ → ℝ) {N : ℕ} {Ux Uu : BlockMat ℝ} (hs : Sizes N Ux Uu) (support : Fin 2 → ℝ)
    (c : Fin 6 → ℝ) : ∃ s, updateVecS junk Ux Uu support c = .ok s ∧ s.n = 6 * N ∧ ∀ i < N, ∀ a < 2, ∀ p < 3,
      s.e ((i * 2 + a) * 3 + p) = controlTerm Uu.m 3 1 N (fun _ _ => (ofFin support).e a) i p +
        stateTerm Ux.m 3 3 (axis (ofFin c) a) i p := by
  have hw : Whole (⟨3, 1, rowSum Uu.m⟩ : BlockMat ℝ) N 1 := ⟨by simp, by simp, by simp [rowSum, hs.urows], by simp [rowSum]⟩
  obtain ⟨E, -, hE⟩ := Humoto.evaluate_ok (X := ⟨⟨3, 1, rowSum Uu.m⟩, 2⟩) hw
  obtain ⟨y, ey, hy⟩ := multiplyRightVec_ok (X := ⟨⟨3, 1, rowSum Uu.m⟩, 2⟩) (junk 0) (junk 1) hw (x := ofFin support) rfl hE
  obtain ⟨v, ev, v1, v2⟩ := kronVec_ok (junk 2) (junk 3) hs.xbr hs.xbc (by omega) hs.xrows hs.xcols (x := ofFin c) rfl
  have y1 : y.n = 2 * (N * 3) := by rw [hy.2.1, hE.rows]; show 2 * Uu.m.rows = _; rw [hs.urows]
  unfold updateVecS
  rw [hw.finalize, ok_bind]
  have ek : kronVec (junk 0) (junk 1) ⟨3, 1, rowSum Uu.m⟩ (ofFin support) = .ok y := by
    unfold kronVec; rw [kron_ok hw, ok_bind]; exact ey
  rw [ek, ok_bind, ev, ok_bind]
  refine ⟨_, if_pos (by rw [y1, v1]), by rw [show (⟨y.n, fun i => y.e i + v.e i⟩ : Vec ℝ).n = y.n from rfl, y1]; ring, ?_⟩
  intro i hi a ha p hp
  show y.e _ + v.e _ = _
  rw [v2 i hi a ha p hp, kronPair_ok (U := ⟨3, 1, rowSum Uu.m⟩) hs.urows rfl hE hy hi ha hp]
  congr 1
  show (∑ j ∈ Finset.range Uu.m.cols, Uu.m.e (i * 3 + p) j) * _ = _
  unfold controlTerm
  rw [hs.ucols, Finset.sum_mul]
  refine Finset.sum_congr rfl fun m _ => ?_
  rw [Finset.sum_range_one, mul_one, add_zero]

theorem updateVecSdz_ok (junk : ℕ → ℕ → ℝ) {N : ℕ} {Ox Ou : BlockMat ℝ} (hs : OutSizes N Ox Ou) (support : Fin 2 → ℝ)
    (c : Fin 6 → ℝ) : ∃ s, updateVecSdz junk Ox Ou support c = .ok s ∧ s.n = 2 * N ∧ ∀ i < N, ∀ a < 2,
      s.e (i * 2 + a) = controlTerm Ou.m 1 1 N (fun _ _ => (ofFin support).e a) i 0 +
        stateTerm Ox.m 1 3 (axis (ofFin c) a) i 0 := by
  have hw : Whole (⟨1, 1, rowSum Ou.m⟩ : BlockMat ℝ) N 1 := ⟨by simp, by simp, by simp [rowSum, hs.urows], by simp [rowSum]⟩
  obtain ⟨E, -, hE⟩ := Humoto.evaluate_ok (X := ⟨⟨1, 1, rowSum Ou.m⟩, 2⟩) hw
  obtain ⟨y, ey, hy⟩ := multiplyRightVec1_ok (X := ⟨⟨1, 1, rowSum Ou.m⟩, 2⟩) hw rfl rfl (x := ofFin support) rfl hE
  obtain ⟨v, ev, v1, v2⟩ := kronVec_ok (junk 0) (junk 1) hs.xbr hs.xbc (by omega) (by rw [hs.xrows, mul_one]) hs.xcols (x := ofFin c) rfl
  have y1 : y.n = 2 * N := by rw [hy.2.1, hE.rows]; show 2 * Ou.m.rows = _; rw [hs.urows]
  unfold updateVecSdz
  rw [hw.finalize, ok_bind, kron_ok hw, ok_bind, ey, ok_bind, ev, ok_bind]
  refine ⟨_, if_pos (by rw [y1, v1, mul_one]), y1, ?_⟩
  intro i hi a ha
  show y.e _ + v.e _ = _
  have e1 := kronPair_ok (U := ⟨1, 1, rowSum Ou.m⟩) (N := N) (h := 1) (by rw [mul_one]; exact hs.urows) rfl hE hy hi ha
    (p := 0) (by omega)
  have e2 := v2 i hi a ha 0 (by omega)
  rw [mul_one, add_zero] at e1 e2
  rw [e1, e2]
  congr 1
  show (∑ j ∈ Finset.range Ou.m.cols, Ou.m.e (i * 1 + 0) j) * _ = _
  unfold controlTerm
  rw [hs.ucols, Finset.sum_mul]
  refine Finset.sum_congr rfl fun m _ => ?_
  simp

theorem controlTerm_add {U : Mat ℝ} {h N : ℕ} (f g : ℕ → ℝ) (i p : ℕ) : controlTerm U h 1 N (fun m _ => f m) i p +
    controlTerm U h 1 N (fun m _ => g m) i p = controlTerm U h 1 N (fun m _ => f m + g m) i p := by
  unfold controlTerm
  rw [← Finset.sum_add_distrib]
  refine Finset.sum_congr rfl fun m _ => ?_
  rw [Finset.sum_range_one, Finset.sum_range_one, Finset.sum_range_one, mul_add]

theorem controlTerm_congr {U : Mat ℝ} {h N : ℕ} {f g : ℕ → ℕ → ℝ} (hfg : ∀ m < N, f m 0 = g m 0) (i p : ℕ) :
    controlTerm U h 1 N f i p = controlTerm U h 1 N g i p := by
  unfold controlTerm
  refine Finset.sum_congr rfl fun m hm => ?_
  rw [Finset.sum_range_one, Finset.sum_range_one, hfg m (Finset.mem_range.mp hm)]

/-! ### Matrices of the intervals -/

/-- The matrix `A` of an interval. -/
noncomputable def sysA (iv : Interval) : Mat ℝ := ofMatrix (PointMass6z.getA3 iv.T iv.omega)
/-- The matrix `B` of an interval. -/
noncomputable def sysB (iv : Interval) : Mat ℝ := column (PointMass6z.getB3 iv.T iv.omega)
/-- The matrix `D` of an interval. -/
noncomputable def sysD (iv : Interval) : Mat ℝ := row (PointMass6z.getD3 iv.T iv.omega)
/-- The matrix `E` of an interval. -/
noncomputable def sysE (iv : Interval) : Mat ℝ := ⟨1, 1, fun _ _ => PointMass6z.getE3 iv.T⟩

/-- The matrices of the first `n` intervals. -/
def listOf (v : Vec Interval) (n : ℕ) (f : Interval → Mat ℝ) : List (Mat ℝ) := (List.range n).map fun i => f (v.e i)

theorem listOf_length (v : Vec Interval) (n : ℕ) (f : Interval → Mat ℝ) : (listOf v n f).length = n := by simp [listOf]

theorem listOf_get {v : Vec Interval} {n : ℕ} {f : Interval → Mat ℝ} {i : ℕ} {M : Mat ℝ} (h : (listOf v n f)[i]? = some M) :
    i < n ∧ M = f (v.e i) := by
  have hi : i < n := by have := (List.getElem?_eq_some_iff.mp h).1; rwa [listOf_length] at this
  refine ⟨hi, ?_⟩
  unfold listOf at h
  rw [List.getElem?_map, List.getElem?_range hi] at h
  exact (Option.some.inj h).symm

theorem listOf_size {v : Vec Interval} {n : ℕ} {f : Interval → Mat ℝ} {r c : ℕ} (h : ∀ iv, (f iv).rows = r ∧ (f iv).cols = c) :
    AllSize (listOf v n f) r c := by
  intro M hM
  obtain ⟨i, -, rfl⟩ := List.mem_map.mp hM
  exact h _

theorem systems_ok {N : ℕ} {H : Horizon} (h : N ≤ H.intervals.n) : systems N H =
    .ok ⟨listOf H.intervals N sysA, listOf H.intervals N sysB, listOf H.intervals N sysD, listOf H.intervals N sysE⟩ := by
  unfold systems
  obtain ⟨y, hy, e⟩ := forRange_inv (fun i (y : Systems) => y =
      ⟨listOf H.intervals i sysA, listOf H.intervals i sysB, listOf H.intervals i sysD, listOf H.intervals i sysE⟩)
    (n := N) (s := (⟨[], [], [], []⟩ : Systems)) (body := fun y i => do
      let iv ← H.intervals.get i
      pure (⟨y.A ++ [ofMatrix (PointMass6z.getA3 iv.T iv.omega)], y.B ++ [column (PointMass6z.getB3 iv.T iv.omega)],
        y.D ++ [row (PointMass6z.getD3 iv.T iv.omega)], y.E ++ [⟨1, 1, fun _ _ => PointMass6z.getE3 iv.T⟩]⟩ : Systems)) rfl (by
    rintro i y hi rfl
    have hg : H.intervals.get i = .ok (H.intervals.e i) := if_pos (by omega)
    rw [hg, ok_bind]
    refine ⟨_, rfl, ?_⟩
    simp only [listOf, List.range_succ, List.map_append, List.map_cons, List.map_nil]
    rfl)
  rw [hy, e]

/-! ### All matrices -/

/-- Rows of the matrices in terms of the controlled system. -/
structure MatricesOf (N n : ℕ) (v : Vec Interval) (rh r : ℕ → Matrix (Fin 2) (Fin 2) ℝ) (support : Fin 2 → ℝ) (c : Fin 6 → ℝ)
    (m : Matrices) : Prop where
  sizes : m.S.rows = 6 * N ∧ m.S.cols = 2 * (N + n) ∧ m.s.n = 6 * N ∧ m.Sdz.rows = 2 * N ∧ m.Sdz.cols = 2 * (N + n) ∧
    m.sdz.n = 2 * N ∧ m.Vfp.rows = 2 * n ∧ m.Vfp.cols = 2 * n ∧ m.vfp.n = 2 * n ∧ m.V.rows = 2 * N ∧ m.V.cols = 2 * n ∧
    m.V0.n = 2 * N ∧ m.Rh.m.rows = 2 * N ∧ m.Rh.m.cols = 2 * N
  Rh : RotOf m.Rh N rh
  states : ∀ (x : ℕ → ℝ), ∀ a < 2, ∀ (X : ℕ → ℕ → ℝ) (u : ℕ → ℕ → ℝ),
    (∀ k < N, u k 0 = copPart m.Ir n rh r x (fun c => x (2 * N + c)) a k + (ofFin support).e a) →
    Trajectory (listOf v N sysA) (listOf v N sysB) 3 1 X u → (∀ l < 3, X 0 l = axis (ofFin c) a l) →
    ∀ i < N, ∀ p < 3, AffineRow m.S m.s x ((i * 2 + a) * 3 + p) (X (i + 1) p)
  velocities : ∀ (x : ℕ → ℝ), ∀ a < 2, ∀ (X : ℕ → ℕ → ℝ) (u : ℕ → ℕ → ℝ),
    (∀ k < N, u k 0 = copPart m.Ir n rh r x (fun c => x (2 * N + c)) a k + (ofFin support).e a) →
    Trajectory (listOf v N sysA) (listOf v N sysB) 3 1 X u → (∀ l < 3, X 0 l = axis (ofFin c) a l) →
    ∀ i < N, AffineRow m.Sdz m.sdz x (i * 2 + a) (output (sysD (v.e i)) (sysE (v.e i)) 3 1 (X i) (u i) 0)
  supports : ∀ (f : ℕ → ℝ), ∀ j < n, ∀ a < 2,
    AffineRow m.Vfp m.vfp f (j * 2 + a) ((ofFin support).e a + ∑ k ∈ Finset.range (j + 1), turned (r k) a f k)
  pressure : ∀ (f : ℕ → ℝ), ∀ i < N, ∀ a < 2,
    AffineRow m.V m.V0 f (i * 2 + a) ((ofFin support).e a + ∑ j ∈ Finset.range n, m.Ir.e i j * turned (r j) a f j)

theorem replicate2_e (s : Fin 2 → ℝ) (n i : ℕ) {a : ℕ} (ha : a < 2) : (replicate2 s n).e (i * 2 + a) = (ofFin s).e a := by
  show s ⟨(i * 2 + a) % 2, _⟩ = (if h : a < 2 then s ⟨a, h⟩ else 0)
  rw [dif_pos ha]
  congr 1
  ext
  show (i * 2 + a) % 2 = a
  omega

theorem nvars_ok (N n : ℕ) : (solutionStructure N n).nvars = 2 * N + 2 * n := by
  show 0 + N * 2 + n * 2 = _
  ring

theorem updateMatrices_ok (junk : ℕ → ℕ → ℕ → ℕ → ℝ) (junkI : ℕ → ℕ → ℕ) {N : ℕ} {H : Horizon} (model : Model)
    {rh r : ℕ → Matrix (Fin 2) (Fin 2) ℝ} {R : BlockMat ℝ} (hN : 0 < N) (hn : H.intervals.n = N)
    (hrh : ∀ i < N, H.getRotationMatrix i = .ok (rh i)) (hr : formR H = .ok R) (hR : RotOf R H.variable_steps.length r)
    (hk : ∀ k ∈ H.variable_steps, k < N) :
    ∃ m, updateMatrices junk junkI N H model = .ok m ∧ m.solution = solutionStructure N H.variable_steps.length ∧
      IrOf H.variable_steps N m.Ir ∧
      MatricesOf N H.variable_steps.length H.intervals rh r model.current_support_position model.getCState m := by
  subst hn
  obtain ⟨Rh, eRh, hRh⟩ := formRh_ok hrh
  obtain ⟨I, eI, hI⟩ := formIr_ok hk
  obtain ⟨V, eV, V1, V2, V3⟩ := formV_ok (junk 0 0) hI.rows hI.cols hR
  obtain ⟨F, eF, F1, F2, F3⟩ := Vfp_ok hR
  have eF : (lowerIdentities H.getNumberOfVariableSteps).mul R.m = .ok F := eF
  have es := systems_ok (le_refl H.intervals.n)
  have la := listOf_length H.intervals H.intervals.n sysA
  have lb := listOf_length H.intervals H.intervals.n sysB
  have ld := listOf_length H.intervals H.intervals.n sysD
  have le := listOf_length H.intervals H.intervals.n sysE
  obtain ⟨Ux, Uu, eU, c1, c2, c3, c4, hU⟩ := condense_ok (junk 0 1) (A := listOf H.intervals H.intervals.n sysA)
    (B := listOf H.intervals H.intervals.n sysB) (S0 := ⟨3, 3, noMat⟩) (U0 := ⟨3, 1, noMat⟩) (ns := 3) (nu := 1) (by omega) (by omega)
    (listOf_size fun _ => ⟨rfl, rfl⟩) (listOf_size fun _ => ⟨rfl, rfl⟩) (by decide) (by decide) rfl rfl rfl rfl
  obtain ⟨Ox, Ou, eO, d1, d2, d3, d4, hO⟩ := condenseOutput_ok' (junk 0 2) (D := listOf H.intervals H.intervals.n sysD)
    (E := listOf H.intervals H.intervals.n sysE) (Ox0 := ⟨1, 3, noMat⟩) (Ou0 := ⟨1, 1, noMat⟩) (ny := 1) (by omega) (by decide)
    (by decide) (by decide) c1 c2 c3 c4 hU rfl rfl rfl rfl (by omega) (by omega) (listOf_size fun _ => ⟨rfl, rfl⟩)
    (listOf_size fun _ => ⟨rfl, rfl⟩)
  have hs := sizes_of_condensed c1 c2 c3 c4 hU
  rw [la] at hs
  have ho : OutSizes H.intervals.n Ox Ou := ⟨d1, d2, by rw [hO.rowsOx, la, mul_one], hO.colsOx, d3, d4,
    by rw [hO.rowsOu, la, mul_one], by rw [hO.colsOu, la, mul_one], Pepper.condensedOutput_lower hO (by omega) (by omega)⟩
  obtain ⟨S, eS, S1, S2, S3⟩ := updateS_ok (junk 0 3) junkI hs hRh hR hI.rows hI.cols
  obtain ⟨s, es', s1, s2⟩ := updateVecS_ok (junk 0 4) hs model.current_support_position model.getCState
  obtain ⟨Z, eZ, Z1, Z2, Z3⟩ := updateSdz_ok (junk 0 5) ho hRh hR hI.rows hI.cols
  obtain ⟨z, ez, z1, z2⟩ := updateVecSdz_ok (junk 0 6) ho model.current_support_position model.getCState
  unfold updateMatrices
  have hnv := nvars_ok H.intervals.n H.variable_steps.length
  have hnv : (solutionStructure H.intervals.n H.getNumberOfVariableSteps).nvars = _ := hnv
  simp only [hnv]
  rw [hr, ok_bind, eRh, ok_bind, eI, ok_bind, eV, ok_bind, eF, ok_bind, es, ok_bind, eU, ok_bind]
  simp only
  rw [eO, ok_bind]
  simp only
  rw [eS, ok_bind, es', ok_bind, eZ, ok_bind, ez, ok_bind]
  refine ⟨_, rfl, rfl, hI, ?_⟩
  refine ⟨⟨S1, by simp only; omega, s1, Z1, by simp only; omega, z1, F1, F2, by show H.variable_steps.length * 2 = _; ring, V1, V2,
    by show H.intervals.n * 2 = _; ring, by rw [hRh.blk.rows]; ring, by rw [hRh.blk.cols]; ring⟩, hRh, ?_, ?_, ?_, ?_⟩
  · intro x a ha X u hu hX h0 i hi p hp
    show ∑ c ∈ Finset.range S.cols, S.e _ c * x c + s.e _ = _
    rw [S2, S3 x i hi a ha p hp, s2 i hi a ha p hp, ← add_assoc, controlTerm_add]
    have := hU.states X u hX i (by rw [la]; exact hi) p hp
    rw [la] at this
    rw [← this, add_comm]
    congr 1
    · exact (Pepper.stateTerm_congr (fun l hl => (h0 l hl).symm) i p)
    · exact controlTerm_congr (fun m hm => (hu m hm).symm) i p
  · intro x a ha X u hu hX h0 i hi
    show ∑ c ∈ Finset.range Z.cols, Z.e _ c * x c + z.e _ = _
    rw [Z2, Z3 x i hi a ha, z2 i hi a ha, ← add_assoc, controlTerm_add]
    have hd : (listOf H.intervals H.intervals.n sysD)[i]? = some (sysD (H.intervals.e i)) := by
      unfold listOf; rw [List.getElem?_map, List.getElem?_range hi]; rfl
    have he : (listOf H.intervals H.intervals.n sysE)[i]? = some (sysE (H.intervals.e i)) := by
      unfold listOf; rw [List.getElem?_map, List.getElem?_range hi]; rfl
    have := hO.outputs X u hX i _ _ hd he 0 (by decide)
    rw [la] at this
    rw [← this, add_comm]
    congr 1
    · exact (Pepper.stateTerm_congr (fun l hl => (h0 l hl).symm) i 0)
    · exact controlTerm_congr (fun m hm => (hu m hm).symm) i 0
  · intro f j hj a ha
    show ∑ c ∈ Finset.range F.cols, F.e _ c * f c + (replicate2 _ _).e _ = _
    rw [F2, F3 f j hj a ha, replicate2_e _ _ _ ha, add_comm]
  · intro f i hi a ha
    show ∑ c ∈ Finset.range V.cols, V.e _ c * f c + (replicate2 _ _).e _ = _
    rw [V2, V3 f i hi a ha, replicate2_e _ _ _ ha, add_comm]

end Humoto.Wpg
