import Verif.Model.Condense
import Verif.Spec.Condense
import Verif.Lemmas.Constraints
import Mathlib.Algebra.BigOperators.Ring.Finset
import Mathlib.Tactic.Ring
import Mathlib.Tactic.LinearCombination

/-!
# Block views of dense matrices
-/

namespace Humoto

open Spec

set_option linter.unusedSectionVars false

variable {K : Type}

theorem blk_le {h p i i0 : ℕ} (hp : p < h) : i0 * h ≤ i * h + p ↔ i0 ≤ i := by
  constructor
  · intro hle
    by_contra hlt
    have h1 : (i + 1) * h ≤ i0 * h := Nat.mul_le_mul_right h (by omega)
    have h2 : (i + 1) * h = i * h + h := by ring
    omega
  · intro hle
    have h1 : i0 * h ≤ i * h := Nat.mul_le_mul_right h hle
    omega

theorem blk_lt {h p i m : ℕ} (hp : p < h) : i * h + p < m * h ↔ i < m := by
  have := blk_le (i := i) (i0 := m) hp
  omega

/-- `M` consists of `nv` times `nh` blocks of the size `h` times `w`; the entries of the block `(i, j)` are `F i j`. -/
structure Blk (M : Mat K) (nv nh h w : ℕ) (F : ℕ → ℕ → ℕ → ℕ → K) : Prop where
  rows : M.rows = nv * h
  cols : M.cols = nh * w
  entry : ∀ i j p q, i < nv → j < nh → p < h → q < w → M.e (i * h + p) (j * w + q) = F i j p q

theorem Blk.block {M : Mat K} {nv nh h w : ℕ} {F : ℕ → ℕ → ℕ → ℕ → K} (hM : Blk M nv nh h w F) (i0 j0 n m : ℕ)
    (hi : i0 + n ≤ nv) (hj : j0 + m ≤ nh) :
    ∃ B, M.block (i0 * h) (j0 * w) (n * h) (m * w) = .ok B ∧
      Blk B n m h w (fun i j p q => F (i0 + i) (j0 + j) p q) := by
  have h1 : i0 * h + n * h ≤ M.rows := by
    rw [hM.rows, ← Nat.add_mul]; exact Nat.mul_le_mul_right h hi
  have h2 : j0 * w + m * w ≤ M.cols := by
    rw [hM.cols, ← Nat.add_mul]; exact Nat.mul_le_mul_right w hj
  refine ⟨_, if_pos ⟨h1, h2⟩, rfl, rfl, ?_⟩
  intro i j p q hi' hj' hp hq
  rw [← hM.entry (i0 + i) (j0 + j) p q (by omega) (by omega) hp hq]
  simp only
  congr 1 <;> ring

theorem Blk.setBlock {M B : Mat K} {nv nh h w : ℕ} {F G : ℕ → ℕ → ℕ → ℕ → K} (hM : Blk M nv nh h w F)
    (i0 j0 n m : ℕ) (hi : i0 + n ≤ nv) (hj : j0 + m ≤ nh) (hB : Blk B n m h w G) :
    ∃ M', M.setBlock (i0 * h) (j0 * w) (n * h) (m * w) B = .ok M' ∧
      Blk M' nv nh h w (fun i j p q =>
        if (i0 ≤ i ∧ i < i0 + n) ∧ (j0 ≤ j ∧ j < j0 + m) then G (i - i0) (j - j0) p q else F i j p q) := by
  have h1 : i0 * h + n * h ≤ M.rows := by
    rw [hM.rows, ← Nat.add_mul]; exact Nat.mul_le_mul_right h hi
  have h2 : j0 * w + m * w ≤ M.cols := by
    rw [hM.cols, ← Nat.add_mul]; exact Nat.mul_le_mul_right w hj
  refine ⟨_, if_pos ⟨h1, h2, hB.rows, hB.cols⟩, hM.rows, hM.cols, ?_⟩
  intro i j p q hi' hj' hp hq
  simp only
  have e1 : i0 * h ≤ i * h + p ↔ i0 ≤ i := blk_le hp
  have e2 : i * h + p < i0 * h + n * h ↔ i < i0 + n := by rw [← Nat.add_mul]; exact blk_lt hp
  have e3 : j0 * w ≤ j * w + q ↔ j0 ≤ j := blk_le hq
  have e4 : j * w + q < j0 * w + m * w ↔ j < j0 + m := by rw [← Nat.add_mul]; exact blk_lt hq
  by_cases hin : (i0 ≤ i ∧ i < i0 + n) ∧ (j0 ≤ j ∧ j < j0 + m)
  · rw [if_pos (by rw [e1, e2, e3, e4]; exact hin), if_pos hin, ← hB.entry (i - i0) (j - j0) p q (by omega) (by omega) hp hq]
    congr 1
    · rw [Nat.sub_mul]
      have := Nat.mul_le_mul_right h hin.1.1
      omega
    · rw [Nat.sub_mul]
      have := Nat.mul_le_mul_right w hin.2.1
      omega
  · rw [if_neg (by rw [e1, e2, e3, e4]; exact hin), if_neg hin, hM.entry i j p q hi' hj' hp hq]

/-- A matrix as one block. -/
theorem Blk.one (B : Mat K) : Blk B 1 1 B.rows B.cols (fun _ _ p q => B.e p q) :=
  ⟨by ring, by ring, fun i j p q hi hj _ _ => by
    have : i = 0 := by omega
    have : j = 0 := by omega
    subst i j
    simp⟩

theorem Blk.one' {B : Mat K} {h w : ℕ} (h1 : B.rows = h) (h2 : B.cols = w) :
    Blk B 1 1 h w (fun _ _ p q => B.e p q) := by
  subst h1 h2; exact Blk.one B

theorem Blk.congr {M : Mat K} {nv nh h w : ℕ} {F G : ℕ → ℕ → ℕ → ℕ → K} (hM : Blk M nv nh h w F)
    (he : ∀ i j p q, i < nv → j < nh → p < h → q < w → F i j p q = G i j p q) : Blk M nv nh h w G :=
  ⟨hM.rows, hM.cols, fun i j p q hi hj hp hq => by rw [hM.entry i j p q hi hj hp hq, he i j p q hi hj hp hq]⟩

variable [Field K]

/-- Product of a column of blocks with a matrix. -/
theorem Blk.mul {M B : Mat K} {nv h l w : ℕ} {F : ℕ → ℕ → ℕ → ℕ → K} (hM : Blk M nv 1 h l F) (h1 : B.rows = l)
    (h2 : B.cols = w) : ∃ P, M.mul B = .ok P ∧
      Blk P nv 1 h w (fun i _ p q => ∑ k ∈ Finset.range l, F i 0 p k * B.e k q) := by
  have hc : M.cols = l := by rw [hM.cols]; ring
  refine ⟨_, if_pos (by rw [hc, h1]), hM.rows, by simp [h2], ?_⟩
  intro i j p q hi hj hp hq
  have hj0 : j = 0 := by omega
  subst j
  simp only [Nat.zero_mul, Nat.zero_add, hc]
  refine Finset.sum_congr rfl fun k hk => ?_
  have := hM.entry i 0 p k hi (by omega) hp (Finset.mem_range.mp hk)
  rw [← this]; simp

/-- Product of a matrix with a row of blocks. -/
theorem Blk.mulLeft {A M : Mat K} {nh h l w : ℕ} {F : ℕ → ℕ → ℕ → ℕ → K} (hM : Blk M 1 nh l w F) (h1 : A.rows = h)
    (h2 : A.cols = l) : ∃ P, A.mul M = .ok P ∧
      Blk P 1 nh h w (fun _ j p q => ∑ k ∈ Finset.range l, A.e p k * F 0 j k q) := by
  have hr : M.rows = l := by rw [hM.rows]; ring
  refine ⟨_, if_pos (by rw [hr, h2]), by simp [h1], hM.cols, ?_⟩
  intro i j p q hi hj hp hq
  have hi0 : i = 0 := by omega
  subst i
  simp only [Nat.zero_mul, Nat.zero_add, h2]
  refine Finset.sum_congr rfl fun k hk => ?_
  have := hM.entry 0 j k q (by omega) hj (Finset.mem_range.mp hk) hq
  rw [← this]; simp

theorem Blk.identity (n : ℕ) : Blk (Mat.identity n : Mat K) 1 1 n n (fun _ _ p q => if p = q then 1 else 0) :=
  Blk.one' rfl rfl

theorem vecAt_ok {α : Type} {l : List α} {i : ℕ} {a : α} (h : l[i]? = some a) : vecAt l i = .ok a := by
  unfold vecAt; rw [h]

/-! ### Block matrices -/

/-- A block matrix and its blocks. -/
structure BlkM (M : BlockMat K) (nv nh h w : ℕ) (F : ℕ → ℕ → ℕ → ℕ → K) : Prop where
  br : M.br = h
  bc : M.bc = w
  blk : Blk M.m nv nh h w F

theorem finalize_ok {M : BlockMat K} {nv nh : ℕ} (h1 : 0 < M.br) (h2 : 0 < M.bc) (h3 : M.m.rows = nv * M.br)
    (h4 : M.m.cols = nh * M.bc) : M.finalize = .ok M := by
  unfold BlockMat.finalize
  rw [assertThat_true h1, ok_bind, assertThat_true (by rw [h3]; simp), ok_bind, assertThat_true h2, ok_bind,
    assertThat_true (by rw [h4]; simp)]
  rfl

theorem BlkM.resize (M : BlockMat K) (junk : ℕ → ℕ → K) (nv nh : ℕ) (h1 : 0 < M.br) (h2 : 0 < M.bc) :
    ∃ M', M.resize junk nv nh = .ok M' ∧ BlkM M' nv nh M.br M.bc
      (fun i j p q => junk (i * M.br + p) (j * M.bc + q)) :=
  ⟨_, finalize_ok (nv := nv) (nh := nh) h1 h2 rfl rfl, rfl, rfl, rfl, rfl, fun _ _ _ _ _ _ _ _ => rfl⟩

theorem BlkM.setZero (M : BlockMat K) (nv nh : ℕ) (h1 : 0 < M.br) (h2 : 0 < M.bc) :
    ∃ M', M.setZero nv nh = .ok M' ∧ BlkM M' nv nh M.br M.bc (fun _ _ _ _ => 0) :=
  ⟨_, finalize_ok (nv := nv) (nh := nh) h1 h2 rfl rfl, rfl, rfl, rfl, rfl, fun _ _ _ _ _ _ _ _ => rfl⟩

theorem BlkM.get {M : BlockMat K} {nv nh h w : ℕ} {F : ℕ → ℕ → ℕ → ℕ → K} (hM : BlkM M nv nh h w F) {i j : ℕ}
    (hi : i < nv) (hj : j < nh) : ∃ B, M.blk i j = .ok B ∧ Blk B 1 1 h w (fun _ _ p q => F i j p q) := by
  obtain ⟨B, h1, h2⟩ := hM.blk.block i j 1 1 (by omega) (by omega)
  rw [Nat.one_mul, Nat.one_mul] at h1
  refine ⟨B, by unfold BlockMat.blk; rw [hM.br, hM.bc]; exact h1, h2.congr ?_⟩
  intro i' j' p q hi' hj' _ _
  have e1 : i' = 0 := by omega
  have e2 : j' = 0 := by omega
  subst i' j'
  simp only [Nat.add_zero]

theorem BlkM.set {M : BlockMat K} {B : Mat K} {nv nh h w : ℕ} {F G : ℕ → ℕ → ℕ → ℕ → K} (hM : BlkM M nv nh h w F)
    {i0 j0 : ℕ} (hi : i0 < nv) (hj : j0 < nh) (hB : Blk B 1 1 h w G) :
    ∃ M', M.setBlk i0 j0 B = .ok M' ∧ BlkM M' nv nh h w (fun i j p q => if i = i0 ∧ j = j0 then G 0 0 p q else F i j p q) := by
  obtain ⟨m, h1, h2⟩ := hM.blk.setBlock i0 j0 1 1 (by omega) (by omega) hB
  rw [Nat.one_mul, Nat.one_mul] at h1
  refine ⟨{ M with m := m }, by unfold BlockMat.setBlk; rw [hM.br, hM.bc, h1]; rfl, hM.br, hM.bc, h2.congr ?_⟩
  intro i j p q _ _ _ _
  by_cases he : i = i0 ∧ j = j0
  · rw [if_pos (by omega), if_pos he, he.1, he.2]; simp
  · rw [if_neg (by omega), if_neg he]

theorem BlkM.row {M : BlockMat K} {nv nh h w : ℕ} {F : ℕ → ℕ → ℕ → ℕ → K} (hM : BlkM M nv nh h w F) {i n : ℕ}
    (hi : i < nv) (hj : n ≤ nh) : ∃ B, M.row i 0 n = .ok B ∧ Blk B 1 n h w (fun _ j p q => F i j p q) := by
  obtain ⟨B, h1, h2⟩ := hM.blk.block i 0 1 n (by omega) (by omega)
  rw [Nat.one_mul] at h1
  refine ⟨B, by unfold BlockMat.row; rw [hM.br, hM.bc]; exact h1, h2.congr ?_⟩
  intro i' j' p q hi' hj' _ _
  have e1 : i' = 0 := by omega
  subst i'
  simp only [Nat.add_zero, Nat.zero_add]

theorem BlkM.setRow {M : BlockMat K} {B : Mat K} {nv nh h w : ℕ} {F G : ℕ → ℕ → ℕ → ℕ → K} (hM : BlkM M nv nh h w F)
    {i0 n : ℕ} (hi : i0 < nv) (hj : n ≤ nh) (hB : Blk B 1 n h w G) :
    ∃ M', M.setRow i0 0 n B = .ok M' ∧ BlkM M' nv nh h w (fun i j p q => if i = i0 ∧ j < n then G 0 j p q else F i j p q) := by
  obtain ⟨m, h1, h2⟩ := hM.blk.setBlock i0 0 1 n (by omega) (by omega) hB
  rw [Nat.one_mul] at h1
  refine ⟨{ M with m := m }, by unfold BlockMat.setRow; rw [hM.br, hM.bc, h1]; rfl, hM.br, hM.bc, h2.congr ?_⟩
  intro i j p q _ _ _ _
  by_cases he : i = i0 ∧ j < n
  · rw [if_pos (by omega), if_pos he, he.1]; simp
  · rw [if_neg (by omega), if_neg he]

theorem BlkM.nVert {M : BlockMat K} {nv nh h w : ℕ} {F : ℕ → ℕ → ℕ → ℕ → K} (hM : BlkM M nv nh h w F) (hh : 0 < h) :
    M.nVert = nv := by
  unfold BlockMat.nVert
  rw [hM.blk.rows, hM.br, Nat.mul_div_cancel _ hh]

theorem BlkM.nHor {M : BlockMat K} {nv nh h w : ℕ} {F : ℕ → ℕ → ℕ → ℕ → K} (hM : BlkM M nv nh h w F) (hw : 0 < w) :
    M.nHor = nh := by
  unfold BlockMat.nHor
  rw [hM.blk.cols, hM.bc, Nat.mul_div_cancel _ hw]

/-! ### The recursion behind both versions of `condense` -/

/-- What the loop keeps. Rows of blocks `k` and below are finished up to the matrices `A(k)`, ..., `A(0)`. -/
structure Inv (A B : List (Mat K)) (ns nu N k : ℕ) (F : ℕ → ℕ → ℕ → ℕ → K) (G : ℕ → ℕ → ℕ → ℕ → K) : Prop where
  done : ∀ a, A[k]? = some a → ∀ x u, Trajectory A B ns nu x u → ∀ i p, k ≤ i → i < N → p < ns →
    ∑ j ∈ Finset.range ns, (∑ l ∈ Finset.range ns, F i 0 p l * a.e l j) * x k j +
      ∑ m ∈ Finset.range N, ∑ q ∈ Finset.range nu, G i m p q * u m q = x (i + 1) p
  upper : ∀ i m p q, i < N → m < N → p < ns → q < nu → i < m → G i m p q = 0
  left : ∀ i m p q, i < N → m < k → p < ns → q < nu → G i m p q = 0

/-- The new values in one step. -/
def stepF (a : Mat K) (ns k : ℕ) (F : ℕ → ℕ → ℕ → ℕ → K) : ℕ → ℕ → ℕ → ℕ → K := fun i j p q =>
  if k + 1 ≤ i then ∑ l ∈ Finset.range ns, F i j p l * a.e l q
  else if i = k then (if p = q then 1 else 0) else F i j p q

/-- The new values in one step. -/
def stepG (b : Mat K) (ns k : ℕ) (F G : ℕ → ℕ → ℕ → ℕ → K) : ℕ → ℕ → ℕ → ℕ → K := fun i m p q =>
  if m = k then
    (if k + 1 ≤ i then ∑ l ∈ Finset.range ns, F i 0 p l * b.e l q else if i = k then b.e p q else G i m p q)
  else G i m p q

theorem sum_mul_swap (n m : ℕ) (f : ℕ → K) (g : ℕ → ℕ → K) (y : ℕ → K) :
    ∑ l ∈ Finset.range n, f l * ∑ j ∈ Finset.range m, g l j * y j =
      ∑ j ∈ Finset.range m, (∑ l ∈ Finset.range n, f l * g l j) * y j := by
  simp only [Finset.mul_sum, Finset.sum_mul]
  rw [Finset.sum_comm]
  exact Finset.sum_congr rfl fun j _ => Finset.sum_congr rfl fun l _ => by ring

theorem inv_step {A B : List (Mat K)} {ns nu N k : ℕ} {F G : ℕ → ℕ → ℕ → ℕ → K} (h : Inv A B ns nu N (k + 1) F G)
    (hk : k + 1 < N) {a ak b : Mat K} (ha : A[k + 1]? = some a) (hak : A[k]? = some ak) (hb : B[k]? = some b) :
    Inv A B ns nu N k (stepF a ns k F) (stepG b ns k (stepF a ns k F) G) := by
  refine ⟨?_, ?_, ?_⟩
  · intro ak' hak' x u ht i p hik hi hp
    rw [hak] at hak'; cases hak'
    have hx := ht k ak b hak hb
    -- the state after the step `k`
    have hkey : ∑ l ∈ Finset.range ns, stepF a ns k F i 0 p l * x (k + 1) l +
        ∑ m ∈ Finset.range N, ∑ q ∈ Finset.range nu, (if m = k then 0 else G i m p q) * u m q = x (i + 1) p := by
      by_cases hlt : k + 1 ≤ i
      · have := h.done a ha x u ht i p hlt hi hp
        rw [← this]
        congr 1
        · refine Finset.sum_congr rfl fun l _ => ?_
          simp [stepF, hlt]
        · refine Finset.sum_congr rfl fun m hm => Finset.sum_congr rfl fun q hq => ?_
          by_cases hmk : m = k
          · rw [if_pos hmk, h.left i m p q hi (by omega) hp (Finset.mem_range.mp hq)]
          · rw [if_neg hmk]
      · have hik' : i = k := by omega
        subst i
        have e1 : ∑ l ∈ Finset.range ns, stepF a ns k F k 0 p l * x (k + 1) l = x (k + 1) p := by
          have : ∀ l ∈ Finset.range ns, stepF a ns k F k 0 p l * x (k + 1) l = if p = l then x (k + 1) l else 0 := by
            intro l _
            have : ¬ (k + 1 ≤ k) := by omega
            simp only [stepF, this, if_false, if_true]
            split <;> simp
          rw [Finset.sum_congr rfl this]
          simp [hp]
        have e2 : ∑ m ∈ Finset.range N, ∑ q ∈ Finset.range nu, (if m = k then 0 else G k m p q) * u m q = 0 := by
          refine Finset.sum_eq_zero fun m hm => Finset.sum_eq_zero fun q hq => ?_
          by_cases hmk : m = k
          · rw [if_pos hmk, zero_mul]
          · rw [if_neg hmk]
            have hmN := Finset.mem_range.mp hm
            by_cases hlt' : m < k
            · rw [h.left k m p q hi (by omega) hp (Finset.mem_range.mp hq), zero_mul]
            · rw [h.upper k m p q hi hmN hp (Finset.mem_range.mp hq) (by omega), zero_mul]
        rw [e1, e2, add_zero]
    rw [← hkey]
    -- substitute the recursion
    have e1 : ∑ l ∈ Finset.range ns, stepF a ns k F i 0 p l * x (k + 1) l =
        ∑ j ∈ Finset.range ns, (∑ l ∈ Finset.range ns, stepF a ns k F i 0 p l * ak.e l j) * x k j +
        ∑ q ∈ Finset.range nu, (∑ l ∈ Finset.range ns, stepF a ns k F i 0 p l * b.e l q) * u k q := by
      rw [← sum_mul_swap, ← sum_mul_swap, ← Finset.sum_add_distrib]
      refine Finset.sum_congr rfl fun l hl => ?_
      rw [hx l (Finset.mem_range.mp hl)]; ring
    have e2 : ∑ m ∈ Finset.range N, ∑ q ∈ Finset.range nu, stepG b ns k (stepF a ns k F) G i m p q * u m q =
        ∑ q ∈ Finset.range nu, (∑ l ∈ Finset.range ns, stepF a ns k F i 0 p l * b.e l q) * u k q +
        ∑ m ∈ Finset.range N, ∑ q ∈ Finset.range nu, (if m = k then 0 else G i m p q) * u m q := by
      have hkm : k ∈ Finset.range N := Finset.mem_range.mpr (by omega)
      rw [← Finset.add_sum_erase _ _ hkm, ← Finset.add_sum_erase _ (fun m => ∑ q ∈ Finset.range nu, (if m = k then 0 else G i m p q) * u m q) hkm]
      have e3 : ∑ q ∈ Finset.range nu, (if k = k then 0 else G i k p q) * u k q = 0 := by simp
      rw [e3, zero_add]
      congr 1
      · refine Finset.sum_congr rfl fun q hq => ?_
        congr 1
        unfold stepG
        rw [if_pos rfl]
        by_cases hlt : k + 1 ≤ i
        · rw [if_pos hlt]
        · rw [if_neg hlt, if_pos (by omega)]
          have hik' : i = k := by omega
          subst i
          have : ∀ l ∈ Finset.range ns, stepF a ns k F k 0 p l * b.e l q = if p = l then b.e l q else 0 := by
            intro l _
            simp only [stepF, hlt, if_false, if_true]
            split <;> simp
          rw [Finset.sum_congr rfl this]
          simp [hp]
      · refine Finset.sum_congr rfl fun m hm => Finset.sum_congr rfl fun q _ => ?_
        have hmk := (Finset.mem_erase.mp hm).1
        unfold stepG
        rw [if_neg hmk, if_neg hmk]
    rw [e2, e1]; ring
  · intro i m p q hi hm hp hq him
    unfold stepG
    by_cases hmk : m = k
    · rw [if_pos hmk, if_neg (by omega), if_neg (by omega)]
      exact h.upper i m p q hi hm hp hq him
    · rw [if_neg hmk]; exact h.upper i m p q hi hm hp hq him
  · intro i m p q hi hm hp hq
    unfold stepG
    rw [if_neg (by omega)]
    exact h.left i m p q hi (by omega) hp hq

/-- The state before the loop. -/
theorem inv_init {A B : List (Mat K)} {ns nu N : ℕ} {F : ℕ → ℕ → ℕ → ℕ → K} {G : ℕ → ℕ → ℕ → ℕ → K} (hN : 0 < N)
    {b : Mat K} (hb : B[N - 1]? = some b)
    (hF : ∀ p q, p < ns → q < ns → F (N - 1) 0 p q = if p = q then 1 else 0)
    (hG : ∀ i m p q, i < N → m < N → p < ns → q < nu → G i m p q = if i = N - 1 ∧ m = N - 1 then b.e p q else 0) :
    Inv A B ns nu N (N - 1) F G := by
  refine ⟨?_, ?_, ?_⟩
  · intro a ha x u ht i p hik hi hp
    have hi' : i = N - 1 := by omega
    subst i
    rw [ht (N - 1) a b ha hb p hp]
    congr 1
    · refine Finset.sum_congr rfl fun j _ => ?_
      have : ∀ l ∈ Finset.range ns, F (N - 1) 0 p l * a.e l j = if p = l then a.e l j else 0 := by
        intro l hl
        rw [hF p l hp (Finset.mem_range.mp hl)]
        split <;> simp
      rw [Finset.sum_congr rfl this]
      simp [hp]
    · have hkm : N - 1 ∈ Finset.range N := Finset.mem_range.mpr (by omega)
      rw [← Finset.add_sum_erase _ _ hkm]
      have e0 : ∑ m ∈ (Finset.range N).erase (N - 1), ∑ q ∈ Finset.range nu, G (N - 1) m p q * u m q = 0 := by
        refine Finset.sum_eq_zero fun m hm => Finset.sum_eq_zero fun q hq => ?_
        have hm' := Finset.mem_erase.mp hm
        rw [hG (N - 1) m p q (by omega) (Finset.mem_range.mp hm'.2) hp (Finset.mem_range.mp hq), if_neg (by
          intro h; exact hm'.1 h.2), zero_mul]
      rw [e0, add_zero]
      refine Finset.sum_congr rfl fun q hq => ?_
      rw [hG (N - 1) (N - 1) p q (by omega) (by omega) hp (Finset.mem_range.mp hq), if_pos ⟨rfl, rfl⟩]
  · intro i m p q hi hm hp hq him
    rw [hG i m p q hi hm hp hq, if_neg (by omega)]
  · intro i m p q hi hm hp hq
    rw [hG i m p q hi (by omega) hp hq, if_neg (by omega)]

/-! ### Dense matrices -/

theorem AllSize.get {l : List (Mat K)} {h w : ℕ} (hl : AllSize l h w) {k : ℕ} (hk : k < l.length) :
    ∃ a, l[k]? = some a ∧ a.rows = h ∧ a.cols = w :=
  ⟨l[k], List.getElem?_eq_getElem hk, (hl _ (List.getElem_mem hk)).1, (hl _ (List.getElem_mem hk)).2⟩

theorem denseStep_ok {A B : List (Mat K)} {ns nu N k : ℕ} {S U : Mat K} {F G : ℕ → ℕ → ℕ → ℕ → K}
    (hS : Blk S N 1 ns ns F) (hU : Blk U N N ns nu G) (hk : k + 1 < N) {a b : Mat K} (ha : A[k + 1]? = some a)
    (hb : B[k]? = some b) (ha1 : a.rows = ns) (ha2 : a.cols = ns) (hb1 : b.rows = ns) (hb2 : b.cols = nu) :
    ∃ S' U', condenseDenseStep A B N ns nu k S U = .ok (S', U') ∧ Blk S' N 1 ns ns (stepF a ns k F) ∧
      Blk U' N N ns nu (stepG b ns k (stepF a ns k F) G) := by
  obtain ⟨s, e1, h1⟩ := hS.block (k + 1) 0 (N - k - 1) 1 (by omega) (by omega)
  obtain ⟨p, e2, h2⟩ := h1.mul ha1 ha2
  obtain ⟨S1, e3, h3⟩ := hS.setBlock (k + 1) 0 (N - k - 1) 1 (by omega) (by omega) h2
  obtain ⟨S2, e4, h4⟩ := h3.setBlock k 0 1 1 (by omega) (by omega) (Blk.identity ns)
  obtain ⟨U1, e5, h5⟩ := hU.setBlock k k 1 1 (by omega) (by omega) (Blk.one' hb1 hb2)
  have hF : Blk S2 N 1 ns ns (stepF a ns k F) := by
    refine h4.congr fun i j p q hi hj hp hq => ?_
    have hj0 : j = 0 := by omega
    subst j
    unfold stepF
    by_cases c1 : k + 1 ≤ i
    · rw [if_neg (by omega), if_pos (by omega), if_pos c1]
      have : k + 1 + (i - (k + 1)) = i := by omega
      simp only [this, Nat.add_zero]
    · by_cases c2 : i = k
      · rw [if_pos (by omega), if_neg c1, if_pos c2]
      · rw [if_neg (by omega), if_neg (by omega), if_neg c1, if_neg c2]
  obtain ⟨s', e6, h6⟩ := hF.block (k + 1) 0 (N - k - 1) 1 (by omega) (by omega)
  obtain ⟨p', e7, h7⟩ := h6.mul hb1 hb2
  obtain ⟨U2, e8, h8⟩ := h5.setBlock (k + 1) k (N - k - 1) 1 (by omega) (by omega) h7
  simp only [Nat.zero_mul, Nat.one_mul] at e1 e3 e4 e5 e6 e8
  refine ⟨S2, U2, ?_, hF, ?_⟩
  · unfold condenseDenseStep
    rw [vecAt_ok ha, ok_bind, e1, ok_bind, e2, ok_bind, e3, ok_bind, e4, ok_bind, vecAt_ok hb, ok_bind, e5, ok_bind, e6,
      ok_bind, e7, ok_bind, e8, ok_bind]
    rfl
  · refine h8.congr fun i m p q hi hm hp hq => ?_
    unfold stepG
    by_cases c0 : m = k
    · rw [if_pos c0]
      by_cases c1 : k + 1 ≤ i
      · rw [if_pos (by omega), if_pos c1]
        refine Finset.sum_congr rfl fun l hl => ?_
        have e : k + 1 + (i - (k + 1)) = i := by omega
        rw [e]
      · by_cases c2 : i = k
        · rw [if_neg (by omega), if_pos (by omega), if_neg c1, if_pos c2]
        · rw [if_neg (by omega), if_neg (by omega), if_neg c1, if_neg c2]
    · rw [if_neg (by omega), if_neg (by omega), if_neg c0]

/-- Multiplication with `A(0)` at the end. -/
theorem inv_final {A B : List (Mat K)} {ns nu : ℕ} {S U : Mat K} {F G : ℕ → ℕ → ℕ → ℕ → K}
    (h : Inv A B ns nu A.length 0 F G) {a : Mat K} (ha : A[0]? = some a)
    (hS : Blk S A.length 1 ns ns (fun i j p q => ∑ l ∈ Finset.range ns, F i j p l * a.e l q))
    (hU : Blk U A.length A.length ns nu G) : Condensed S U A B ns nu := by
  refine ⟨hS.rows, by rw [hS.cols]; ring, hU.rows, hU.cols, ?_⟩
  intro x u ht k hk i hi
  rw [← h.done a ha x u ht k i (by omega) hk hi]
  unfold stateTerm controlTerm
  congr 1
  · refine Finset.sum_congr rfl fun j hj => ?_
    have := hS.entry k 0 i j hk (by omega) hi (Finset.mem_range.mp hj)
    rw [Nat.zero_mul, Nat.zero_add] at this
    rw [this]
  · refine Finset.sum_congr rfl fun m hm => Finset.sum_congr rfl fun q hq => ?_
    rw [hU.entry k m i q hk (Finset.mem_range.mp hm) hi (Finset.mem_range.mp hq)]

/-- What the loops of both versions do. `Sok`, `Uok` describe the representations of the matrices. -/
theorem condense_loop {σ : Type} {A B : List (Mat K)} {ns nu : ℕ} (hAB : A.length = B.length)
    (hA : AllSize A ns ns) (hB : AllSize B ns nu)
    (R : σ → (ℕ → ℕ → ℕ → ℕ → K) → (ℕ → ℕ → ℕ → ℕ → K) → Prop) (body : σ → ℕ → Res σ)
    (hstep : ∀ s F G k a b, R s F G → k + 1 < A.length → A[k + 1]? = some a → B[k]? = some b → a.rows = ns →
      a.cols = ns → b.rows = ns → b.cols = nu →
      ∃ s', body s (A.length - 2 - k) = .ok s' ∧ R s' (stepF a ns k F) (stepG b ns k (stepF a ns k F) G))
    {s : σ} {F G : ℕ → ℕ → ℕ → ℕ → K} (hs : R s F G) (hN : 0 < A.length) (hi : Inv A B ns nu A.length (A.length - 1) F G) :
    ∃ s', forRange (A.length - 1) s body = .ok s' ∧ ∃ F G, R s' F G ∧ Inv A B ns nu A.length 0 F G := by
  refine forRange_post (P := fun t s => ∃ F G, R s F G ∧ Inv A B ns nu A.length (A.length - 1 - t) F G) ?_ ?_ ?_
  · exact ⟨F, G, hs, hi⟩
  · rintro t s ht ⟨F, G, hR, hI⟩
    obtain ⟨a, ha, ha1, ha2⟩ := AllSize.get hA (k := A.length - 2 - t + 1) (by omega)
    obtain ⟨ak, hak, _, _⟩ := AllSize.get hA (k := A.length - 2 - t) (by omega)
    obtain ⟨b, hb, hb1, hb2⟩ := AllSize.get hB (k := A.length - 2 - t) (by omega)
    obtain ⟨s', h1, h2⟩ := hstep s F G (A.length - 2 - t) a b hR (by omega) ha hb ha1 ha2 hb1 hb2
    have e : A.length - 2 - (A.length - 2 - t) = t := by omega
    rw [e] at h1
    have e2 : A.length - 1 - t = A.length - 2 - t + 1 := by omega
    have e3 : A.length - 1 - (t + 1) = A.length - 2 - t := by omega
    rw [e2] at hI
    exact ⟨s', h1, _, _, h2, by rw [e3]; exact inv_step hI (by omega) ha hak hb⟩
  · rintro s ⟨F, G, hR, hI⟩
    rw [Nat.sub_self] at hI
    exact ⟨F, G, hR, hI⟩

theorem condenseDense_ok (junk : ℕ → ℕ → K) {A B : List (Mat K)} {ns nu : ℕ} (hN : 0 < A.length)
    (hAB : A.length = B.length) (hA : AllSize A ns ns) (hB : AllSize B ns nu) :
    ∃ S U, condenseDense junk A B = .ok (S, U) ∧ Condensed S U A B ns nu := by
  obtain ⟨a0, ha0, ha1, ha2⟩ := AllSize.get hA (k := 0) hN
  obtain ⟨b0, hb0, hb1, hb2⟩ := AllSize.get hB (k := 0) (by omega)
  obtain ⟨bl, hbl, hbl1, hbl2⟩ := AllSize.get hB (k := A.length - 1) (by omega)
  have hS0 : Blk (⟨ns * A.length, ns, junk⟩ : Mat K) A.length 1 ns ns (fun i j p q => junk (i * ns + p) (j * ns + q)) :=
    ⟨Nat.mul_comm _ _, (Nat.one_mul _).symm, fun _ _ _ _ _ _ _ _ => rfl⟩
  have hU0 : Blk (⟨ns * A.length, nu * A.length, fun _ _ => 0⟩ : Mat K) A.length A.length ns nu (fun _ _ _ _ => 0) :=
    ⟨Nat.mul_comm _ _, Nat.mul_comm _ _, fun _ _ _ _ _ _ _ _ => rfl⟩
  obtain ⟨S1, e1, h1⟩ := hS0.setBlock (A.length - 1) 0 1 1 (by omega) (by omega) (Blk.identity ns)
  obtain ⟨U1, e2, h2⟩ := hU0.setBlock (A.length - 1) (A.length - 1) 1 1 (by omega) (by omega) (Blk.one' hbl1 hbl2)
  have hI : Inv A B ns nu A.length (A.length - 1) _ _ := inv_init (A := A) hN hbl
    (F := fun i j p q => if (A.length - 1 ≤ i ∧ i < A.length - 1 + 1) ∧ 0 ≤ j ∧ j < 0 + 1 then if p = q then 1 else 0
      else junk (i * ns + p) (j * ns + q)) (ns := ns) (nu := nu)
    (G := fun i j p q => if (A.length - 1 ≤ i ∧ i < A.length - 1 + 1) ∧ A.length - 1 ≤ j ∧ j < A.length - 1 + 1 then bl.e p q
      else 0)
    (fun p q _ _ => by rw [if_pos (by omega)])
    (fun i m p q hi hm _ _ => by
      by_cases c : i = A.length - 1 ∧ m = A.length - 1
      · rw [if_pos c, if_pos (by omega)]
      · rw [if_neg c, if_neg (by omega)])
  simp only [Nat.zero_mul, Nat.one_mul] at e1 e2
  obtain ⟨⟨S2, U2⟩, e3, F, G, ⟨hS2, hU2⟩, hI2⟩ := condense_loop (σ := Mat K × Mat K) hAB hA hB
    (fun s F G => Blk s.1 A.length 1 ns ns F ∧ Blk s.2 A.length A.length ns nu G)
    (fun s t => condenseDenseStep A B A.length ns nu (A.length - 2 - t) s.1 s.2)
    (fun s F G k a b hR hk ha hb ha1 ha2 hb1 hb2 => by
      obtain ⟨S', U', h1, h2, h3⟩ := denseStep_ok hR.1 hR.2 hk ha hb ha1 ha2 hb1 hb2
      have e : A.length - 2 - (A.length - 2 - k) = k := by omega
      exact ⟨(S', U'), by rw [e]; exact h1, h2, h3⟩)
    (s := (S1, U1)) ⟨h1, h2⟩ hN hI
  obtain ⟨S3, e4, h4⟩ := hS2.mul ha1 ha2
  refine ⟨S3, U2, ?_, inv_final hI2 ha0 (h4.congr fun i j p q _ hj _ _ => ?_) hU2⟩
  · unfold condenseDense
    rw [assertThat_true hAB, ok_bind, assertThat_true hN, ok_bind, vecAt_ok ha0, ok_bind, vecAt_ok hb0, ok_bind,
      assertThat_true ⟨by rw [ha1, hb1], by rw [ha2, hb1]⟩, ok_bind]
    dsimp only
    rw [hb1, hb2, e1, ok_bind, vecAt_ok hbl, ok_bind, e2, ok_bind]
    have e3' : forRange (A.length - 1) (S1, U1)
        (fun x t => match x with | (S, U) => condenseDenseStep A B A.length ns nu (A.length - 2 - t) S U) = .ok (S2, U2) := e3
    rw [e3', ok_bind]
    dsimp only
    rw [e4, ok_bind]
    rfl
  · have hj0 : j = 0 := by omega
    subst j
    rfl

/-! ### Block matrices -/

theorem scale_ok {a : Mat K} {S : BlockMat K} {N ns k : ℕ} {F : ℕ → ℕ → ℕ → ℕ → K} (hS : BlkM S N 1 ns ns F)
    (hk : k + 1 < N) (ha1 : a.rows = ns) (ha2 : a.cols = ns) :
    ∃ S', forRange (N - (k + 1)) S (fun S t => condenseScale a S (k + 1 + t)) = .ok S' ∧
      BlkM S' N 1 ns ns (fun i j p q => if k + 1 ≤ i then ∑ l ∈ Finset.range ns, F i j p l * a.e l q else F i j p q) := by
  refine forRange_post (P := fun t S => BlkM S N 1 ns ns (fun i j p q =>
    if k + 1 ≤ i ∧ i < k + 1 + t then ∑ l ∈ Finset.range ns, F i j p l * a.e l q else F i j p q)) ?_ ?_ ?_
  · exact ⟨hS.br, hS.bc, hS.blk.congr fun i j p q _ _ _ _ => by rw [if_neg (by omega)]⟩
  · intro t S ht hP
    obtain ⟨b, e1, h1⟩ := hP.get (i := k + 1 + t) (j := 0) (by omega) (by omega)
    obtain ⟨p, e2, h2⟩ := h1.mul ha1 ha2
    obtain ⟨S', e3, h3⟩ := hP.set (i0 := k + 1 + t) (j0 := 0) (by omega) (by omega) h2
    refine ⟨S', by unfold condenseScale; rw [e1, ok_bind, e2, ok_bind, e3], h3.br, h3.bc, h3.blk.congr ?_⟩
    intro i j p q hi hj hp hq
    have hj0 : j = 0 := by omega
    subst j
    by_cases c : i = k + 1 + t
    · rw [if_pos ⟨c, rfl⟩, if_pos (by omega)]
      refine Finset.sum_congr rfl fun l _ => ?_
      rw [if_neg (by omega), c]
    · rw [if_neg (by omega)]
      by_cases c' : k + 1 ≤ i ∧ i < k + 1 + t
      · rw [if_pos c', if_pos (by omega)]
      · rw [if_neg c', if_neg (by omega)]
  · intro S hP
    refine ⟨hP.br, hP.bc, hP.blk.congr fun i j p q hi _ _ _ => ?_⟩
    by_cases c : k + 1 ≤ i
    · rw [if_pos (by omega), if_pos c]
    · rw [if_neg (by omega), if_neg c]

theorem fill_ok {b : Mat K} {S U : BlockMat K} {N ns nu k : ℕ} {F G : ℕ → ℕ → ℕ → ℕ → K} (hS : BlkM S N 1 ns ns F)
    (hU : BlkM U N N ns nu G) (hk : k + 1 < N) (hb1 : b.rows = ns) (hb2 : b.cols = nu) :
    ∃ U', forRange (N - (k + 1)) U (fun U t => condenseFill S b k U (k + 1 + t)) = .ok U' ∧
      BlkM U' N N ns nu (fun i m p q =>
        if k + 1 ≤ i ∧ m = k then ∑ l ∈ Finset.range ns, F i 0 p l * b.e l q else G i m p q) := by
  refine forRange_post (P := fun t U => BlkM U N N ns nu (fun i m p q =>
    if (k + 1 ≤ i ∧ i < k + 1 + t) ∧ m = k then ∑ l ∈ Finset.range ns, F i 0 p l * b.e l q else G i m p q)) ?_ ?_ ?_
  · exact ⟨hU.br, hU.bc, hU.blk.congr fun i j p q _ _ _ _ => by rw [if_neg (by omega)]⟩
  · intro t U ht hP
    obtain ⟨s, e1, h1⟩ := hS.get (i := k + 1 + t) (j := 0) (by omega) (by omega)
    obtain ⟨p, e2, h2⟩ := h1.mul hb1 hb2
    obtain ⟨U', e3, h3⟩ := hP.set (i0 := k + 1 + t) (j0 := k) (by omega) (by omega) h2
    refine ⟨U', by unfold condenseFill; rw [e1, ok_bind, e2, ok_bind, e3], h3.br, h3.bc, h3.blk.congr ?_⟩
    intro i m p q hi hm hp hq
    by_cases c : i = k + 1 + t ∧ m = k
    · rw [if_pos c, if_pos (by omega), c.1]
    · rw [if_neg c]
      by_cases c' : (k + 1 ≤ i ∧ i < k + 1 + t) ∧ m = k
      · rw [if_pos c', if_pos (by omega)]
      · rw [if_neg c', if_neg (by omega)]
  · intro U hP
    refine ⟨hP.br, hP.bc, hP.blk.congr fun i m p q hi _ _ _ => ?_⟩
    by_cases c : k + 1 ≤ i ∧ m = k
    · rw [if_pos (by omega), if_pos c]
    · rw [if_neg (by omega), if_neg c]

theorem blockStep_ok {A B : List (Mat K)} {ns nu N k : ℕ} {S U : BlockMat K} {F G : ℕ → ℕ → ℕ → ℕ → K}
    (hS : BlkM S N 1 ns ns F) (hU : BlkM U N N ns nu G) (hk : k + 1 < N) {a b : Mat K} (ha : A[k + 1]? = some a)
    (hb : B[k]? = some b) (ha1 : a.rows = ns) (ha2 : a.cols = ns) (hb1 : b.rows = ns) (hb2 : b.cols = nu) :
    ∃ S' U', condenseStep A B N k S U = .ok (S', U') ∧ BlkM S' N 1 ns ns (stepF a ns k F) ∧
      BlkM U' N N ns nu (stepG b ns k (stepF a ns k F) G) := by
  obtain ⟨S1, e1, h1⟩ := scale_ok hS hk ha1 ha2
  obtain ⟨S2, e2, h2⟩ := h1.set (i0 := k) (j0 := 0) (by omega) (by omega) (Blk.identity ns)
  obtain ⟨U1, e3, h3⟩ := hU.set (i0 := k) (j0 := k) (by omega) (by omega) (Blk.one' hb1 hb2)
  have hF : BlkM S2 N 1 ns ns (stepF a ns k F) := by
    refine ⟨h2.br, h2.bc, h2.blk.congr fun i j p q hi hj hp hq => ?_⟩
    have hj0 : j = 0 := by omega
    subst j
    unfold stepF
    by_cases c1 : k + 1 ≤ i
    · rw [if_neg (by omega), if_pos c1, if_pos c1]
    · by_cases c2 : i = k
      · rw [if_pos ⟨c2, rfl⟩, if_neg c1, if_pos c2]
      · rw [if_neg (by omega), if_neg c1, if_neg c1, if_neg c2]
  obtain ⟨U2, e4, h4⟩ := fill_ok hF h3 hk hb1 hb2
  refine ⟨S2, U2, ?_, hF, h4.br, h4.bc, h4.blk.congr fun i m p q hi hm hp hq => ?_⟩
  · unfold condenseStep
    rw [vecAt_ok ha, ok_bind, e1, ok_bind]
    rw [show S1.br = ns from h1.br, e2, ok_bind, vecAt_ok hb, ok_bind, e3, ok_bind, e4, ok_bind]
    rfl
  · unfold stepG
    by_cases c0 : m = k
    · rw [if_pos c0]
      by_cases c1 : k + 1 ≤ i
      · rw [if_pos ⟨c1, c0⟩, if_pos c1]
      · by_cases c2 : i = k
        · rw [if_neg (by omega), if_pos ⟨c2, c0⟩, if_neg c1, if_pos c2]
        · rw [if_neg (by omega), if_neg (by omega), if_neg c1, if_neg c2]
    · rw [if_neg (by omega), if_neg (by omega), if_neg c0]

theorem condense_ok (junk : ℕ → ℕ → K) {A B : List (Mat K)} {ns nu : ℕ} {S0 U0 : BlockMat K} (hN : 0 < A.length)
    (hAB : A.length = B.length) (hA : AllSize A ns ns) (hB : AllSize B ns nu) (hns : 0 < ns) (hnu : 0 < nu)
    (hS1 : S0.br = ns) (hS2 : S0.bc = ns) (hU1 : U0.br = ns) (hU2 : U0.bc = nu) :
    ∃ S U, condense junk S0 U0 A B = .ok (S, U) ∧ S.br = ns ∧ S.bc = ns ∧ U.br = ns ∧ U.bc = nu ∧
      Condensed S.m U.m A B ns nu := by
  obtain ⟨a0, ha0, ha1, ha2⟩ := AllSize.get hA (k := 0) hN
  obtain ⟨bl, hbl, hbl1, hbl2⟩ := AllSize.get hB (k := A.length - 1) (by omega)
  obtain ⟨Sr, e1, h1⟩ := BlkM.resize S0 junk A.length 1 (by omega) (by omega)
  obtain ⟨Ur, e2, h2⟩ := BlkM.setZero U0 A.length A.length (by omega) (by omega)
  rw [hS1, hS2] at h1
  rw [hU1, hU2] at h2
  obtain ⟨S1, e3, h3⟩ := h1.set (i0 := A.length - 1) (j0 := 0) (by omega) (by omega) (Blk.identity ns)
  obtain ⟨U1, e4, h4⟩ := h2.set (i0 := A.length - 1) (j0 := A.length - 1) (by omega) (by omega) (Blk.one' hbl1 hbl2)
  have hI : Inv A B ns nu A.length (A.length - 1) _ _ := inv_init (A := A) hN hbl
    (F := fun i j p q => if i = A.length - 1 ∧ j = 0 then if p = q then 1 else 0
      else junk (i * ns + p) (j * ns + q)) (ns := ns) (nu := nu)
    (G := fun i j p q => if i = A.length - 1 ∧ j = A.length - 1 then bl.e p q else 0)
    (fun p q _ _ => by rw [if_pos ⟨rfl, rfl⟩])
    (fun i m p q hi hm _ _ => rfl)
  obtain ⟨⟨S2, U2⟩, e5, F, G, ⟨hS2', hU2'⟩, hI2⟩ := condense_loop (σ := BlockMat K × BlockMat K) hAB hA hB
    (fun s F G => BlkM s.1 A.length 1 ns ns F ∧ BlkM s.2 A.length A.length ns nu G)
    (fun s t => condenseStep A B A.length (A.length - 2 - t) s.1 s.2)
    (fun s F G k a b hR hk ha hb ha1 ha2 hb1 hb2 => by
      obtain ⟨S', U', h1, h2, h3⟩ := blockStep_ok hR.1 hR.2 hk ha hb ha1 ha2 hb1 hb2
      have e : A.length - 2 - (A.length - 2 - k) = k := by omega
      exact ⟨(S', U'), by rw [e]; exact h1, h2, h3⟩)
    (s := (S1, U1)) ⟨h3, h4⟩ hN hI
  obtain ⟨c, e6, h6⟩ := hS2'.blk.block 0 0 A.length 1 (by omega) (by omega)
  obtain ⟨p, e7, h7⟩ := h6.mul ha1 ha2
  obtain ⟨S3, e8, h8⟩ := hS2'.blk.setBlock 0 0 A.length 1 (by omega) (by omega) h7
  have hnv : S2.nVert = A.length := hS2'.nVert hns
  refine ⟨{ S2 with m := S3 }, U2, ?_, hS2'.br, hS2'.bc, hU2'.br, hU2'.bc,
    inv_final hI2 ha0 (h8.congr fun i j p q hi hj _ _ => ?_) hU2'.blk⟩
  · unfold condense
    rw [assertThat_true hAB, ok_bind, assertThat_true hN, ok_bind]
    dsimp only
    rw [e1, ok_bind, e2, ok_bind, show Sr.br = ns from h1.br, e3, ok_bind, vecAt_ok hbl, ok_bind, e4, ok_bind]
    have e5' : forRange (A.length - 1) (S1, U1)
        (fun x t => match x with | (S, U) => condenseStep A B A.length (A.length - 2 - t) S U) = .ok (S2, U2) := e5
    rw [e5', ok_bind]
    dsimp only
    rw [vecAt_ok ha0, ok_bind]
    have e6' : S2.column 0 0 = .ok c := by
      unfold BlockMat.column
      rw [hnv, show S2.br = ns from hS2'.br, show S2.bc = ns from hS2'.bc, Nat.sub_zero]
      rw [Nat.one_mul] at e6
      exact e6
    have e8' : S2.setColumn 0 0 p = .ok { S2 with m := S3 } := by
      unfold BlockMat.setColumn
      rw [hnv, show S2.br = ns from hS2'.br, show S2.bc = ns from hS2'.bc, Nat.sub_zero]
      rw [Nat.one_mul] at e8
      rw [e8]; rfl
    rw [e6', ok_bind, e7, ok_bind, e8', ok_bind]
    rfl
  · have hj0 : j = 0 := by omega
    subst j
    rw [if_pos (by omega)]
    simp only [Nat.zero_add, Nat.sub_zero]

end Humoto
