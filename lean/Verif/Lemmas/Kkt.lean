import Verif.Spec.Kkt
import Verif.Lemmas.Constraints
import Mathlib.Tactic.Linarith
import Mathlib.Tactic.LinearCombination
import Mathlib.Tactic.FieldSimp
import Mathlib.Algebra.Order.BigOperators.Group.Finset

/-!
# Optimality conditions
-/

set_option linter.unusedSectionVars false

namespace Humoto

open Spec Finset

variable {K : Type} [Field K] [LinearOrder K] [IsStrictOrderedRing K]

/-- `x'*H*y` -/
def bilin (n : ℕ) (H : ℕ → ℕ → K) (x y : ℕ → K) : K := ∑ i ∈ range n, ∑ j ∈ range n, H i j * x i * y j

theorem bilin_comm {n : ℕ} {H : ℕ → ℕ → K} (hs : ∀ i j, i < n → j < n → H i j = H j i) (x y : ℕ → K) :
    bilin n H x y = bilin n H y x := by
  unfold bilin
  rw [Finset.sum_comm]
  refine Finset.sum_congr rfl fun i hi => Finset.sum_congr rfl fun j hj => ?_
  rw [hs j i (by simpa using hj) (by simpa using hi)]; ring

theorem bilin_eq (n : ℕ) (H : ℕ → ℕ → K) (x y : ℕ → K) :
    bilin n H x y = ∑ i ∈ range n, x i * ∑ j ∈ range n, H i j * y j := by
  unfold bilin
  refine Finset.sum_congr rfl fun i _ => ?_
  rw [Finset.mul_sum]
  exact Finset.sum_congr rfl fun j _ => by ring

theorem bilin_add (n : ℕ) (H : ℕ → ℕ → K) (x d : ℕ → K) (hs : ∀ i j, i < n → j < n → H i j = H j i) :
    bilin n H (fun i => x i + d i) (fun i => x i + d i) = bilin n H x x + 2 * bilin n H d x + bilin n H d d := by
  have h1 : bilin n H (fun i => x i + d i) (fun i => x i + d i) =
      bilin n H x x + bilin n H x d + bilin n H d x + bilin n H d d := by
    unfold bilin
    simp only [← Finset.sum_add_distrib]
    exact Finset.sum_congr rfl fun i _ => Finset.sum_congr rfl fun j _ => by ring
  rw [h1, bilin_comm hs x d]; ring

/-- `d'*A'*l = l'*A*d` -/
theorem transpose_product (n m : ℕ) (A : ℕ → ℕ → K) (l d : ℕ → K) :
    ∑ i ∈ range n, d i * ∑ k ∈ range m, A k i * l k = ∑ k ∈ range m, l k * ∑ j ∈ range n, A k j * d j := by
  simp only [Finset.mul_sum]
  rw [Finset.sum_comm]
  exact Finset.sum_congr rfl fun i _ => Finset.sum_congr rfl fun j _ => by ring

/-- A point which satisfies the optimality conditions is better than any other one by half the curvature. -/
theorem kkt_gap {n m : ℕ} {H : ℕ → ℕ → K} {g : ℕ → K} {A : ℕ → ℕ → K} {b x l : ℕ → K}
    (hs : ∀ i j, i < n → j < n → H i j = H j i)
    (h1 : ∀ i, i < n → ∑ j ∈ range n, H i j * x j + ∑ k ∈ range m, A k i * l k = - g i)
    (h2 : ∀ k, k < m → ∑ j ∈ range n, A k j * x j = b k) (y : ℕ → K)
    (hy : ∀ k, k < m → ∑ j ∈ range n, A k j * y j = b k) :
    bilin n H y y / 2 + ∑ i ∈ range n, g i * y i =
      bilin n H x x / 2 + ∑ i ∈ range n, g i * x i + bilin n H (fun i => y i - x i) (fun i => y i - x i) / 2 := by
  have e := bilin_add n H x (fun i => y i - x i) hs
  simp only [add_sub_cancel] at e
  have h3 : ∑ i ∈ range n, (y i - x i) * (∑ j ∈ range n, H i j * x j + ∑ k ∈ range m, A k i * l k) =
      ∑ i ∈ range n, (y i - x i) * (- g i) :=
    Finset.sum_congr rfl fun i hi => by rw [h1 i (by simpa using hi)]
  simp only [mul_add, Finset.sum_add_distrib] at h3
  rw [← bilin_eq, transpose_product] at h3
  have h4 : ∑ k ∈ range m, l k * ∑ j ∈ range n, A k j * (y j - x j) = 0 := by
    refine Finset.sum_eq_zero fun k hk => ?_
    have : ∑ j ∈ range n, A k j * (y j - x j) = 0 := by
      simp only [mul_sub, Finset.sum_sub_distrib]
      rw [h2 k (by simpa using hk), hy k (by simpa using hk)]; ring
    rw [this, mul_zero]
  have h5 : ∑ i ∈ range n, (y i - x i) * (- g i) = ∑ i ∈ range n, g i * x i - ∑ i ∈ range n, g i * y i := by
    rw [← Finset.sum_sub_distrib]
    exact Finset.sum_congr rfl fun i _ => by ring
  rw [h4, h5] at h3
  linear_combination e / 2 + h3

theorem quadratic_eq_bilin {H : Mat K} {n : ℕ} (hr : H.rows = n) (hc : H.cols = n) (x : ℕ → K) :
    quadratic H x = bilin n H.e x x := by
  simp [quadratic, bilin, hr, hc]

theorem linear_eq {g : Vec K} {n : ℕ} (h : g.n = n) (x : ℕ → K) : linear g x = ∑ i ∈ range n, g.e i * x i := by
  simp [linear, h]

/-- Optimality conditions are sufficient. -/
theorem isMinimiser_of_kkt {n : ℕ} {H : Mat K} {g : Vec K} {A : Mat K} {b : Vec K} {x l : ℕ → K} (hr : H.rows = n)
    (hc : H.cols = n) (hg : g.n = n) (hA : A.cols = n) (hs : PositiveSemidefinite H)
    (h1 : ∀ i, i < n → ∑ j ∈ range n, H.e i j * x j + ∑ k ∈ range A.rows, A.e k i * l k = - g.e i)
    (h2 : Feasible A b x) : IsMinimiser H g A b x := by
  refine ⟨h2, fun y hy => ?_⟩
  have hs' : ∀ i j, i < n → j < n → H.e i j = H.e j i := fun i j hi hj => hs.2.1 i j (hr ▸ hi) (hr ▸ hj)
  have := kkt_gap (m := A.rows) (b := b.e) hs' h1 (fun k hk => by have := h2 k hk; rwa [hA] at this) y
    (fun k hk => by have := hy k hk; rwa [hA] at this)
  rw [quadratic_eq_bilin hr hc, quadratic_eq_bilin hr hc, linear_eq hg, linear_eq hg, this]
  have := hs.2.2 (fun i => y i - x i)
  rw [quadratic_eq_bilin hr hc] at this
  linarith

/-- A minimiser is unique when no direction in the null space of the constraints is flat. -/
theorem minimiser_unique {n : ℕ} {H : Mat K} {g : Vec K} {A : Mat K} {b : Vec K} {x l y : ℕ → K} (hr : H.rows = n)
    (hc : H.cols = n) (hg : g.n = n) (hA : A.cols = n) (hs : PositiveSemidefinite H)
    (hd : ∀ d : ℕ → K, (∀ k, k < A.rows → ∑ j ∈ range A.cols, A.e k j * d j = 0) → quadratic H d = 0 → ∀ j, j < n → d j = 0)
    (h1 : ∀ i, i < n → ∑ j ∈ range n, H.e i j * x j + ∑ k ∈ range A.rows, A.e k i * l k = - g.e i)
    (h2 : Feasible A b x) (hy : IsMinimiser H g A b y) : ∀ j, j < n → y j = x j := by
  have hs' : ∀ i j, i < n → j < n → H.e i j = H.e j i := fun i j hi hj => hs.2.1 i j (hr ▸ hi) (hr ▸ hj)
  have := kkt_gap (m := A.rows) (b := b.e) hs' h1 (fun k hk => by have := h2 k hk; rwa [hA] at this) y
    (fun k hk => by have := hy.1 k hk; rwa [hA] at this)
  have h3 := hy.2 x h2
  rw [quadratic_eq_bilin hr hc, quadratic_eq_bilin hr hc, linear_eq hg, linear_eq hg, this] at h3
  have h4 := hs.2.2 (fun i => y i - x i)
  have h5 : quadratic H (fun i => y i - x i) = 0 := by
    rw [quadratic_eq_bilin hr hc] at h4 ⊢; linarith
  intro j hj
  have := hd (fun i => y i - x i) (fun k hk => by
    simp only [mul_sub, Finset.sum_sub_distrib]
    rw [h2 k hk, hy.1 k hk]; ring) h5 j hj
  linarith

end Humoto

namespace Humoto

open Spec Finset

variable {K : Type} [Field K] [LinearOrder K] [IsStrictOrderedRing K]

theorem entries_map_range (n : ℕ) (f : ℕ → K) {i : ℕ} (h : i < n) : entries ((List.range n).map f) i = f i := by
  simp [entries, List.getD_eq_getElem?_getD, List.getElem?_map, List.getElem?_range h]

/-- A sum over the variables and the multipliers. -/
theorem sum_split (n m : ℕ) (f : ℕ → K) :
    ∑ j ∈ range (n + m), f j = ∑ j ∈ range n, f j + ∑ k ∈ range m, f (n + k) := by
  rw [Finset.sum_range_add]

section direct

variable {D : Decompositions K} {p : KktParameters K} {q : KktProblem K} {n : ℕ}

/-- Matrix of the optimality conditions. -/
def kktEntry (q : KktProblem K) (n : ℕ) : Mat K :=
  ⟨n + q.equalities.A.rows, n + q.equalities.A.rows, fun i j =>
    if i < q.objective.H.rows then if j < q.objective.H.cols then q.objective.H.e i j
      else q.equalities.A.transpose.e i (j - q.objective.H.cols)
    else if j < q.equalities.A.cols then q.equalities.A.e (i - q.objective.H.rows) j else 0⟩

theorem kktMatrix_ok (hf : SizesFit q n) :
    kktMatrix n q.equalities.A.rows q.objective.H q.equalities.A = .ok (kktEntry q n) := by
  unfold kktMatrix
  rw [require_true (by simp [Mat.transpose, hf.hrows, hf.hcols, hf.acols])]
  rfl

theorem kktRow_top (hf : SizesFit q n) (x : ℕ → K) {i : ℕ} (hi : i < n) :
    ∑ j ∈ range (n + q.equalities.A.rows), (kktEntry q n).e i j * x j =
      ∑ j ∈ range n, q.objective.H.e i j * x j + ∑ k ∈ range q.equalities.A.rows, q.equalities.A.e k i * x (n + k) := by
  rw [sum_split]
  congr 1
  · refine Finset.sum_congr rfl fun j hj => ?_
    have hj : j < n := by simpa using hj
    simp [kktEntry, hf.hrows, hf.hcols, hi, hj]
  · refine Finset.sum_congr rfl fun k _ => ?_
    simp [kktEntry, hf.hrows, hf.hcols, hi, Mat.transpose]

theorem kktRow_bottom (hf : SizesFit q n) (x : ℕ → K) {k : ℕ} :
    ∑ j ∈ range (n + q.equalities.A.rows), (kktEntry q n).e (n + k) j * x j =
      ∑ j ∈ range n, q.equalities.A.e k j * x j := by
  rw [sum_split]
  have h2 : ∑ l ∈ range q.equalities.A.rows, (kktEntry q n).e (n + k) (n + l) * x (n + l) = 0 := by
    refine Finset.sum_eq_zero fun l _ => ?_
    simp [kktEntry, hf.hrows, hf.acols]
  rw [h2, add_zero]
  refine Finset.sum_congr rfl fun j hj => ?_
  have hj : j < n := by simpa using hj
  simp [kktEntry, hf.hrows, hf.acols, hj]

/-- The matrix of the optimality conditions is regular. -/
theorem kktEntry_injective (hf : SizesFit q n)
    (hd : ∀ d : ℕ → K, (∀ k, k < q.equalities.A.rows → ∑ j ∈ range q.equalities.A.cols, q.equalities.A.e k j * d j = 0) →
      quadratic q.objective.H d = 0 → ∀ j, j < n → d j = 0)
    (ha : IndependentRows q.equalities.A) : Injective (kktEntry q n) := by
  intro x hx
  have hx' : ∀ i, i < n + q.equalities.A.rows →
      ∑ j ∈ range (n + q.equalities.A.rows), (kktEntry q n).e i j * x j = 0 := hx
  have top : ∀ i, i < n → ∑ j ∈ range n, q.objective.H.e i j * x j +
      ∑ k ∈ range q.equalities.A.rows, q.equalities.A.e k i * x (n + k) = 0 := fun i hi => by
    rw [← kktRow_top hf x hi]; exact hx' i (by omega)
  have bottom : ∀ k, k < q.equalities.A.rows → ∑ j ∈ range n, q.equalities.A.e k j * x j = 0 := fun k hk => by
    rw [← kktRow_bottom hf x]; exact hx' (n + k) (by omega)
  have hq : quadratic q.objective.H x = 0 := by
    rw [quadratic_eq_bilin hf.hrows hf.hcols, bilin_eq]
    have h3 : ∑ i ∈ range n, x i * (∑ j ∈ range n, q.objective.H.e i j * x j +
        ∑ k ∈ range q.equalities.A.rows, q.equalities.A.e k i * x (n + k)) = 0 :=
      Finset.sum_eq_zero fun i hi => by rw [top i (by simpa using hi), mul_zero]
    simp only [mul_add, Finset.sum_add_distrib] at h3
    rw [transpose_product n _ q.equalities.A.e (fun k => x (n + k)) x] at h3
    have h4 : ∑ k ∈ range q.equalities.A.rows, x (n + k) * ∑ j ∈ range n, q.equalities.A.e k j * x j = 0 :=
      Finset.sum_eq_zero fun k hk => by rw [bottom k (by simpa using hk), mul_zero]
    rw [h4, add_zero] at h3
    exact h3
  have hzero := hd x (fun k hk => by rw [hf.acols]; exact bottom k hk) hq
  have hl := ha (fun k => x (n + k)) (fun j hj => by
    rw [hf.acols] at hj
    have := top j hj
    rwa [Finset.sum_eq_zero (fun i hi => by rw [hzero i (by simpa using hi), mul_zero]), zero_add] at this)
  intro j hj
  have hj : j < n + q.equalities.A.rows := hj
  by_cases h : j < n
  · exact hzero j h
  · have := hl (j - n) (by omega)
    rwa [show n + (j - n) = j by omega] at this

theorem kktSolveDirect_ok (ht : Trusted D) (hm : p.method = .lu ∨ p.method = .qr) (hf : SizesFit q n)
    (hd : ∀ d : ℕ → K, (∀ k, k < q.equalities.A.rows → ∑ j ∈ range q.equalities.A.cols, q.equalities.A.e k j * d j = 0) →
      quadratic q.objective.H d = 0 → ∀ j, j < n → d j = 0)
    (ha : IndependentRows q.equalities.A) (sol : Solution K) (hn : sol.structure_.nvars = n) :
    ∃ x l : ℕ → K, kktSolveDirect D p q sol = .ok { sol with x := (List.range n).map x, status := .ok } ∧
      (∀ i, i < n → ∑ j ∈ range n, q.objective.H.e i j * x j +
        ∑ k ∈ range q.equalities.A.rows, q.equalities.A.e k i * l k = - q.objective.g.e i) ∧
      Feasible q.equalities.A q.equalities.b x := by
  have hv : kktVector n q.equalities.A.rows q.objective.g q.equalities.b =
      .ok ⟨n + q.equalities.A.rows, fun i => if i < q.objective.g.n then q.objective.g.neg.e i
        else q.equalities.b.e (i - q.objective.g.n)⟩ := by
    unfold kktVector
    rw [require_true (by rw [hf.g, hf.b])]; rfl
  set v : Vec K := ⟨n + q.equalities.A.rows, fun i => if i < q.objective.g.n then q.objective.g.neg.e i
        else q.equalities.b.e (i - q.objective.g.n)⟩ with hvdef
  have hinj := kktEntry_injective hf hd ha
  have key : ∃ y : Vec K, kktDecompose D p (kktEntry q n) v = .ok y ∧ y.n = n + q.equalities.A.rows ∧
      ∀ i, i < n + q.equalities.A.rows → ∑ j ∈ range (n + q.equalities.A.rows), (kktEntry q n).e i j * y.e j = v.e i := by
    rcases hm with h | h
    · obtain ⟨a, b⟩ := ht.lu (kktEntry q n) v rfl rfl hinj
      exact ⟨_, by simp [kktDecompose, h, pure_eq_ok], a, b⟩
    · obtain ⟨a, b⟩ := ht.qr (kktEntry q n) v rfl rfl hinj
      exact ⟨_, by simp [kktDecompose, h, pure_eq_ok], a, b⟩
  obtain ⟨y, hy, hyn, hsys⟩ := key
  refine ⟨y.e, fun k => y.e (n + k), ?_, fun i hi => ?_, fun k hk => ?_⟩
  · unfold kktSolveDirect
    simp only [hn, kktMatrix_ok hf, ok_bind, hv, hy, Vec.segment]
    rw [require_true (by omega), ok_bind]
    simp [pure_eq_ok, ok_bind]
  · have := hsys i (by omega)
    rw [kktRow_top hf y.e hi] at this
    rw [this, hvdef]
    simp [hf.g, hi, Vec.neg]
  · have := hsys (n + k) (by omega)
    rw [kktRow_bottom hf y.e] at this
    rw [hf.acols, this, hvdef]
    simp [hf.g]

end direct

section elimination

variable {D : Decompositions K} {p : KktParameters K} {q : KktProblem K} {n : ℕ}

theorem kktInvertDiagonal_ok (junk : ℕ → K) {H : Mat K} (hr : H.rows = n) (hc : H.cols = n) (reg : K) :
    ∃ v : Vec K, kktInvertDiagonal junk n H reg = .ok v ∧ v.n = n ∧ ∀ i, i < n → v.e i = 1 / (H.e i i + reg) := by
  unfold kktInvertDiagonal
  refine forRange_post (fun k (v : Vec K) => v.n = n ∧ ∀ i, i < k → v.e i = 1 / (H.e i i + reg)) ⟨rfl, by intros; omega⟩
    ?_ ?_
  · intro k v hk ⟨h1, h2⟩
    refine ⟨⟨v.n, Function.update v.e k (1 / (H.e k k + reg))⟩, ?_, h1, fun i hi => ?_⟩
    · rw [Mat.get_ok (by omega) (by omega), ok_bind, Vec.set_ok (by omega)]
    · by_cases h : i = k
      · subst h; simp
      · simp [Function.update_of_ne h]; simpa using h2 i (by omega)
  · intro v h; exact h

/-- Solution of the optimality conditions by elimination. -/
theorem kktSolveWithElimination_ok (ht : Trusted D) (junk : ℕ → K) (hf : SizesFit q n)
    (hpos : ∀ i, i < n → 0 < q.objective.H.e i i + p.regularization)
    (ha : IndependentRows q.equalities.A) (sol : Solution K) (hn : sol.structure_.nvars = n) :
    ∃ x l : ℕ → K, kktSolveWithElimination D p junk q sol = .ok { sol with x := (List.range n).map x, status := .ok } ∧
      (∀ i, i < n → (q.objective.H.e i i + p.regularization) * x i +
        ∑ k ∈ range q.equalities.A.rows, q.equalities.A.e k i * l k = - q.objective.g.e i) ∧
      Feasible q.equalities.A q.equalities.b x := by
  obtain ⟨v, hv, hvn, hve⟩ := kktInvertDiagonal_ok junk hf.hrows hf.hcols p.regularization
  set A := q.equalities.A with hA
  set m := A.rows with hm
  have hvpos : ∀ i, i < n → 0 < v.e i := fun i hi => by
    rw [hve i hi]; exact div_pos one_pos (hpos i hi)
  set S : Mat K := ⟨m, m, fun i j => ∑ k ∈ range n, A.e i k * (v.e k * A.e j k)⟩ with hS
  -- the matrix of the reduced system is positive definite
  have hquad : ∀ l : ℕ → K, quadratic S l = ∑ k ∈ range n, v.e k * (∑ i ∈ range m, A.e i k * l i) ^ 2 := by
    intro l
    simp only [quadratic, hS]
    have e1 : ∀ i j, (∑ k ∈ range n, A.e i k * (v.e k * A.e j k)) * l i * l j =
        ∑ k ∈ range n, v.e k * ((A.e i k * l i) * (A.e j k * l j)) := fun i j => by
      rw [Finset.sum_mul, Finset.sum_mul]
      exact Finset.sum_congr rfl fun k _ => by ring
    simp only [e1]
    have e2 : ∀ i, ∑ j ∈ range m, ∑ k ∈ range n, v.e k * ((A.e i k * l i) * (A.e j k * l j)) =
        ∑ k ∈ range n, ∑ j ∈ range m, v.e k * ((A.e i k * l i) * (A.e j k * l j)) := fun i => Finset.sum_comm
    simp only [e2]
    rw [Finset.sum_comm]
    refine Finset.sum_congr rfl fun k _ => ?_
    rw [sq, Finset.sum_mul_sum, Finset.mul_sum]
    exact Finset.sum_congr rfl fun i _ => by rw [Finset.mul_sum]
  have hpd : PositiveDefinite S := by
    refine ⟨rfl, fun i j _ _ => ?_, fun l ⟨j, hj, hne⟩ => ?_⟩
    · simp only [hS]; exact Finset.sum_congr rfl fun k _ => by ring
    · rw [hquad]
      refine lt_of_le_of_ne (Finset.sum_nonneg fun k hk =>
        mul_nonneg (hvpos k (by simpa using hk)).le (sq_nonneg _)) fun h0 => hne ?_
      have hz := (Finset.sum_eq_zero_iff_of_nonneg (fun k hk =>
        mul_nonneg (hvpos k (by simpa using hk)).le (sq_nonneg _))).mp h0.symm
      refine ha l (fun k hk => ?_) j hj
      rw [hf.acols] at hk
      have h1 := hz k (by simpa using hk)
      rcases mul_eq_zero.mp h1 with h | h
      · exact absurd h (hvpos k hk).ne'
      · exact pow_eq_zero_iff (two_ne_zero) |>.mp h
  set r : Vec K := ⟨m, fun i => ∑ k ∈ range n, A.e i k * (v.e k * q.objective.g.e k) + q.equalities.b.e i⟩ with hr
  obtain ⟨hln, hsys⟩ := ht.llt S r rfl hpd
  set l := D.llt S r with hl
  have hln : l.n = m := hln
  have hsys : ∀ i, i < m → ∑ j ∈ range m, (∑ k ∈ range n, A.e i k * (v.e k * A.e j k)) * l.e j =
      ∑ k ∈ range n, A.e i k * (v.e k * q.objective.g.e k) + q.equalities.b.e i := hsys
  refine ⟨fun i => ∑ k ∈ range m, v.e i * A.e k i * l.e k - v.e i * q.objective.g.e i, fun k => - l.e k, ?_,
    fun i hi => ?_, fun k hk => ?_⟩
  · unfold kktSolveWithElimination
    simp only [hn, hv, ok_bind, Vec.diagMulVec, Vec.diagMul]
    rw [require_true (by rw [hvn, hf.g]), ok_bind, pure_eq_ok, ok_bind]
    rw [require_true (by rw [hvn]; exact hf.acols.symm), ok_bind, pure_eq_ok, ok_bind]
    have hmul : A.mul ⟨A.transpose.rows, A.transpose.cols, fun i j => v.e i * A.transpose.e i j⟩ = .ok S := by
      unfold Mat.mul
      rw [if_pos (by rfl), hS, hf.acols]
      rfl
    have hmv : A.mulVec ⟨q.objective.g.n, fun i => v.e i * q.objective.g.e i⟩ =
        .ok ⟨m, fun i => ∑ k ∈ range n, A.e i k * (v.e k * q.objective.g.e k)⟩ := by
      unfold Mat.mulVec
      rw [if_pos (by rw [hf.acols, hf.g]), hf.acols]
    rw [hmul, ok_bind, hmv, ok_bind]
    have hplus : Vec.plus ⟨m, fun i => ∑ k ∈ range n, A.e i k * (v.e k * q.objective.g.e k)⟩ q.equalities.b = .ok r := by
      unfold Vec.plus
      rw [require_true (by rw [hf.b]), ok_bind, hr, hf.b, pure_eq_ok]
    rw [hplus, ok_bind]
    have hx : Mat.mulVec ⟨A.transpose.rows, A.transpose.cols, fun i j => v.e i * A.transpose.e i j⟩ l =
        .ok ⟨n, fun i => ∑ k ∈ range m, v.e i * A.e k i * l.e k⟩ := by
      unfold Mat.mulVec
      rw [if_pos (by rw [hln]; rfl)]
      have e : A.cols = n := hf.acols
      simp only [Mat.transpose]
      rw [e]
    rw [hx, ok_bind]
    have hmin : Vec.minus (⟨n, fun i => ∑ k ∈ range m, v.e i * A.e k i * l.e k⟩ : Vec K)
        ⟨q.objective.g.n, fun i => v.e i * q.objective.g.e i⟩ =
        .ok ⟨n, fun i => ∑ k ∈ range m, v.e i * A.e k i * l.e k - v.e i * q.objective.g.e i⟩ := by
      unfold Vec.minus
      rw [require_true (by rw [hf.g]), ok_bind, pure_eq_ok, hf.g]
    rw [hmin, ok_bind, pure_eq_ok]
  · have hne := (hpos i hi).ne'
    have e1 : ∑ k ∈ range m, v.e i * A.e k i * l.e k = v.e i * ∑ k ∈ range m, A.e k i * l.e k := by
      rw [Finset.mul_sum]; exact Finset.sum_congr rfl fun k _ => by ring
    have e2 : ∑ k ∈ range m, A.e k i * (- l.e k) = - ∑ k ∈ range m, A.e k i * l.e k := by
      rw [← Finset.sum_neg_distrib]; exact Finset.sum_congr rfl fun k _ => by ring
    simp only [e1, e2]
    rw [hve i hi]
    field_simp
    ring
  · rw [hf.acols]
    have h1 := hsys k hk
    have e1 : ∑ j ∈ range n, A.e k j * (∑ i ∈ range m, v.e j * A.e i j * l.e i - v.e j * q.objective.g.e j) =
        ∑ j ∈ range m, (∑ i ∈ range n, A.e k i * (v.e i * A.e j i)) * l.e j -
          ∑ i ∈ range n, A.e k i * (v.e i * q.objective.g.e i) := by
      simp only [mul_sub, Finset.sum_sub_distrib]
      congr 1
      simp only [Finset.mul_sum, Finset.sum_mul]
      rw [Finset.sum_comm]
      exact Finset.sum_congr rfl fun i _ => Finset.sum_congr rfl fun j _ => by ring
    rw [e1, h1]; ring

end elimination

end Humoto
