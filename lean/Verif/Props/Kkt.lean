import Verif.Lemmas.Kkt
import Verif.Props.Objective
import Mathlib.LinearAlgebra.FiniteDimensional.Lemmas
import Mathlib.LinearAlgebra.Matrix.ToLin
import Mathlib.Tactic.NormNum

/-!
# C43: the KKT solver returns the constrained minimiser
-/

set_option linter.unusedSectionVars false

namespace Humoto

open Spec Finset

variable {K : Type} [Field K] [LinearOrder K] [IsStrictOrderedRing K]

theorem feasible_congr {A : Mat K} {b : Vec K} {x y : ℕ → K} (h : ∀ j, j < A.cols → x j = y j) :
    Feasible A b x ↔ Feasible A b y := by
  unfold Feasible
  refine forall_congr' fun k => forall_congr' fun _ => ?_
  rw [Finset.sum_congr rfl fun j hj => by rw [h j (by simpa using hj)]]

theorem objective_congr {H : Mat K} {g : Vec K} {n : ℕ} (hr : H.rows = n) (hc : H.cols = n) (hg : g.n = n) {x y : ℕ → K}
    (h : ∀ j, j < n → x j = y j) : quadratic H x / 2 + linear g x = quadratic H y / 2 + linear g y := by
  have h1 : quadratic H x = quadratic H y := by
    unfold quadratic
    rw [hr, hc]
    exact Finset.sum_congr rfl fun i hi => Finset.sum_congr rfl fun j hj => by
      rw [h i (by simpa using hi), h j (by simpa using hj)]
  have h2 : linear g x = linear g y := by
    unfold linear
    rw [hg]
    exact Finset.sum_congr rfl fun i hi => by rw [h i (by simpa using hi)]
  rw [h1, h2]

theorem isMinimiser_congr {H : Mat K} {g : Vec K} {A : Mat K} {b : Vec K} {n : ℕ} (hr : H.rows = n) (hc : H.cols = n)
    (hg : g.n = n) (hA : A.cols = n) {x y : ℕ → K} (h : ∀ j, j < n → x j = y j) (hx : IsMinimiser H g A b x) :
    IsMinimiser H g A b y :=
  ⟨(feasible_congr fun j hj => h j (hA ▸ hj)).mp hx.1, fun z hz => by
    rw [← objective_congr hr hc hg h]; exact hx.2 z hz⟩

/-- Direct methods: when no row of `A` depends on other rows and no direction in the null space of `A` is flat, the solver
reports success, and the returned vector is the only constrained minimiser. -/
theorem C43_direct {D : Decompositions K} (ht : Trusted D) {p : KktParameters K} (hm : p.method = .lu ∨ p.method = .qr)
    (junk : ℕ → K) {q : KktProblem K} {n : ℕ} (hf : SizesFit q n) (hs : PositiveSemidefinite q.objective.H)
    (hd : ∀ d : ℕ → K, (∀ k, k < q.equalities.A.rows → ∑ j ∈ range q.equalities.A.cols, q.equalities.A.e k j * d j = 0) →
      quadratic q.objective.H d = 0 → ∀ j, j < n → d j = 0)
    (ha : IndependentRows q.equalities.A) (sol : Solution K) (hn : sol.structure_.nvars = n) :
    ∃ sol', kktSolveHierarchy D p junk q sol = .ok sol' ∧ sol'.status = .ok ∧ sol'.structure_ = sol.structure_ ∧
      sol'.x.length = n ∧
      IsMinimiser q.objective.H q.objective.g q.equalities.A q.equalities.b (entries sol'.x) ∧
      ∀ y, IsMinimiser q.objective.H q.objective.g q.equalities.A q.equalities.b y → ∀ j, j < n → y j = entries sol'.x j := by
  obtain ⟨x, l, h1, h2, h3⟩ := kktSolveDirect_ok ht hm hf hd ha sol hn
  refine ⟨{ sol with x := (List.range n).map x, status := .ok }, ?_, rfl, rfl, by simp, ?_, ?_⟩
  · rcases hm with h | h <;> simp only [kktSolveHierarchy, h, h1]
  · exact isMinimiser_congr hf.hrows hf.hcols hf.g hf.acols (fun j hj => (entries_map_range n x hj).symm)
      (isMinimiser_of_kkt hf.hrows hf.hcols hf.g hf.acols hs h2 h3)
  · intro y hy j hj
    rw [entries_map_range n x hj]
    exact minimiser_unique hf.hrows hf.hcols hf.g hf.acols hs hd h2 h3 hy j hj

/-- A diagonal matrix. -/
def IsDiagonal (H : Mat K) : Prop := ∀ i j, i < H.rows → j < H.cols → i ≠ j → H.e i j = 0

theorem regularised_row {H : Mat K} {n : ℕ} (hr : H.rows = n) (hc : H.cols = n) (hd : IsDiagonal H) (f : K) (x : ℕ → K)
    {i : ℕ} (hi : i < n) : ∑ j ∈ range n, (regularised H f).e i j * x j = (H.e i i + f) * x i := by
  rw [Finset.sum_eq_single i]
  · simp [regularised]
  · intro j hj hne
    have : H.e i j = 0 := hd i j (hr ▸ hi) (by rw [hc]; simpa using hj) hne.symm
    simp [regularised, hne.symm, this]
  · intro h; exact absurd (by simpa using hi) h

theorem regularised_psd {H : Mat K} {n : ℕ} (hr : H.rows = n) (hc : H.cols = n) (hd : IsDiagonal H) (f : K)
    (hpos : ∀ i, i < n → 0 < H.e i i + f) : PositiveSemidefinite (regularised H f) := by
  refine ⟨by simp [regularised, hr, hc], fun i j hi hj => ?_, fun x => ?_⟩
  · have hi : i < n := hr ▸ hi
    have hj : j < n := hr ▸ hj
    by_cases h : i = j
    · rw [h]
    · simp only [regularised, h, Ne.symm h, if_false]
      rw [hd i j (hr ▸ hi) (hc ▸ hj) h, hd j i (hr ▸ hj) (hc ▸ hi) (Ne.symm h)]
  · rw [quadratic_eq_bilin (H := regularised H f) (n := n) hr hc, bilin_eq]
    refine Finset.sum_nonneg fun i hi => ?_
    have hi : i < n := by simpa using hi
    rw [regularised_row hr hc hd f x hi]
    have := mul_nonneg (hpos i hi).le (mul_self_nonneg (x i))
    linarith [this, show x i * ((H.e i i + f) * x i) = (H.e i i + f) * (x i * x i) by ring]

theorem regularised_definite {H : Mat K} {n : ℕ} (hr : H.rows = n) (hc : H.cols = n) (hd : IsDiagonal H) (f : K)
    (hpos : ∀ i, i < n → 0 < H.e i i + f) (d : ℕ → K) (h0 : quadratic (regularised H f) d = 0) :
    ∀ j, j < n → d j = 0 := by
  rw [quadratic_eq_bilin (H := regularised H f) (n := n) hr hc, bilin_eq] at h0
  have h1 : ∀ i ∈ range n, 0 ≤ d i * ∑ j ∈ range n, (regularised H f).e i j * d j := fun i hi => by
    have hi : i < n := by simpa using hi
    rw [regularised_row hr hc hd f d hi]
    have := mul_nonneg (hpos i hi).le (mul_self_nonneg (d i))
    linarith [this, show d i * ((H.e i i + f) * d i) = (H.e i i + f) * (d i * d i) by ring]
  intro j hj
  have h2 := (Finset.sum_eq_zero_iff_of_nonneg h1).mp h0 j (by simpa using hj)
  rw [regularised_row hr hc hd f d hj] at h2
  rcases mul_eq_zero.mp h2 with h | h
  · exact h
  · rcases mul_eq_zero.mp h with h | h
    · exact absurd h (hpos j hj).ne'
    · exact h

/-- Elimination: the returned vector is the only minimiser of the problem with the Hessian `H + f*I`, where `f` is the
regularisation factor. Missing: it is not the minimiser of the original problem, see `C43_elimination_refuted`. -/
theorem C43_elimination_partial {D : Decompositions K} (ht : Trusted D) {p : KktParameters K}
    (hm : p.method = .eliminationLlt) (junk : ℕ → K) {q : KktProblem K} {n : ℕ} (hf : SizesFit q n)
    (hdiag : q.objective.hessianType = .diagonal) (hH : IsDiagonal q.objective.H)
    (hpos : ∀ i, i < n → 0 < q.objective.H.e i i + p.regularization) (ha : IndependentRows q.equalities.A)
    (sol : Solution K) (hn : sol.structure_.nvars = n) :
    ∃ sol', kktSolveHierarchy D p junk q sol = .ok sol' ∧ sol'.status = .ok ∧ sol'.structure_ = sol.structure_ ∧
      sol'.x.length = n ∧
      IsMinimiser (regularised q.objective.H p.regularization) q.objective.g q.equalities.A q.equalities.b
        (entries sol'.x) ∧
      ∀ y, IsMinimiser (regularised q.objective.H p.regularization) q.objective.g q.equalities.A q.equalities.b y →
        ∀ j, j < n → y j = entries sol'.x j := by
  obtain ⟨x, l, h1, h2, h3⟩ := kktSolveWithElimination_ok ht junk hf hpos ha sol hn
  have hr' : (regularised q.objective.H p.regularization).rows = n := hf.hrows
  have hc' : (regularised q.objective.H p.regularization).cols = n := hf.hcols
  have hs := regularised_psd hf.hrows hf.hcols hH _ hpos
  have h2' : ∀ i, i < n → ∑ j ∈ range n, (regularised q.objective.H p.regularization).e i j * x j +
      ∑ k ∈ range q.equalities.A.rows, q.equalities.A.e k i * l k = - q.objective.g.e i := fun i hi => by
    rw [regularised_row hf.hrows hf.hcols hH _ x hi]; exact h2 i hi
  refine ⟨{ sol with x := (List.range n).map x, status := .ok }, ?_, rfl, rfl, by simp, ?_, ?_⟩
  · simp only [kktSolveHierarchy, hm, hdiag, if_true, h1]
  · exact isMinimiser_congr hr' hc' hf.g hf.acols (fun j hj => (entries_map_range n x hj).symm)
      (isMinimiser_of_kkt hr' hc' hf.g hf.acols hs h2' h3)
  · intro y hy j hj
    rw [entries_map_range n x hj]
    exact minimiser_unique hr' hc' hf.g hf.acols hs
      (fun d _ h => regularised_definite hf.hrows hf.hcols hH _ hpos d h) h2' h3 hy j hj

/-- The variants agree when there is no regularisation. -/
theorem C43_agree_partial {D : Decompositions K} (ht : Trusted D) {p p' : KktParameters K}
    (hm : p.method = .lu ∨ p.method = .qr) (hm' : p'.method = .eliminationLlt) (h0 : p'.regularization = 0)
    (junk : ℕ → K) {q : KktProblem K} {n : ℕ} (hf : SizesFit q n)
    (hdiag : q.objective.hessianType = .diagonal) (hH : IsDiagonal q.objective.H)
    (hpos : ∀ i, i < n → 0 < q.objective.H.e i i) (ha : IndependentRows q.equalities.A)
    (sol : Solution K) (hn : sol.structure_.nvars = n) :
    ∃ sol', kktSolveHierarchy D p junk q sol = .ok sol' ∧ kktSolveHierarchy D p' junk q sol = .ok sol' ∧
      IsMinimiser q.objective.H q.objective.g q.equalities.A q.equalities.b (entries sol'.x) := by
  have hpos' : ∀ i, i < n → 0 < q.objective.H.e i i + 0 := fun i hi => by rw [add_zero]; exact hpos i hi
  have e : regularised q.objective.H 0 = q.objective.H := by
    simp [regularised]
  have hs := regularised_psd hf.hrows hf.hcols hH 0 hpos'
  have hdef := regularised_definite hf.hrows hf.hcols hH 0 hpos'
  rw [e] at hs hdef
  obtain ⟨s1, a1, a2, a3, a4, a5, a6⟩ := C43_direct ht hm junk hf hs (fun d _ h => hdef d h) ha sol hn
  obtain ⟨s2, b1, b2, b3, b4, b5, b6⟩ := C43_elimination_partial ht hm' junk hf hdiag hH (by rw [h0]; exact hpos') ha sol hn
  rw [h0, e] at b5 b6
  have hx : s2.x = s1.x := by
    refine List.ext_getElem (by omega) fun i h1 h2 => ?_
    have := a6 _ b5 i (by omega)
    simpa [entries, h1, h2] using this
  have : s1 = s2 := by
    cases s1; cases s2
    simp only at a2 a3 b2 b3 hx
    simp [a2, a3, b2, b3, hx]
  exact ⟨s1, a1, this ▸ b1, a5⟩

/-- Elimination is refused when the Hessian is not known to be diagonal, an undefined method is refused always. -/
theorem C43_refused (D : Decompositions K) (p : KktParameters K) (junk : ℕ → K) (q : KktProblem K) (sol : Solution K)
    (h : p.method = .undefined ∨ (p.method = .eliminationLlt ∧ q.objective.hessianType ≠ .diagonal)) :
    kktSolveHierarchy D p junk q sol = .error .thrown := by
  rcases h with h | ⟨h, h'⟩
  · simp [kktSolveHierarchy, h]
  · simp [kktSolveHierarchy, h, h']

/-! ### Whole hierarchies -/

theorem leastSquares_nonneg {E : Type} (ts : List (TaskInfo E K)) (x : ℕ → K) : 0 ≤ leastSquares ts x := by
  unfold leastSquares
  refine List.sum_nonneg fun a ha => ?_
  obtain ⟨ti, _, rfl⟩ := List.mem_map.mp ha
  exact Finset.sum_nonneg fun i _ => sq_nonneg _

theorem quadratic_scale (H : Mat K) (t : K) (x : ℕ → K) : quadratic H (fun i => t * x i) = t ^ 2 * quadratic H x := by
  unfold quadratic
  simp only [Finset.mul_sum]
  exact Finset.sum_congr rfl fun i _ => Finset.sum_congr rfl fun j _ => by ring

theorem linear_scale (g : Vec K) (t : K) (x : ℕ → K) : linear g (fun i => t * x i) = t * linear g x := by
  unfold linear
  rw [Finset.mul_sum]
  exact Finset.sum_congr rfl fun i _ => by ring

/-- The Hessian of a least squares objective is positive semidefinite. -/
theorem minimises_psd {E : Type} {q : QPObjective K} {ts : List (TaskInfo E K)} {nv : ℕ} (h : Minimises q ts nv true) :
    PositiveSemidefinite q.H := by
  refine ⟨by rw [h.rows, h.cols], fun i j hi hj => h.symmetric rfl i j (h.rows ▸ hi) (h.rows ▸ hj), fun x => ?_⟩
  by_contra hneg
  push Not at hneg
  set c := leastSquares ts (fun _ => 0) with hc
  have hc0 : 0 ≤ c := leastSquares_nonneg _ _
  have key : ∀ t : K, 0 ≤ t ^ 2 * quadratic q.H x + c := fun t => by
    have h1 := h.full rfl (fun i => t * x i)
    have h2 := h.full rfl (fun i => (-t) * x i)
    rw [quadratic_scale, linear_scale] at h1 h2
    have := leastSquares_nonneg ts (fun i => t * x i)
    have := leastSquares_nonneg ts (fun i => (-t) * x i)
    nlinarith
  set r := - quadratic q.H x with hr
  have hr0 : 0 < r := by simpa [hr] using hneg
  have h1 := key (c / r + 1)
  have h2 : 0 ≤ c / r := div_nonneg hc0 hr0.le
  have h3 : c = (c / r) * r := by field_simp
  have h4 : quadratic q.H x = - r := by rw [hr]; ring
  rw [h4] at h1
  have h5 : 0 ≤ (c / r) * r := mul_nonneg h2 hr0.le
  have h6 : 0 ≤ (c / r) ^ 2 * r := mul_nonneg (sq_nonneg _) hr0.le
  have h7 : (c / r + 1) ^ 2 * - r + c = - ((c / r) ^ 2 * r) - (c / r) * r - r + (c - (c / r) * r) := by ring
  linarith

theorem list_zero_of_sum_zero (l : List K) (h : ∀ a ∈ l, 0 ≤ a) (h0 : l.sum = 0) : ∀ a ∈ l, a = 0 := by
  induction l with
  | nil => simp
  | cons b l ih =>
    have hb : 0 ≤ b := h b (by simp)
    have hl : 0 ≤ l.sum := List.sum_nonneg fun a ha => h a (by simp [ha])
    rw [List.sum_cons] at h0
    intro a ha
    rcases List.mem_cons.mp ha with rfl | ha
    · linarith
    · exact ih (fun a ha => h a (by simp [ha])) (by linarith) a ha

theorem lhs_neg (c : Ctr K) (d : ℕ → K) (i : ℕ) : lhs c (fun j => - d j) i = - lhs c d i := by
  unfold lhs
  split <;> simp [Finset.sum_neg_distrib]

theorem lhs_zero (c : Ctr K) (i : ℕ) : lhs c (fun _ => 0) i = 0 := by
  unfold lhs
  split <;> simp

/-- The curvature along a direction is the sum of squared changes of the residuals. -/
theorem quadratic_of_minimises {E : Type} {q : QPObjective K} {ts : List (TaskInfo E K)} {nv : ℕ}
    (h : Minimises q ts nv true) (d : ℕ → K) :
    quadratic q.H d = (ts.map fun ti => ∑ i ∈ range (rows ti.task.ctr), lhs ti.task.ctr d i ^ 2).sum := by
  have h1 := h.full rfl d
  have h2 := h.full rfl (fun i => - d i)
  have e1 : quadratic q.H (fun i => - d i) = quadratic q.H d := by
    have := quadratic_scale q.H (-1) d
    simpa using this
  have e2 : linear q.g (fun i => - d i) = - linear q.g d := by
    have := linear_scale q.g (-1) d
    simpa using this
  rw [e1, e2] at h2
  have h3 : leastSquares ts d + leastSquares ts (fun i => - d i) - 2 * leastSquares ts (fun _ => 0) =
      2 * (ts.map fun ti => ∑ i ∈ range (rows ti.task.ctr), lhs ti.task.ctr d i ^ 2).sum := by
    clear h h1 h2
    unfold leastSquares
    induction ts with
    | nil => simp
    | cons t ts ih =>
      simp only [List.map_cons, List.sum_cons]
      have : residualSq t.task.ctr d + residualSq t.task.ctr (fun i => - d i) - 2 * residualSq t.task.ctr (fun _ => 0) =
          2 * ∑ i ∈ range (rows t.task.ctr), lhs t.task.ctr d i ^ 2 := by
        unfold residualSq
        rw [Finset.mul_sum, Finset.mul_sum, ← Finset.sum_add_distrib, ← Finset.sum_sub_distrib]
        refine Finset.sum_congr rfl fun i _ => ?_
        rw [lhs_neg, lhs_zero]; ring
      linear_combination this + ih
  linarith

/-- A hierarchy of two levels with equality tasks only, solved directly: the returned vector satisfies all tasks of the
first level and has the least sum of squared residuals of the tasks of the second level among all such points. The
hypotheses say that the problem has only one solution. -/
theorem C43_hierarchy {E : Type} {D : Decompositions K} (ht : Trusted D) {p : KktParameters K}
    (hm : p.method = .lu ∨ p.method = .qr) (junk : ℕ → K) {P P' : Hierarchy E K} {nv : ℕ} {env : E} {g : Bool}
    (h : P.form nv env g = .ok P') (hr : ∀ L ∈ P.levels, Reachable L) {L0 L1 : Level E K} (hL : P'.levels = [L0, L1])
    (hi : ∀ L ∈ P'.levels, ∀ ti ∈ L.tasks, InRange ti.task.ctr)
    (he : ∀ ti ∈ L0.tasks, ti.task.ctr.ctype.isEquality = true) (hmin : ∀ ti ∈ L1.tasks, CanMinimise ti.task.ctr)
    (z : ℕ → ℕ → K) (zc : Junk K) (old : KktProblem K) (sol : Solution K) (hn : sol.structure_.nvars = nv) :
    ∃ q, kktInitialize z zc old P' nv = .ok q ∧ SizesFit q nv ∧
      (∀ x, Feasible q.equalities.A q.equalities.b x ↔ LevelSatisfied L0 x) ∧
      (IndependentRows q.equalities.A →
        (∀ d : ℕ → K, (∀ k, k < q.equalities.A.rows → ∑ j ∈ range q.equalities.A.cols, q.equalities.A.e k j * d j = 0) →
          (∀ ti ∈ L1.tasks, ∀ i, i < rows ti.task.ctr → lhs ti.task.ctr d i = 0) → ∀ j, j < nv → d j = 0) →
        ∃ sol', kktSolveHierarchy D p junk q sol = .ok sol' ∧ sol'.status = .ok ∧ sol'.x.length = nv ∧
          LevelSatisfied L0 (entries sol'.x) ∧
          ∀ y, LevelSatisfied L0 y → leastSquares L1.tasks (entries sol'.x) ≤ leastSquares L1.tasks y) := by
  obtain ⟨M0, hr0, h0⟩ := hierarchy_level h hr (L' := L0) (by simp [hL])
  obtain ⟨M1, hr1, h1⟩ := hierarchy_level h hr (L' := L1) (by simp [hL])
  obtain ⟨q, q1, q2⟩ := C11_objective hr1 h1 (hi L1 (by simp [hL])) hmin old.objective z true
  obtain ⟨ke, ki, k1, _, k3, k4, k5, k6, _, _, k7⟩ := C09_split hr0 h0 (hi L0 (by simp [hL])) zc
  obtain ⟨_, _, _, _, c1, _, _, _, c2, _, c3⟩ := C07_layout hr0 h0
  have hall : (L0.tasks.filter fun ti => ti.task.ctr.ctype.isEquality) = L0.tasks :=
    List.filter_eq_self.mpr fun ti hti => he ti hti
  have hnone : (L0.tasks.filter fun ti => ! ti.task.ctr.ctype.isEquality) = [] :=
    List.filter_eq_nil_iff.mpr fun ti hti => by simp [he ti hti]
  have hnone2 : (L0.tasks.filter fun ti => ti.task.ctr.ctype.isTwoSided) = [] :=
    List.filter_eq_nil_iff.mpr fun ti hti => by
      have := he ti hti
      revert this
      cases ti.task.ctr.ctype <;> decide
  have heq : L0.isEquality = true := by
    rw [hall, ← c1] at c2
    simp [Level.isEquality, c2]
  have hki : ki.A.rows = 0 := by
    rw [k6, c3, hnone, hnone2]; rfl
  have hfeas : ∀ x, Feasible ke.A ke.b x ↔ LevelSatisfied L0 x := fun x => by
    rw [← k7 x]
    exact ⟨fun hx => ⟨hx, fun i hi => by omega⟩, fun hx => hx.1⟩
  refine ⟨⟨q, ke⟩, ?_, ⟨q2.rows, q2.cols, q2.n, k4, by rw [k5, k3]⟩, hfeas, fun ha hd => ?_⟩
  · unfold kktInitialize Hierarchy.getQPProblem
    rw [hL, assertThat_true (by simp), ok_bind]
    simp only [q1, ok_bind, QPConstraintsAB.initialize, assertThat_true heq, k1]; rfl
  · obtain ⟨s, s1, s2, _, s4, s5, _⟩ := C43_direct ht hm junk (q := ⟨q, ke⟩)
      ⟨q2.rows, q2.cols, q2.n, k4, by rw [k5, k3]⟩ (minimises_psd q2) (fun d hA hq => hd d hA (fun ti hti i hir => by
        have hq : quadratic q.H d = 0 := hq
        rw [quadratic_of_minimises q2] at hq
        have hz := list_zero_of_sum_zero _ (fun a ha => by
          obtain ⟨t, _, rfl⟩ := List.mem_map.mp ha
          exact Finset.sum_nonneg fun i _ => sq_nonneg _) hq _ (List.mem_map.mpr ⟨ti, hti, rfl⟩)
        have := (Finset.sum_eq_zero_iff_of_nonneg fun i _ => sq_nonneg _).mp hz i (by simpa using hir)
        exact pow_eq_zero_iff two_ne_zero |>.mp this)) ha sol hn
    refine ⟨s, s1, s2, s4, (hfeas _).mp s5.1, fun y hy => ?_⟩
    have h1 := s5.2 y ((hfeas y).mpr hy)
    have e1 := q2.full rfl (entries s.x)
    have e2 := q2.full rfl y
    have h1 : quadratic q.H (entries s.x) / 2 + linear q.g (entries s.x) ≤ quadratic q.H y / 2 + linear q.g y := h1
    linarith

/-- Elimination on a hierarchy of two levels with simple tasks on the second one: the tasks of the first level are
satisfied, and the sum of squared residuals of the second level plus `f*|x|^2` is the least possible. -/
theorem C43_hierarchy_elimination_partial {E : Type} {D : Decompositions K} (ht : Trusted D) {p : KktParameters K}
    (hm : p.method = .eliminationLlt) (hpos : 0 < p.regularization) (junk : ℕ → K) {P P' : Hierarchy E K} {nv : ℕ}
    {env : E} {g : Bool} (h : P.form nv env g = .ok P') (hr : ∀ L ∈ P.levels, Reachable L) {L0 L1 : Level E K}
    (hL : P'.levels = [L0, L1]) (hi : ∀ L ∈ P'.levels, ∀ ti ∈ L.tasks, InRange ti.task.ctr)
    (he : ∀ ti ∈ L0.tasks, ti.task.ctr.ctype.isEquality = true) (hmin : ∀ ti ∈ L1.tasks, CanMinimise ti.task.ctr)
    (z : ℕ → ℕ → K) (zc : Junk K) (old : KktProblem K) (sol : Solution K) (hn : sol.structure_.nvars = nv) :
    ∃ q, kktInitialize z zc old P' nv = .ok q ∧ SizesFit q nv ∧
      (∀ x, Feasible q.equalities.A q.equalities.b x ↔ LevelSatisfied L0 x) ∧
      (q.objective.hessianType = .diagonal → IndependentRows q.equalities.A →
        ∃ sol', kktSolveHierarchy D p junk q sol = .ok sol' ∧ sol'.status = .ok ∧ sol'.x.length = nv ∧
          LevelSatisfied L0 (entries sol'.x) ∧
          ∀ y, LevelSatisfied L0 y →
            leastSquares L1.tasks (entries sol'.x) + p.regularization * ∑ i ∈ range nv, entries sol'.x i ^ 2 ≤
              leastSquares L1.tasks y + p.regularization * ∑ i ∈ range nv, y i ^ 2) := by
  obtain ⟨M1, hr1, h1⟩ := hierarchy_level h hr (L' := L1) (by simp [hL])
  obtain ⟨q, q1, q2, q3, _⟩ := C43_hierarchy (D := D) ht (p := ⟨.lu, 0⟩) (Or.inl rfl) junk h hr hL hi he hmin z zc old sol hn
  obtain ⟨o, o1, o2⟩ := C11_objective hr1 h1 (hi L1 (by simp [hL])) hmin old.objective z true
  have ho : q.objective = o := by
    unfold kktInitialize Hierarchy.getQPProblem at q1
    rw [hL, assertThat_true (by simp), ok_bind] at q1
    simp only [o1, ok_bind] at q1
    rcases e : QPConstraintsAB.initialize zc L0 nv with err | c
    · rw [e] at q1; exact absurd q1 (by intro h; cases h)
    · rw [e] at q1
      simp only [ok_bind, pure_eq_ok, Except.ok.injEq] at q1
      rw [← q1]
  refine ⟨q, q1, q2, q3, fun hdiag ha => ?_⟩
  rw [← ho] at o2
  have hH : IsDiagonal q.objective.H := fun i j hi hj hne => by
    rw [o2.rows] at hi
    rw [o2.cols] at hj
    rcases lt_or_gt_of_ne hne with hlt | hgt
    · rw [o2.symmetric rfl i j hi hj]; exact o2.diagonal hdiag j i hj hlt
    · exact o2.diagonal hdiag i j hi hgt
  have hnn : ∀ i, i < nv → 0 ≤ q.objective.H.e i i := fun i hi => by
    have := (minimises_psd o2).2.2 (fun k => if k = i then 1 else 0)
    rw [quadratic_eq_bilin o2.rows o2.cols, bilin_eq, Finset.sum_eq_single i, Finset.sum_eq_single i] at this
    · simpa using this
    · intro j _ hne; simp [hne]
    · intro hno; exact absurd (by simpa using hi) hno
    · intro j _ hne; simp [hne]
    · intro hno; exact absurd (by simpa using hi) hno
  obtain ⟨s, s1, s2, _, s4, s5, _⟩ := C43_elimination_partial ht hm junk q2 hdiag hH
    (fun i hi => by have := hnn i hi; linarith) ha sol hn
  refine ⟨s, s1, s2, s4, (q3 _).mp s5.1, fun y hy => ?_⟩
  have hreg : ∀ x, quadratic (regularised q.objective.H p.regularization) x =
      quadratic q.objective.H x + p.regularization * ∑ i ∈ range nv, x i ^ 2 := fun x => by
    rw [quadratic_eq_bilin (H := regularised q.objective.H p.regularization) (n := nv) q2.hrows q2.hcols,
      quadratic_eq_bilin q2.hrows q2.hcols, bilin_eq, bilin_eq, Finset.mul_sum, ← Finset.sum_add_distrib]
    refine Finset.sum_congr rfl fun i hi => ?_
    have hi : i < nv := by simpa using hi
    rw [regularised_row q2.hrows q2.hcols hH _ x hi]
    have e0 := regularised_row q2.hrows q2.hcols hH 0 x hi
    have e : regularised q.objective.H 0 = q.objective.H := by simp [regularised]
    rw [e] at e0
    rw [e0]; ring
  have h2 := s5.2 y ((q3 y).mpr hy)
  rw [hreg, hreg] at h2
  have e1 := o2.full rfl (entries s.x)
  have e2 := o2.full rfl y
  linarith

/-! ### Decompositions which can be trusted exist -/

theorem exists_solution (M : Mat K) (v : Vec K) (hsq : M.rows = M.cols) (hi : Injective M) :
    ∃ x : Vec K, x.n = M.cols ∧ ∀ i, i < M.rows → ∑ j ∈ range M.cols, M.e i j * x.e j = v.e i := by
  set n := M.cols with hn
  let F : (Fin n → K) →ₗ[K] (Fin n → K) := Matrix.toLin' (Matrix.of fun i j => M.e i j)
  have hext : ∀ (x : Fin n → K) (i : Fin n), F x i = ∑ j ∈ range n, M.e i j * (if h : j < n then x ⟨j, h⟩ else 0) := by
    intro x i
    rw [Finset.sum_range]
    simp [F, Matrix.toLin'_apply, Matrix.mulVec, dotProduct]
  have hinj : Function.Injective F := by
    rw [← LinearMap.ker_eq_bot, LinearMap.ker_eq_bot']
    intro x hx
    funext j
    have := hi (fun j => if h : j < n then x ⟨j, h⟩ else 0) (fun i hi => by
      have h1 := congrFun hx ⟨i, by omega⟩
      rw [hext] at h1
      exact h1) j j.2
    simpa using this
  obtain ⟨x, hx⟩ := (LinearMap.injective_iff_surjective.mp hinj) (fun i => v.e i)
  refine ⟨⟨n, fun j => if h : j < n then x ⟨j, h⟩ else 0⟩, rfl, fun i hi => ?_⟩
  have h1 := congrFun hx ⟨i, by omega⟩
  rw [hext] at h1
  exact h1

theorem injective_of_positiveDefinite {M : Mat K} (h : PositiveDefinite M) : Injective M := by
  intro x hx j hj
  by_contra hne
  have h1 := h.2.2 x ⟨j, hj, hne⟩
  have h2 : quadratic M x = 0 := by
    unfold quadratic
    refine Finset.sum_eq_zero fun i hi => ?_
    have := hx i (by simpa using hi)
    have e : ∑ j ∈ range M.cols, M.e i j * x i * x j = x i * ∑ j ∈ range M.cols, M.e i j * x j := by
      rw [Finset.mul_sum]; exact Finset.sum_congr rfl fun j _ => by ring
    rw [e, this, mul_zero]
  linarith

/-- The hypothesis `Trusted` can be met. -/
theorem exists_trusted : ∃ D : Decompositions K, Trusted D := by
  classical
  let f : Mat K → Vec K → Vec K := fun M v =>
    if h : M.rows = M.cols ∧ Injective M then (exists_solution M v h.1 h.2).choose else v
  have hf : ∀ M v, M.rows = M.cols → Injective M → (f M v).n = M.cols ∧
      ∀ i, i < M.rows → ∑ j ∈ range M.cols, M.e i j * (f M v).e j = v.e i := fun M v h1 h2 => by
    simp only [f, dif_pos (And.intro h1 h2)]
    exact (exists_solution M v h1 h2).choose_spec
  exact ⟨⟨f, f, f⟩, fun M v h _ h' => hf M v h h', fun M v h _ h' => hf M v h h',
    fun M v _ h => hf M v h.1 (injective_of_positiveDefinite h)⟩

/-! ### Where the property fails -/

/-- Minimise `1/2*|x|^2 - x1` subject to `x0 = 1`. -/
def exampleKkt : KktProblem ℚ :=
  ⟨⟨Mat.identity 2, Vec.ofList [0, -1], .diagonal⟩, ⟨2, Mat.ofRows 2 [[1, 0]], Vec.ofList [1]⟩⟩

theorem exampleKkt_sizes : SizesFit exampleKkt 2 := ⟨rfl, rfl, rfl, rfl, rfl⟩

theorem exampleKkt_diagonal : IsDiagonal exampleKkt.objective.H := fun i j _ _ h => by
  simp [exampleKkt, Mat.identity, h]

theorem exampleKkt_positive : ∀ i, i < 2 → 0 < exampleKkt.objective.H.e i i := fun i _ => by
  simp [exampleKkt, Mat.identity]

theorem exampleKkt_independent : IndependentRows exampleKkt.equalities.A := fun l h k hk => by
  have hk : k < 1 := hk
  have h0 : ∑ k ∈ range 1, (if k = 0 then (1 : ℚ) else 0) * l k = 0 := by
    have := h 0 (by norm_num [exampleKkt, Mat.ofRows])
    simpa [exampleKkt, Mat.ofRows] using this
  have : k = 0 := by omega
  subst this
  simpa using h0

theorem exampleKkt_value (x : ℕ → ℚ) : quadratic exampleKkt.objective.H x / 2 + linear exampleKkt.objective.g x =
    (x 0 ^ 2 + (x 1 - 1) ^ 2 - 1) / 2 := by
  simp [quadratic, linear, exampleKkt, Mat.identity, Vec.ofList, Finset.sum_range_succ]
  ring

theorem exampleKkt_feasible (x : ℕ → ℚ) : Feasible exampleKkt.equalities.A exampleKkt.equalities.b x ↔ x 0 = 1 := by
  constructor
  · intro h
    have := h 0 (by norm_num [exampleKkt, Mat.ofRows])
    simpa [exampleKkt, Mat.ofRows, Vec.ofList, Finset.sum_range_succ] using this
  · intro h k hk
    have hk : k < 1 := hk
    have : k = 0 := by omega
    subst this
    simpa [exampleKkt, Mat.ofRows, Vec.ofList, Finset.sum_range_succ] using h

theorem exampleKkt_minimiser : IsMinimiser exampleKkt.objective.H exampleKkt.objective.g exampleKkt.equalities.A
    exampleKkt.equalities.b (fun _ => 1) := by
  refine ⟨(exampleKkt_feasible _).mpr rfl, fun y hy => ?_⟩
  rw [exampleKkt_value, exampleKkt_value, (exampleKkt_feasible y).mp hy]
  nlinarith [sq_nonneg (y 1 - 1)]

/-- All hypotheses of `C43_direct` hold for this problem, and the minimiser is `(1, 1)`. -/
example (D : Decompositions ℚ) (hD : Trusted D) : kktSolveHierarchy D KktParameters.default (fun _ => 7) exampleKkt
    ⟨⟨2, [("x", ⟨0, 2⟩)]⟩, [5, 5], .undefined⟩ = .ok ⟨⟨2, [("x", ⟨0, 2⟩)]⟩, [1, 1], .ok⟩ := by
  have e : regularised exampleKkt.objective.H 0 = exampleKkt.objective.H := by simp [regularised]
  have hs := regularised_psd (n := 2) rfl rfl exampleKkt_diagonal 0 (fun i hi => by simpa using exampleKkt_positive i hi)
  have hdef := regularised_definite (n := 2) rfl rfl exampleKkt_diagonal 0
    (fun i hi => by simpa using exampleKkt_positive i hi)
  rw [e] at hs hdef
  obtain ⟨⟨st, x, stat⟩, s1, s2, s3, s4, s5, s6⟩ := C43_direct hD (p := KktParameters.default) (Or.inl rfl) (fun _ => 7)
    exampleKkt_sizes hs (fun d _ h => hdef d h) exampleKkt_independent ⟨⟨2, [("x", ⟨0, 2⟩)]⟩, [5, 5], .undefined⟩ rfl
  rw [s1]
  simp only at s2 s3 s4 s6
  subst s2 s3
  match x, s4 with
  | [a, b], _ =>
    have h0 := s6 _ exampleKkt_minimiser 0 (by omega)
    have h1 := s6 _ exampleKkt_minimiser 1 (by omega)
    simp only [entries] at h0 h1
    simp at h0 h1
    rw [← h0, ← h1]

/-- Elimination with the default regularisation does not return the constrained minimiser, whatever the decompositions
do: it disagrees with the direct methods. -/
theorem C43_elimination_refuted (D : Decompositions ℚ) (hD : Trusted D) (junk : ℕ → ℚ) (sol : Solution ℚ)
    (hn : sol.structure_.nvars = 2) :
    ∃ sol', kktSolveHierarchy D { (KktParameters.default : KktParameters ℚ) with method := .eliminationLlt } junk exampleKkt
        sol = .ok sol' ∧ sol'.status = .ok ∧
      ¬ IsMinimiser exampleKkt.objective.H exampleKkt.objective.g exampleKkt.equalities.A exampleKkt.equalities.b
        (entries sol'.x) := by
  have hreg : (0 : ℚ) < 1 / 10 ^ 8 := by norm_num
  obtain ⟨s, s1, s2, s3, s4, s5, s6⟩ := C43_elimination_partial hD
    (p := { (KktParameters.default : KktParameters ℚ) with method := .eliminationLlt }) rfl junk exampleKkt_sizes rfl
    exampleKkt_diagonal (fun i hi => add_pos (exampleKkt_positive i hi) hreg) exampleKkt_independent sol hn
  refine ⟨s, s1, s2, fun hmin => ?_⟩
  -- it would be `(1, 1)`, but a smaller second coordinate is better for the regularised problem
  have h1 := hmin.2 (fun _ => 1) exampleKkt_minimiser.1
  rw [exampleKkt_value, exampleKkt_value] at h1
  have h2 := (exampleKkt_feasible _).mp hmin.1
  have h3 : entries s.x 1 = 1 := by
    rw [h2] at h1
    have : (entries s.x 1 - 1) ^ 2 ≤ 0 := by nlinarith
    have := pow_eq_zero_iff two_ne_zero |>.mp (le_antisymm this (sq_nonneg _))
    linarith
  have h4 := s5.2 (fun i => if i = 0 then 1 else 1 - 1 / 10 ^ 9) ((exampleKkt_feasible _).mpr rfl)
  have hval : ∀ x, quadratic (regularised exampleKkt.objective.H (1 / 10 ^ 8)) x / 2 + linear exampleKkt.objective.g x =
      ((1 + 1 / 10 ^ 8) * (x 0 ^ 2 + x 1 ^ 2)) / 2 - x 1 := fun x => by
    simp [quadratic, linear, regularised, exampleKkt, Mat.identity, Vec.ofList, Finset.sum_range_succ]
    ring
  have h4 : quadratic (regularised exampleKkt.objective.H (1 / 10 ^ 8)) (entries s.x) / 2 +
      linear exampleKkt.objective.g (entries s.x) ≤ quadratic (regularised exampleKkt.objective.H (1 / 10 ^ 8))
        (fun i => if i = 0 then 1 else 1 - 1 / 10 ^ 9) / 2 +
        linear exampleKkt.objective.g (fun i => if i = 0 then 1 else 1 - 1 / 10 ^ 9) := h4
  rw [hval, hval, h2, h3] at h4
  norm_num at h4

/-- `x0 = 0` and `x0 = 1`. -/
def exampleInfeasible : KktProblem ℚ :=
  ⟨⟨Mat.identity 1, Vec.ofList [0], .diagonal⟩, ⟨1, Mat.ofRows 1 [[1], [1]], Vec.ofList [0, 1]⟩⟩

/-- The status says nothing: constraints which cannot be satisfied are solved with success. -/
theorem C43_status_refuted (D : Decompositions ℚ) (hD : ∀ M v, (D.lu M v).n = M.cols) (junk : ℕ → ℚ) (sol : Solution ℚ)
    (hn : sol.structure_.nvars = 1) :
    ∃ sol', kktSolveHierarchy D KktParameters.default junk exampleInfeasible sol = .ok sol' ∧ sol'.status = .ok ∧
      ∀ x, ¬ Feasible exampleInfeasible.equalities.A exampleInfeasible.equalities.b x := by
  have hm : kktMatrix 1 2 exampleInfeasible.objective.H exampleInfeasible.equalities.A =
      .ok (kktEntry exampleInfeasible 1) := kktMatrix_ok (n := 1) ⟨rfl, rfl, rfl, rfl, rfl⟩
  have hseg : ∀ v, (D.lu (kktEntry exampleInfeasible 1) v).segment 0 1 =
      .ok ⟨1, fun i => (D.lu (kktEntry exampleInfeasible 1) v).e (0 + i)⟩ := fun v => by
    unfold Vec.segment
    rw [require_true (by rw [hD]; show 0 + 1 ≤ 3; omega)]; rfl
  refine ⟨{ sol with
      x := [(D.lu (kktEntry exampleInfeasible 1)
        ⟨3, fun i => if i < 1 then exampleInfeasible.objective.g.neg.e i else exampleInfeasible.equalities.b.e (i - 1)⟩).e 0],
      status := .ok }, ?_, ?_, ?_⟩
  · show kktSolveDirect D KktParameters.default exampleInfeasible sol = _
    unfold kktSolveDirect
    rw [hn]
    show (kktMatrix 1 2 _ _ >>= _) = _
    rw [hm, ok_bind]
    have hv : kktVector 1 exampleInfeasible.equalities.A.rows exampleInfeasible.objective.g exampleInfeasible.equalities.b =
        .ok ⟨3, fun i => if i < 1 then exampleInfeasible.objective.g.neg.e i else exampleInfeasible.equalities.b.e (i - 1)⟩ :=
      rfl
    rw [hv, ok_bind]
    have hdec : ∀ v, kktDecompose D KktParameters.default (kktEntry exampleInfeasible 1) v =
        .ok (D.lu (kktEntry exampleInfeasible 1) v) := fun v => rfl
    rw [hdec, ok_bind, hseg]; rfl
  · rfl
  · intro x h
    have h0 := h 0 (by norm_num [exampleInfeasible, Mat.ofRows])
    have h1 := h 1 (by norm_num [exampleInfeasible, Mat.ofRows])
    simp [exampleInfeasible, Mat.ofRows, Vec.ofList] at h0 h1
    rw [h0] at h1
    norm_num at h1

/-- Constraints of the previous problem survive: a problem with one level is solved subject to whatever equality
constraints the solver was used with before. -/
theorem C43_stale {E : Type} {D : Decompositions K} (ht : Trusted D) {p : KktParameters K}
    (hm : p.method = .lu ∨ p.method = .qr) (junk : ℕ → K) {P P' : Hierarchy E K} {nv : ℕ} {env : E} {g : Bool}
    (h : P.form nv env g = .ok P') (hr : ∀ L ∈ P.levels, Reachable L) {L : Level E K} (hL : P'.levels = [L])
    (hi : ∀ ti ∈ L.tasks, InRange ti.task.ctr) (hmin : ∀ ti ∈ L.tasks, CanMinimise ti.task.ctr)
    (z : ℕ → ℕ → K) (zc : Junk K) (old : KktProblem K) (ho : SizesFit old nv) (hoi : IndependentRows old.equalities.A)
    (hd : ∀ d : ℕ → K, (∀ ti ∈ L.tasks, ∀ i, i < rows ti.task.ctr → lhs ti.task.ctr d i = 0) → ∀ j, j < nv → d j = 0)
    (sol : Solution K) (hn : sol.structure_.nvars = nv) :
    ∃ q sol', kktInitialize z zc old P' nv = .ok q ∧ kktSolveHierarchy D p junk q sol = .ok sol' ∧ sol'.status = .ok ∧
      Feasible old.equalities.A old.equalities.b (entries sol'.x) := by
  obtain ⟨q, q1, q2⟩ := C12_oneLevel h hr hL hi hmin z (fun L => QPConstraintsAB.initialize zc L nv) old.objective
    old.equalities true
  obtain ⟨s, s1, s2, _, s4, s5, _⟩ := C43_direct ht hm junk (q := ⟨q, old.equalities⟩)
      ⟨q2.rows, q2.cols, q2.n, ho.acols, ho.b⟩ (minimises_psd q2) (fun d hA hq => hd d (fun ti hti i hir => by
        have hq : quadratic q.H d = 0 := hq
        rw [quadratic_of_minimises q2] at hq
        have hz := list_zero_of_sum_zero _ (fun a ha => by
          obtain ⟨t, _, rfl⟩ := List.mem_map.mp ha
          exact Finset.sum_nonneg fun i _ => sq_nonneg _) hq _ (List.mem_map.mpr ⟨ti, hti, rfl⟩)
        have := (Finset.sum_eq_zero_iff_of_nonneg fun i _ => sq_nonneg _).mp hz i (by simpa using hir)
        exact pow_eq_zero_iff two_ne_zero |>.mp this)) hoi sol hn
  refine ⟨⟨q, old.equalities⟩, s, ?_, s1, s2, s5.1⟩
  unfold kktInitialize
  rw [q1]; rfl

/-- Two levels: `x0 + 2*x1 = 3` above `2*x0 = 1`, `3*x1 = -1`. -/
def exampleTwoLevels : Hierarchy Unit ℚ :=
  ⟨[Level.empty.pushTask (exampleTask exampleAB), Level.empty.pushTask (exampleTask exampleGIB)], [0, 0]⟩

/-- The second level alone. -/
def exampleOneLevel : Hierarchy Unit ℚ := ⟨[Level.empty.pushTask (exampleTask exampleGIB)], [0]⟩

def exampleLevelAB : Level Unit ℚ := ⟨[⟨{ exampleTask exampleAB with guess := [.equality] }, ⟨0, 1⟩⟩], 1, 0, 1, 0⟩

def exampleLevelGIB : Level Unit ℚ :=
  ⟨[⟨{ exampleTask exampleGIB with guess := [.equality, .equality] }, ⟨0, 2⟩⟩], 0, 2, 2, 0⟩

theorem exampleTwoLevels_form :
    exampleTwoLevels.form 2 () true = .ok ⟨[exampleLevelAB, exampleLevelGIB], [1, 2]⟩ := rfl

theorem exampleOneLevel_form : exampleOneLevel.form 2 () true = .ok ⟨[exampleLevelGIB], [2]⟩ := rfl

theorem exampleLevels_inRange : ∀ L ∈ [exampleLevelAB, exampleLevelGIB], ∀ ti ∈ L.tasks, InRange ti.task.ctr := by
  intro L hL ti hti
  simp only [List.mem_cons, List.not_mem_nil, or_false] at hL
  rcases hL with rfl | rfl
  · simp only [exampleLevelAB, List.mem_cons, List.not_mem_nil, or_false] at hti
    subst hti; exact True.intro
  · simp only [exampleLevelGIB, List.mem_cons, List.not_mem_nil, or_false] at hti
    subst hti; intro i hi; exact hi

theorem exampleLevelGIB_minimise : ∀ ti ∈ exampleLevelGIB.tasks, CanMinimise ti.task.ctr := by
  intro ti hti
  simp only [exampleLevelGIB, List.mem_cons, List.not_mem_nil, or_false] at hti
  subst hti; exact ⟨rfl, by intro h; cases h⟩

theorem exampleTwoLevels_reachable : ∀ L ∈ exampleTwoLevels.levels, Reachable L := by
  intro L hL
  simp only [exampleTwoLevels, List.mem_cons, List.not_mem_nil, or_false] at hL
  rcases hL with rfl | rfl
  · exact .push _ .empty
  · exact .push _ .empty

/-- A solver which has not been used yet. -/
def exampleKktOld : KktProblem ℚ := ⟨⟨Mat.const 0 0 0, Vec.const 0 0, .undefined⟩, ⟨0, Mat.const 0 0 0, Vec.const 0 0⟩⟩

/-- A solver which is used for a problem with two levels and then for a problem with one level returns, with success, a
point which is not the best one for the second problem: the constraint of the first problem is still there. -/
theorem C43_oneLevel_refuted (D : Decompositions ℚ) (hD : Trusted D) (junk : ℕ → ℚ) (sol : Solution ℚ)
    (hn : sol.structure_.nvars = 2) :
    ∃ q1 q2 sol' y,
      kktInitialize (fun _ _ => 0) ⟨fun _ _ => 0, fun _ => 0, fun _ => 0, fun _ => 0⟩ exampleKktOld
        ⟨[exampleLevelAB, exampleLevelGIB], [1, 2]⟩ 2 = .ok q1 ∧
      kktInitialize (fun _ _ => 0) ⟨fun _ _ => 0, fun _ => 0, fun _ => 0, fun _ => 0⟩ q1 ⟨[exampleLevelGIB], [2]⟩ 2 = .ok q2 ∧
      kktSolveHierarchy D KktParameters.default junk q2 sol = .ok sol' ∧ sol'.status = .ok ∧
      leastSquares exampleLevelGIB.tasks y < leastSquares exampleLevelGIB.tasks (entries sol'.x) := by
  obtain ⟨q1, a1, a2, a3, _⟩ := C43_hierarchy hD (p := KktParameters.default) (Or.inl rfl) junk exampleTwoLevels_form
    exampleTwoLevels_reachable rfl exampleLevels_inRange
    (by intro ti hti
        simp only [exampleLevelAB, List.mem_cons, List.not_mem_nil, or_false] at hti
        subst hti; rfl)
    exampleLevelGIB_minimise (fun _ _ => 0) ⟨fun _ _ => 0, fun _ => 0, fun _ => 0, fun _ => 0⟩ exampleKktOld sol hn
  have hrows : (kktInitialize (fun _ _ => 0) ⟨fun _ _ => 0, fun _ => 0, fun _ => 0, fun _ => 0⟩ exampleKktOld
        ⟨[exampleLevelAB, exampleLevelGIB], [1, 2]⟩ 2).map (fun q => q.equalities.A.rows) = .ok 1 := rfl
  have hentry : (kktInitialize (fun _ _ => 0) ⟨fun _ _ => 0, fun _ => 0, fun _ => 0, fun _ => 0⟩ exampleKktOld
        ⟨[exampleLevelAB, exampleLevelGIB], [1, 2]⟩ 2).map (fun q => q.equalities.A.e 0 0) = .ok 1 := rfl
  rw [a1] at hrows hentry
  have hrows : q1.equalities.A.rows = 1 := by simpa [Except.map] using hrows
  have hentry : q1.equalities.A.e 0 0 = 1 := by simpa [Except.map] using hentry
  have hind : IndependentRows q1.equalities.A := fun l h k hk => by
    have h0 := h 0 (by rw [a2.acols]; omega)
    rw [hrows, Finset.sum_range_one, hentry, one_mul] at h0
    have : k = 0 := by omega
    rw [this]; exact h0
  obtain ⟨q2, s, b1, b2, b3, b4⟩ := C43_stale hD (p := KktParameters.default) (Or.inl rfl) junk exampleOneLevel_form
    (by intro L hL
        simp only [exampleOneLevel, List.mem_cons, List.not_mem_nil, or_false] at hL
        subst hL; exact .push _ .empty)
    rfl (exampleLevels_inRange exampleLevelGIB (by simp)) exampleLevelGIB_minimise (fun _ _ => 0)
    ⟨fun _ _ => 0, fun _ => 0, fun _ => 0, fun _ => 0⟩ q1 a2 hind
    (by intro d hd j hj
        have h := hd _ (List.mem_singleton.mpr rfl)
        have h0 := h 0 (by show 0 < 2; omega)
        have h1 := h 1 (by show 1 < 2; omega)
        have h0 : (2 : ℚ) * d 0 = 0 := h0
        have h1 : (3 : ℚ) * d 1 = 0 := h1
        have : j = 0 ∨ j = 1 := by omega
        rcases this with rfl | rfl <;> linarith) sol hn
  refine ⟨q1, q2, s, fun i => if i = 0 then 1 / 2 else - 1 / 3, a1, b1, b2, b3, ?_⟩
  have hls : ∀ x : ℕ → ℚ, leastSquares exampleLevelGIB.tasks x = (2 * x 0 - 1) ^ 2 + (3 * x 1 + 1) ^ 2 := fun x => by
    simp [leastSquares, exampleLevelGIB, residualSq, exampleTask, exampleGIB, Spec.rows, lhs, target, Vec.ofList,
      Finset.sum_range_succ]
  have h3 := (a3 _).mp b4 _ (List.mem_singleton.mpr rfl) 0 (by show 0 < 1; omega)
  have hl : lhs exampleAB (entries s.x) 0 = entries s.x 0 + 2 * entries s.x 1 := by
    simp [lhs, exampleAB, Mat.ofRows, Finset.sum_range_succ]
  have h4 : (3 : ℚ) ≤ lhs exampleAB (entries s.x) 0 := h3.1 3 rfl
  rw [hl] at h4
  rw [hls, hls]
  norm_num
  by_contra hcon
  have e1 : (2 * entries s.x 0 - 1) ^ 2 = 0 := by nlinarith [sq_nonneg (2 * entries s.x 0 - 1), sq_nonneg (3 * entries s.x 1 + 1)]
  have e2 : (3 * entries s.x 1 + 1) ^ 2 = 0 := by nlinarith [sq_nonneg (2 * entries s.x 0 - 1), sq_nonneg (3 * entries s.x 1 + 1)]
  have := pow_eq_zero_iff two_ne_zero |>.mp e1
  have := pow_eq_zero_iff two_ne_zero |>.mp e2
  linarith

end Humoto
