import Verif.Props.Kkt
import Verif.Props.Guess
import Verif.Spec.Bridges

/-!
# Helper lemmas about interfaces to QP solvers
-/

namespace Humoto.Bridge

open Spec Finset

set_option linter.unusedSectionVars false

variable {E K : Type} [Field K] [LinearOrder K] [IsStrictOrderedRing K]

/-! ## Regularization -/

theorem regularizeIf_ok {reg : K} (hreg : 0 ≤ reg) {q : QPObjective K} {n : ℕ} (hr : q.H.rows = n) (hc : q.H.cols = n) :
    ∃ o, regularizeIf reg q = .ok o ∧ o.H.rows = n ∧ o.H.cols = n ∧ o.g = q.g ∧
      ∀ i j, i < n → o.H.e i j = if i = j then q.H.e i j + reg else q.H.e i j := by
  unfold regularizeIf
  rw [assertThat_true hreg, ok_bind]
  by_cases h0 : reg > 0
  · rw [if_pos h0]
    unfold QPObjective.regularize
    obtain ⟨H, h1, h2, h3, h4⟩ := forRange_inv (P := fun k (H : Mat K) => H.rows = n ∧ H.cols = n ∧
        ∀ i j, H.e i j = if i = j ∧ i < k then q.H.e i j + reg else q.H.e i j) (n := q.H.rows) (s := q.H)
        (body := fun H i => do
          let h ← H.get i i
          H.set i i (h + reg)) ⟨hr, hc, fun i j => by simp⟩ (by
      rintro i H hi ⟨k1, k2, k3⟩
      rw [Mat.get_ok (by omega) (by omega), ok_bind]
      refine ⟨_, Mat.set_ok (by omega) (by omega) _, k1, k2, ?_⟩
      intro a b
      simp only
      by_cases hab : a = i ∧ b = i
      · obtain ⟨rfl, rfl⟩ := hab
        rw [if_pos ⟨rfl, rfl⟩, if_pos ⟨rfl, by omega⟩, k3, if_neg (by omega)]
      · rw [if_neg hab, k3]
        by_cases h5 : a = b
        · subst h5
          have : a ≠ i := fun h => hab ⟨h, h⟩
          by_cases h6 : a < i
          · rw [if_pos ⟨rfl, h6⟩, if_pos ⟨rfl, by omega⟩]
          · rw [if_neg (by omega), if_neg (by omega)]
        · rw [if_neg (by tauto), if_neg (by tauto)])
    refine ⟨{ q with H := H }, ?_, h2, h3, rfl, ?_⟩
    · rw [h1, ok_bind]; rfl
    · intro i j hi
      rw [h4]
      by_cases h5 : i = j
      · rw [if_pos ⟨h5, by omega⟩, if_pos h5]
      · rw [if_neg (by tauto), if_neg h5]
  · have h1 : reg = 0 := le_antisymm (not_lt.mp h0) hreg
    rw [if_neg h0]
    refine ⟨q, rfl, hr, hc, rfl, fun i j _ => ?_⟩
    rw [h1, add_zero, ite_self]

theorem sum_diag (n : ℕ) (reg : K) (x : ℕ → K) (f : ℕ → ℕ → K) :
    ∑ i ∈ range n, ∑ j ∈ range n, (if i = j then f i j + reg else f i j) * x i * x j =
      ∑ i ∈ range n, ∑ j ∈ range n, f i j * x i * x j + reg * ∑ i ∈ range n, x i ^ 2 := by
  rw [Finset.mul_sum, ← Finset.sum_add_distrib]
  refine Finset.sum_congr rfl fun i hi => ?_
  have e : ∀ j, (if i = j then f i j + reg else f i j) * x i * x j =
      f i j * x i * x j + if i = j then reg * x i * x j else 0 := fun j => by
    by_cases h : i = j
    · rw [if_pos h, if_pos h]; ring
    · rw [if_neg h, if_neg h]; ring
  rw [Finset.sum_congr rfl fun j _ => e j, Finset.sum_add_distrib, Finset.sum_ite_eq, if_pos hi]
  ring

theorem quadratic_reg {A B : Mat K} {n : ℕ} {reg : K} (ha : A.rows = n) (ha' : A.cols = n) (hb : B.rows = n)
    (hb' : B.cols = n) (h : ∀ i j, i < n → B.e i j = if i = j then A.e i j + reg else A.e i j) (x : ℕ → K) :
    quadratic B x = quadratic A x + reg * ∑ i ∈ range n, x i ^ 2 := by
  unfold quadratic
  rw [ha, ha', hb, hb', ← sum_diag]
  exact Finset.sum_congr rfl fun i hi => Finset.sum_congr rfl fun j _ => by rw [h i j (by simpa using hi)]

theorem lowerQuadratic_reg {A B : Mat K} {n : ℕ} {reg : K} (ha : A.rows = n) (ha' : A.cols = n) (hb : B.rows = n)
    (hb' : B.cols = n) (h : ∀ i j, i < n → B.e i j = if i = j then A.e i j + reg else A.e i j) (x : ℕ → K) :
    lowerQuadratic B x = lowerQuadratic A x + reg * ∑ i ∈ range n, x i ^ 2 := by
  unfold lowerQuadratic
  rw [ha, ha', hb, hb', ← sum_diag]
  refine Finset.sum_congr rfl fun i hi => Finset.sum_congr rfl fun j hj => ?_
  by_cases hij : j ≤ i
  · rw [if_pos hij, if_pos hij, h i j (by simpa using hi)]
  · rw [if_neg hij, if_neg hij, h j i (by simpa using hj), if_neg (by omega), if_neg (by omega)]

/-! ## Hessians -/

/-- The objective with the upper triangle filled. -/
theorem lower_of_minimises {q : QPObjective K} {ts : List (TaskInfo E K)} {nv : ℕ} {upper : Bool}
    (h : Minimises q ts nv upper) (d : ℕ → K) :
    lowerQuadratic q.H d = (ts.map fun ti => ∑ i ∈ range (rows ti.task.ctr), lhs ti.task.ctr d i ^ 2).sum := by
  let H : Mat K := ⟨q.H.rows, q.H.cols, fun i j => if j ≤ i then q.H.e i j else q.H.e j i⟩
  have e1 : ∀ x, quadratic H x = lowerQuadratic q.H x := fun x => rfl
  have e2 : ∀ x, lowerQuadratic H x = lowerQuadratic q.H x := fun x => by
    refine Finset.sum_congr rfl fun i _ => Finset.sum_congr rfl fun j _ => ?_
    by_cases hij : j ≤ i
    · simp only [H, if_pos hij]
    · simp only [H, if_neg hij, if_pos (show i ≤ j by omega)]
  have key : Minimises (⟨H, q.g, .lowerTriangular⟩ : QPObjective K) ts nv true :=
    ⟨h.rows, h.cols, h.n, fun x => by rw [e2]; exact h.value x, fun _ x => by rw [e1]; exact h.value x,
      fun _ i j _ _ => by
        simp only [H]
        by_cases h1 : j ≤ i <;> by_cases h2 : i ≤ j
        · have : i = j := by omega
          subst this; rfl
        · rw [if_pos h1, if_neg h2]
        · rw [if_neg h1, if_pos h2]
        · omega,
      (fun h => by cases h), (fun h => by cases h), (by intro h; cases h)⟩
  exact quadratic_of_minimises key d

theorem squares_nonneg (ts : List (TaskInfo E K)) (d : ℕ → K) :
    0 ≤ (ts.map fun ti => ∑ i ∈ range (rows ti.task.ctr), lhs ti.task.ctr d i ^ 2).sum :=
  List.sum_nonneg fun a ha => by
    obtain ⟨t, _, rfl⟩ := List.mem_map.mp ha
    exact Finset.sum_nonneg fun i _ => sq_nonneg _

theorem squares_pos {ts : List (TaskInfo E K)} {nv : ℕ} {reg : K} (hreg : 0 ≤ reg) (h : 0 < reg ∨ Determined ts nv)
    (d : ℕ → K) (hd : ∃ j, j < nv ∧ d j ≠ 0) :
    0 < (ts.map fun ti => ∑ i ∈ range (rows ti.task.ctr), lhs ti.task.ctr d i ^ 2).sum +
      reg * ∑ i ∈ range nv, d i ^ 2 := by
  obtain ⟨j, hj, hdj⟩ := hd
  have h1 := squares_nonneg ts d
  have h2 : 0 < ∑ i ∈ range nv, d i ^ 2 :=
    lt_of_lt_of_le (by positivity : 0 < d j ^ 2)
      (Finset.single_le_sum (f := fun i => d i ^ 2) (fun i _ => sq_nonneg _) (by simpa using hj))
  rcases h with h | h
  · have := mul_pos h h2
    linarith
  · have h3 := mul_nonneg hreg h2.le
    by_contra hneg
    have hz : (ts.map fun ti => ∑ i ∈ range (rows ti.task.ctr), lhs ti.task.ctr d i ^ 2).sum = 0 := by linarith
    refine hdj (h d (fun ti hti i hi => ?_) j hj)
    have h4 := list_zero_of_sum_zero _ (fun a ha => by
      obtain ⟨t, _, rfl⟩ := List.mem_map.mp ha
      exact Finset.sum_nonneg fun i _ => sq_nonneg _) hz _ (List.mem_map.mpr ⟨ti, hti, rfl⟩)
    have := (Finset.sum_eq_zero_iff_of_nonneg fun i _ => sq_nonneg _).mp h4 i (by simpa using hi)
    exact pow_eq_zero_iff two_ne_zero |>.mp this

/-! ## Contents of the containers -/

/-- The general constraints of a formed level are the rows of its general tasks, at their locations. -/
theorem generalRows {L L' : Level E K} (hr : Reachable L) {nv : ℕ} {env : E} {g : Bool}
    (h : L.form nv env g = .ok L') (hi : ∀ ti ∈ L'.tasks, InRange ti.task.ctr) {z : Junk K} {k : ContainerALU K}
    (hk : L'.getGeneralConstraints z nv = .ok k) :
    k.A.rows = L'.nGeneral ∧ k.A.cols = nv ∧ k.lb.n = L'.nGeneral ∧ k.ub.n = L'.nGeneral ∧
      RowsALU (L'.tasks.filter fun ti => ! ti.ctype.isSimple) k := by
  have hf := formedLevel_of_form hr h hi
  have hsub : ∀ ti ∈ L'.tasks.filter (fun ti => ! ti.ctype.isSimple), ti ∈ L'.tasks :=
    fun ti hti => (List.mem_filter.mp hti).1
  obtain ⟨k', hk', hinv, hp⟩ := foldALU (L'.tasks.filter fun ti => ! ti.ctype.isSimple)
    (fun ti hti => hf.wf ti (hsub ti hti)) (fun ti hti => hf.nvars ti (hsub ti hti)) z
  have hcons : Consecutive 0 (L'.tasks.filter fun ti => ! ti.ctype.isSimple) := by
    have key : ∀ (gs ss : List (TaskInfo E K)) (o : ℕ), Consecutive o (gs ++ ss) → Consecutive o gs := by
      intro gs ss
      induction gs with
      | nil => intro o _; trivial
      | cons t gs ih => intro o h; exact ⟨h.1, ih _ h.2⟩
    obtain ⟨⟨gs, ss, e, hg, hs⟩, hc, _⟩ := C07_layout hr h
    rw [e, List.filter_append, List.filter_eq_self.mpr (fun a ha => by simp [TaskInfo.ctype, hg a ha]),
      List.filter_eq_nil_iff.mpr (fun a ha => by simp [TaskInfo.ctype, hs a ha]), List.append_nil]
    rw [e] at hc
    exact key gs ss 0 hc
  unfold Level.getGeneralConstraints at hk
  by_cases hpos : L'.nGeneral > 0
  · rw [if_pos hpos, takeWhile_ordered hf.ordered] at hk
    simp only at hk
    rw [hf.nGeneral] at hk
    have e1 : (fun ti : TaskInfo E K => ! ti.task.ctr.ctype.isSimple) = fun ti => ! ti.ctype.isSimple := rfl
    rw [e1, hk'] at hk
    cases hk
    refine ⟨by rw [hinv.rows, hf.nGeneral], hinv.cols, by rw [hinv.lb, hf.nGeneral], by rw [hinv.ub, hf.nGeneral], ?_⟩
    intro ti hti i hir
    obtain ⟨ha, hl, hu⟩ := placed_at (fun _ => rfl) hp hcons ti hti i hir
    refine ⟨fun x => ?_, hl, hu⟩
    rw [hinv.cols, ← hf.nvars ti (hsub ti hti)]
    exact sum_row (hf.wf ti (hsub ti hti)) hir ha x
  · rw [if_neg hpos] at hk
    cases hk
    refine ⟨rfl, rfl, rfl, rfl, ?_⟩
    intro ti hti i hir
    exfalso
    have h0 : totalRows (L'.tasks.filter fun ti => ! ti.ctype.isSimple) = 0 := by rw [← hf.nGeneral]; omega
    have h1 := List.sum_eq_zero_iff.mp h0 _ (List.mem_map_of_mem (f := fun ti => rows ti.task.ctr) hti)
    omega

theorem placed_shift {R : Type} {P : TaskInfo E K → ℕ → R → Prop} {rd : ℕ → R} {o d : ℕ} {ts : List (TaskInfo E K)}
    (h : Placed (fun ti => rows ti.task.ctr) P rd o ts) (hc : Consecutive (d + o) ts) :
    ∀ ti ∈ ts, ∀ i, i < rows ti.task.ctr → ∃ p, ti.loc.offset + i = d + p ∧ p < o + totalRows ts ∧ P ti i (rd p) := by
  induction ts generalizing o with
  | nil => simp
  | cons t ts ih =>
    intro ti hti i hi
    have e : totalRows (t :: ts) = rows t.task.ctr + totalRows ts := by simp [totalRows]
    rcases List.mem_cons.mp hti with rfl | hti
    · exact ⟨o + i, by rw [hc.1]; simp only; omega, by omega, h.1 i hi⟩
    · obtain ⟨p, h1, h2, h3⟩ := ih h.2 (by rw [← Nat.add_assoc]; exact hc.2) ti hti i hi
      exact ⟨p, h1, by simp only at h2; omega, h3⟩

/-- What the bounds of a formed level are, for the interface of qpOASES. -/
structure BoundsOf (L : Level E K) (nv : ℕ) (c : QPConstraintsILUALU K) : Prop where
  nC : c.general.A.rows = L.nGeneral
  nS : c.bounds.idx.n = L.nSimple
  nvars : c.bounds.nvars = nv
  lbn : c.bounds.lb.n = L.nSimple
  ubn : c.bounds.ub.n = L.nSimple
  index : ∀ p, p < L.nSimple → c.bounds.idx.e p < nv
  item : ∀ ti ∈ L.tasks, ti.task.ctr.ctype.isSimple = true → ∀ i, i < rows ti.task.ctr → ∃ p,
    ti.loc.offset + i = L.nGeneral + p ∧ p < L.nSimple ∧ c.bounds.idx.e p = ti.task.ctr.data.idx.e i ∧
    c.bounds.lb.e p = lbVal ti.task.ctr i ∧ c.bounds.ub.e p = ubVal ti.task.ctr i
  row : ∀ p, p < L.nSimple → ∃ ti ∈ L.tasks, ti.task.ctr.ctype.isSimple = true ∧ ∃ i, i < rows ti.task.ctr ∧
    c.bounds.idx.e p = ti.task.ctr.data.idx.e i ∧ c.bounds.lb.e p = lbVal ti.task.ctr i ∧
    c.bounds.ub.e p = ubVal ti.task.ctr i
  size : 0 < L.nSimple → c.lb.n = nv ∧ c.ub.n = nv
  tight : 0 < L.nSimple → ∀ v, v < nv → TightestLower L.tasks v (c.lb.e v) ∧ TightestUpper L.tasks v (c.ub.e v)

theorem boundsOf {L L' : Level E K} (hr : Reachable L) {nv : ℕ} {env : E} {g : Bool} (h : L.form nv env g = .ok L')
    (hi : ∀ ti ∈ L'.tasks, InRange ti.task.ctr)
    (hI : ∀ ti ∈ L'.tasks, ti.task.ctr.ctype.isSimple = true → ti.task.ctr.ctype.hasILUCopy = true) {z : Junk K}
    {c : QPConstraintsILUALU K} (hc : QPConstraintsILUALU.initialize z L' nv = .ok c) : BoundsOf L' nv c := by
  have hf := formedLevel_of_form hr h hi
  unfold QPConstraintsILUALU.initialize at hc
  obtain ⟨ka, a1, hc⟩ := bind_eq_ok.mp hc
  obtain ⟨kb, b1, hc⟩ := bind_eq_ok.mp hc
  obtain ⟨p, p1, hc⟩ := bind_eq_ok.mp hc
  cases hc
  obtain ⟨g1, g2, _⟩ := generalRows hr h hi a1
  obtain ⟨k', h1, hinv, hp⟩ := getSimple_ok hf hI z
  rw [b1] at h1
  cases h1
  have ht : totalRows (L'.tasks.filter fun ti => ti.task.ctr.ctype.isSimple) = L'.nSimple :=
    hf.nSimple.symm
  have hcons : Consecutive (L'.nGeneral + 0) (L'.tasks.filter fun ti => ti.task.ctr.ctype.isSimple) := by
    have key : ∀ (gs ss : List (TaskInfo E K)) (o : ℕ), Consecutive o (gs ++ ss) → Consecutive (o + totalRows gs) ss := by
      intro gs ss
      induction gs with
      | nil => intro o h; simpa [totalRows] using h
      | cons t gs ih =>
        intro o h
        have := ih _ h.2
        rwa [show o + totalRows (t :: gs) = o + rows t.task.ctr + totalRows gs by simp [totalRows, Nat.add_assoc]]
    obtain ⟨⟨gs, ss, e, hg, hs⟩, hc, _⟩ := C07_layout hr h
    have hG : L'.nGeneral = totalRows gs := by
      rw [hf.nGeneral, e, List.filter_append, List.filter_eq_self.mpr (fun a ha => by simp [TaskInfo.ctype, hg a ha]),
        List.filter_eq_nil_iff.mpr (fun a ha => by simp [TaskInfo.ctype, hs a ha]), List.append_nil]
    rw [hG, e, List.filter_append, List.filter_eq_nil_iff.mpr (fun a ha => by simp [hg a ha]),
      List.filter_eq_self.mpr (fun a ha => by simp [hs a ha]), List.nil_append]
    rw [e] at hc
    simpa using key gs ss 0 hc
  have hrow : ∀ p, p < L'.nSimple → ∃ ti ∈ L'.tasks, ti.task.ctr.ctype.isSimple = true ∧ ∃ i, i < rows ti.task.ctr ∧
      kb.idx.e p = ti.task.ctr.data.idx.e i ∧ kb.lb.e p = lbVal ti.task.ctr i ∧ kb.ub.e p = ubVal ti.task.ctr i := by
    intro p hpl
    obtain ⟨ti, hti, i, hir, hP1, hP2, hP3⟩ := hp.row (p := p) (by omega)
      (by rw [Nat.zero_add]; exact lt_of_lt_of_eq hpl ht.symm)
    obtain ⟨hm, hsi⟩ := List.mem_filter.mp hti
    exact ⟨ti, hm, hsi, i, hir, hP1, hP2, hP3⟩
  have hb := C10_bounds hr h hi hI z
  obtain ⟨kb', hb0, _, hb2⟩ := hb
  rw [b1] at hb0
  cases hb0
  have hb3 : 0 < L'.nSimple → p.1.n = nv ∧ p.2.n = nv ∧
      ∀ v, v < nv → TightestLower L'.tasks v (p.1.e v) ∧ TightestUpper L'.tasks v (p.2.e v) := fun hpos => by
    rcases hb2 hpos with ⟨p', hp', n1, n2, n3⟩ | ⟨hthrow, _⟩
    · rw [p1] at hp'
      cases hp'
      exact ⟨n1, n2, fun v hv => ⟨(n3 v hv).1, (n3 v hv).2.1⟩⟩
    · rw [p1] at hthrow; cases hthrow
  refine ⟨g1, hinv.idx, hinv.nvars, hinv.lb, hinv.ub, ?_, ?_, hrow, fun hpos => ⟨(hb3 hpos).1, (hb3 hpos).2.1⟩,
    fun hpos => (hb3 hpos).2.2⟩
  · intro p hpl
    obtain ⟨ti, hm, hsi, i, hir, e1, _⟩ := hrow p hpl
    rw [show kb.idx.e p = _ from e1, ← hf.nvars ti hm]
    exact (simple_row _ (hf.wf ti hm).2 (hI ti hm hsi) hir).2
  · intro ti hti hsi i hir
    obtain ⟨p, k1, k2, k3, k4, k5⟩ := placed_shift hp hcons ti (List.mem_filter.mpr ⟨hti, hsi⟩) i hir
    exact ⟨p, k1, by rw [Nat.zero_add, ht] at k2; exact k2, k3, k4, k5⟩

end Humoto.Bridge
