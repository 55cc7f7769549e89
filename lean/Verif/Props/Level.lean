import Verif.Lemmas.Level
import Verif.Props.Rows

/-!
# Properties of hierarchy levels: C07, C08, C09
-/

namespace Humoto

open Spec

set_option linter.unusedSectionVars false

variable {E K : Type} [Field K]

theorem totalRows_cons (ti : TaskInfo E K) (ts : List (TaskInfo E K)) :
    totalRows (ti :: ts) = rows ti.task.ctr + totalRows ts := by simp [totalRows]

theorem owner_unique {o : ℕ} {ts : List (TaskInfo E K)} (h : Consecutive o ts) {r : ℕ} (h1 : o ≤ r)
    (h2 : r < o + totalRows ts) : ∃! k : ℕ, ∃ ti, ts[k]? = some ti ∧ Owns ti r := by
  have lower_bound : ∀ (ts : List (TaskInfo E K)) (o k : ℕ) (ti : TaskInfo E K), Consecutive o ts →
      ts[k]? = some ti → o ≤ ti.loc.offset := by
    intro ts
    induction ts with
    | nil => intro o k ti _ hk; simp at hk
    | cons t ts ih =>
      intro o k ti hc hk
      cases k with
      | zero =>
        simp only [List.getElem?_cons_zero, Option.some.injEq] at hk
        rw [← hk, hc.1]
      | succ k =>
        simp only [List.getElem?_cons_succ] at hk
        have := ih _ k ti hc.2 hk
        omega
  induction ts generalizing o with
  | nil => simp [totalRows] at h2; omega
  | cons t ts ih =>
    rw [totalRows_cons] at h2
    by_cases hr : r < o + rows t.task.ctr
    · refine ⟨0, ⟨t, by simp, by rw [h.1]; exact h1, by rw [h.1]; exact hr⟩, ?_⟩
      rintro k ⟨ti, hk, hown⟩
      cases k with
      | zero => rfl
      | succ k =>
        simp only [List.getElem?_cons_succ] at hk
        have := lower_bound ts _ k ti h.2 hk
        have := hown.1
        omega
    · obtain ⟨k, ⟨ti, hk, hown⟩, huniq⟩ := ih h.2 (by omega) (by omega)
      refine ⟨k + 1, ⟨ti, by simpa using hk, hown⟩, ?_⟩
      rintro k' ⟨ti', hk', hown'⟩
      cases k' with
      | zero =>
        simp only [List.getElem?_cons_zero, Option.some.injEq] at hk'
        subst hk'
        have := hown'.2
        rw [h.1] at this
        simp only at this
        omega
      | succ k' =>
        simp only [List.getElem?_cons_succ] at hk'
        rw [huniq k' ⟨ti', hk', hown'⟩]

theorem consecutive_fits {o : ℕ} {ts : List (TaskInfo E K)} (h : Consecutive o ts) :
    ∀ ti ∈ ts, o ≤ ti.loc.offset ∧ ti.loc.offset + ti.loc.length ≤ o + totalRows ts ∧
      ti.loc.length = rows ti.task.ctr := by
  induction ts generalizing o with
  | nil => simp
  | cons t ts ih =>
    intro ti hti
    rw [totalRows_cons]
    rcases List.mem_cons.mp hti with rfl | hti
    · rw [h.1]
      exact ⟨by simp, by simp only; omega, rfl⟩
    · obtain ⟨a, b, c⟩ := ih h.2 ti hti
      exact ⟨by omega, by omega, c⟩

/-! ## C07: layout of the rows of a level -/

/-- After forming a level which was built in any way:
the tasks are in the order "general, then simple"; their blocks are consecutive, starting with row `0`, and as long as the
task has rows; every row below the total belongs to exactly one task; general tasks own rows below the number of general
rows, simple tasks rows above; all reported counters are the sums over the tasks of the respective kind. -/
theorem C07_layout {L L' : Level E K} (hr : Reachable L) {nv : ℕ} {env : E} {g : Bool}
    (h : L.form nv env g = .ok L') :
    (∃ gs ss, L'.tasks = gs ++ ss ∧ (∀ ti ∈ gs, ti.task.ctr.ctype.isSimple = false) ∧
      (∀ ti ∈ ss, ti.task.ctr.ctype.isSimple = true)) ∧
    Consecutive 0 L'.tasks ∧
    (∀ r, r < L'.nConstraints → ∃! k : ℕ, ∃ ti, L'.tasks[k]? = some ti ∧ Owns ti r) ∧
    (∀ ti ∈ L'.tasks, ∀ r, Owns ti r →
      r < L'.nConstraints ∧ (ti.task.ctr.ctype.isSimple = true ↔ L'.nGeneral ≤ r)) ∧
    L'.nConstraints = totalRows L'.tasks ∧ 0 < L'.nConstraints ∧
    L'.nGeneral = totalRows (L'.tasks.filter fun ti => ! ti.task.ctr.ctype.isSimple) ∧
    L'.nSimple = totalRows (L'.tasks.filter fun ti => ti.task.ctr.ctype.isSimple) ∧
    L'.nEquality = totalRows (L'.tasks.filter fun ti => ti.task.ctr.ctype.isEquality) ∧
    L'.nInequality = totalRows (L'.tasks.filter fun ti => ! ti.task.ctr.ctype.isEquality) ∧
    L'.nInequalityOneSided = totalRows (L'.tasks.filter fun ti => ! ti.task.ctr.ctype.isEquality) +
      totalRows (L'.tasks.filter fun ti => ti.task.ctr.ctype.isTwoSided) := by
  obtain ⟨k1, k2, k3, k4, k5, k6, k7, k8⟩ := form_facts h
  have ho : Ordered (L'.tasks.map TaskInfo.ctype) := by rw [k1]; exact reachable_ordered hr
  have hc : Consecutive 0 L'.tasks := by simpa using consecutive_of_located k3 ho (Or.inl rfl)
  have hn : L'.nConstraints = totalRows L'.tasks := by rw [Level.nConstraints, k4, k5, rowsIf_not]
  have hineq : L'.nInequality = totalRows (L'.tasks.filter fun ti => ! ti.task.ctr.ctype.isEquality) := by
    have := rowsIf_not CtrType.isEquality L'.tasks
    have e : rowsIf (fun t => ! t.isEquality) L'.tasks =
      totalRows (L'.tasks.filter fun ti => ! ti.task.ctr.ctype.isEquality) := rowsIf_eq _ _
    rw [e] at this
    unfold Level.nInequality
    rw [hn, k6]
    omega
  have hgen : L'.nGeneral = totalRows (L'.tasks.filter fun ti => ! ti.task.ctr.ctype.isSimple) := by
    rw [k4, rowsIf_eq (fun t => ! t.isSimple)]
  have hsplit : ∃ gs ss, L'.tasks = gs ++ ss ∧ (∀ ti ∈ gs, ti.task.ctr.ctype.isSimple = false) ∧
      (∀ ti ∈ ss, ti.task.ctr.ctype.isSimple = true) := by
    obtain ⟨gs, ss, h1, h2, h3⟩ := ho
    obtain ⟨gs', ss', e1, e2, e3⟩ := List.map_eq_append_iff.mp h1
    exact ⟨gs', ss', e1, fun ti hti => h2 _ (e2 ▸ List.mem_map_of_mem hti),
      fun ti hti => h3 _ (e3 ▸ List.mem_map_of_mem hti)⟩
  refine ⟨hsplit, hc, fun r hr => ?_, fun ti hti r hown => ?_, hn, k8, hgen, by rw [k5, rowsIf_eq],
    by rw [k6, rowsIf_eq], hineq, by rw [Level.nInequalityOneSided, hineq, k7, rowsIf_eq]⟩
  · exact owner_unique hc (by omega) (by rw [Nat.zero_add, ← hn]; exact hr)
  · have hfit := consecutive_fits hc ti hti
    have hlt : r < L'.nConstraints := by rw [hn]; have := hown.2; omega
    refine ⟨hlt, ?_⟩
    obtain ⟨gs, ss, hs, hgs, hss⟩ := hsplit
    have hg' : L'.nGeneral = totalRows gs := by
      rw [hgen, hs, List.filter_append, List.filter_eq_self.mpr (fun a ha => by simp [hgs a ha]),
        List.filter_eq_nil_iff.mpr (fun a ha => by simp [hss a ha]), List.append_nil]
    have hcs : ∀ (gs : List (TaskInfo E K)) (o : ℕ), Consecutive o (gs ++ ss) →
        Consecutive o gs ∧ Consecutive (o + totalRows gs) ss := by
      intro gs
      induction gs with
      | nil => intro o h; exact ⟨trivial, by simpa [totalRows] using h⟩
      | cons t gs ih =>
        intro o h
        obtain ⟨a, b⟩ := ih _ h.2
        refine ⟨⟨h.1, a⟩, ?_⟩
        rw [totalRows_cons, ← Nat.add_assoc]; exact b
    rw [hs] at hc
    obtain ⟨c1, c2⟩ := hcs gs 0 hc
    rw [hs] at hti
    rcases List.mem_append.mp hti with hti | hti
    · have := consecutive_fits c1 ti hti
      have h3 := hown.2
      rw [hgs ti hti, hg']
      constructor
      · intro h; cases h
      · intro h; omega
    · have := consecutive_fits c2 ti hti
      have h3 := hown.1
      rw [hss ti hti, hg']
      exact ⟨fun _ => by omega, fun _ => rfl⟩

/-- Pushing tasks one by one to an empty level puts the general tasks first, in reverse order, and the simple tasks last,
in their order. -/
theorem C07_push_order (ts : List (Task E K)) :
    (ts.foldl Level.pushTask Level.empty).tasks.map TaskInfo.task =
      (ts.filter fun t => ! t.ctr.ctype.isSimple).reverse ++ ts.filter fun t => t.ctr.ctype.isSimple := by
  have gen : ∀ (ts : List (Task E K)) (L : Level E K) (a b : List (Task E K)), L.tasks.map TaskInfo.task = a ++ b →
      (ts.foldl Level.pushTask L).tasks.map TaskInfo.task =
        (ts.filter fun t => ! t.ctr.ctype.isSimple).reverse ++ a ++ (b ++ ts.filter fun t => t.ctr.ctype.isSimple) := by
    intro ts
    induction ts with
    | nil => intro L a b h; simpa using h
    | cons t ts ih =>
      intro L a b h
      rw [List.foldl_cons]
      cases hs : t.ctr.ctype.isSimple
      · rw [ih (L.pushTask t) (t :: a) b (by simp [Level.pushTask, hs, h])]
        simp [hs]
      · rw [ih (L.pushTask t) a (b ++ [t]) (by simp [Level.pushTask, hs, h])]
        simp [hs]
  simpa using gen ts Level.empty [] [] rfl

/-! ## C08: two-sided container -/

theorem sum_row {c : Ctr K} (hwf : WellFormed c) {a : ℕ → K} {i : ℕ} (hi : i < rows c)
    (ha : ∀ j, j < c.nvars → a j = coef c i j) (x : ℕ → K) :
    ∑ j ∈ Finset.range c.nvars, a j * x j = lhs c x i := by
  rw [← sum_coef c hwf x i hi]
  exact Finset.sum_congr rfl fun j hj => by rw [ha j (Finset.mem_range.mp hj)]

/-- The rows of each task are found in a two-sided container at the location of the task. -/
def RowsALU (ts : List (TaskInfo E K)) (k : ContainerALU K) : Prop :=
  ∀ ti ∈ ts, ∀ i, i < rows ti.task.ctr →
    (∀ x : ℕ → K, ∑ j ∈ Finset.range k.A.cols, k.A.e (ti.loc.offset + i) j * x j = lhs ti.task.ctr x i) ∧
    k.lb.e (ti.loc.offset + i) = (lower ti.task.ctr i).getD (-10 ^ 20) ∧
    k.ub.e (ti.loc.offset + i) = (upper ti.task.ctr i).getD (10 ^ 20)

theorem foldALU {nv : ℕ} (ts : List (TaskInfo E K)) (hwf : ∀ ti ∈ ts, WellFormed ti.task.ctr)
    (hnv : ∀ ti ∈ ts, ti.task.ctr.nvars = nv) (z : Junk K) :
    ∃ k, ts.foldlM (fun (p : ContainerALU K × ℕ) ti => ti.task.ctr.copyToALU p.1 p.2)
        (ContainerALU.reset z (totalRows ts) nv, 0) = .ok (k, totalRows ts) ∧
      InvALU (totalRows ts) nv k ∧
      Placed (fun ti : TaskInfo E K => rows ti.task.ctr) (fun ti => PALU ti.task.ctr) (rdALU k) 0 ts := by
  obtain ⟨k, h1, h2, h3, _⟩ := fold_wrote (InvALU (totalRows ts) nv) (totalRows ts) rdALU
    (fun ti : TaskInfo E K => rows ti.task.ctr) (fun ti => PALU ti.task.ctr)
    (fun (p : ContainerALU K × ℕ) ti => ti.task.ctr.copyToALU p.1 p.2) ts
    (fun ti hti s o hs ho => by
      have := copyToALU_ok ti.task.ctr (hwf ti hti) (totalRows ts) s o (by rw [hnv ti hti]; exact hs) ho
      rwa [hnv ti hti] at this)
    (ContainerALU.reset z (totalRows ts) nv) 0 ⟨rfl, rfl, rfl, rfl, rfl⟩ (by simp [total, totalRows])
  exact ⟨k, by rw [h1]; simp [total, totalRows], h2, h3⟩

theorem placed_at {n : TaskInfo E K → ℕ} {R : Type} {P : TaskInfo E K → ℕ → R → Prop} {rd : ℕ → R} {o : ℕ}
    {ts : List (TaskInfo E K)} (hn : ∀ ti, n ti = rows ti.task.ctr) (h : Placed n P rd o ts) (hc : Consecutive o ts) :
    ∀ ti ∈ ts, ∀ i, i < rows ti.task.ctr → P ti i (rd (ti.loc.offset + i)) := by
  induction ts generalizing o with
  | nil => simp
  | cons t ts ih =>
    intro ti hti i hi
    rcases List.mem_cons.mp hti with rfl | hti
    · rw [hc.1]; exact h.1 i (by rw [hn]; exact hi)
    · exact ih h.2 (by rw [hn]; exact hc.2) ti hti i hi

variable [LinearOrder K] [IsStrictOrderedRing K]

/-- Meaning of rows in a two-sided container. -/
theorem aluHolds_iff {nv : ℕ} {ts : List (TaskInfo E K)} (hwf : ∀ ti ∈ ts, WellFormed ti.task.ctr)
    (hnv : ∀ ti ∈ ts, ti.task.ctr.nvars = nv) {k : ContainerALU K} (hi : InvALU (totalRows ts) nv k)
    (hp : Placed (fun ti : TaskInfo E K => rows ti.task.ctr) (fun ti => PALU ti.task.ctr) (rdALU k) 0 ts)
    (x : ℕ → K) :
    (ALUHolds k x → ∀ ti ∈ ts, Satisfied ti.task.ctr x) ∧
    ((∀ ti ∈ ts, Satisfied ti.task.ctr x) → (∀ ti ∈ ts, WithinInfinity ti.task.ctr x) → ALUHolds k x) := by
  constructor
  · intro h ti hti i hir
    obtain ⟨p, _, hlt, hP⟩ := hp.item hti (i := i) hir
    have hrow := h p (by rw [hi.rows]; simpa [total, totalRows] using hlt)
    obtain ⟨ha, hl, hu⟩ := hP
    rw [hi.cols, ← hnv ti hti, sum_row (a := k.A.e p) (hwf ti hti) hir ha] at hrow
    constructor
    · intro l hl'
      have : k.lb.e p = l := by rw [show k.lb.e p = lbVal ti.task.ctr i from hl, lbVal, hl']; rfl
      rw [← this]; exact hrow.1
    · intro u hu'
      have : k.ub.e p = u := by rw [show k.ub.e p = ubVal ti.task.ctr i from hu, ubVal, hu']; rfl
      rw [← this]; exact hrow.2
  · intro h hw p hlt
    obtain ⟨ti, hti, i, hir, ha, hl, hu⟩ := hp.row (p := p) (by omega)
      (by rw [hi.rows] at hlt; simpa [total, totalRows] using hlt)
    rw [hi.cols, ← hnv ti hti, sum_row (a := k.A.e p) (hwf ti hti) hir ha]
    obtain ⟨h1, h2⟩ := h ti hti i hir
    obtain ⟨w1, w2⟩ := hw ti hti i hir
    rw [show k.lb.e p = lbVal ti.task.ctr i from hl, show k.ub.e p = ubVal ti.task.ctr i from hu]
    constructor
    · unfold lbVal
      cases hlo : lower ti.task.ctr i with
      | none => exact w1 hlo
      | some l => exact h1 l hlo
    · unfold ubVal
      cases hup : upper ti.task.ctr i with
      | none => exact w2 hup
      | some u => exact h2 u hup

/-- The two-sided container of a formed level: it has one row for each row of the tasks, at the location of the task.
A point which satisfies the container satisfies all tasks. A point which satisfies all tasks satisfies the container,
unless a row without lower (upper) bound lies below (above) the library infinity. -/
theorem C08_allConstraints {L L' : Level E K} (hr : Reachable L) {nv : ℕ} {env : E} {g : Bool}
    (h : L.form nv env g = .ok L') (hi : ∀ ti ∈ L'.tasks, InRange ti.task.ctr) (z : Junk K) :
    ∃ k, L'.getAllConstraints z nv = .ok k ∧ k.A.rows = L'.nConstraints ∧ k.A.cols = nv ∧
      k.lb.n = L'.nConstraints ∧ k.ub.n = L'.nConstraints ∧ RowsALU L'.tasks k ∧
      (∀ x, ALUHolds k x → LevelSatisfied L' x) ∧
      (∀ x, LevelSatisfied L' x → (∀ ti ∈ L'.tasks, WithinInfinity ti.task.ctr x) → ALUHolds k x) := by
  have hf := formedLevel_of_form hr h hi
  obtain ⟨k, hk, hinv, hp⟩ := foldALU L'.tasks hf.wf hf.nvars z
  refine ⟨k, ?_, ?_, hinv.cols, ?_, ?_, ?_, ?_, ?_⟩
  · unfold Level.getAllConstraints
    rw [if_pos hf.pos, hf.nConstraints]
    simp only
    rw [hk]; rfl
  · rw [hinv.rows, hf.nConstraints]
  · rw [hinv.lb, hf.nConstraints]
  · rw [hinv.ub, hf.nConstraints]
  · intro ti hti i hir
    obtain ⟨ha, hl, hu⟩ := placed_at (fun _ => rfl) hp hf.consecutive ti hti i hir
    refine ⟨fun x => ?_, hl, hu⟩
    rw [hinv.cols, ← hf.nvars ti hti]
    exact sum_row (hf.wf ti hti) hir ha x
  · intro x; exact (aluHolds_iff hf.wf hf.nvars hinv hp x).1
  · intro x; exact (aluHolds_iff hf.wf hf.nvars hinv hp x).2

theorem takeWhile_ordered {ts : List (TaskInfo E K)} (h : Ordered (ts.map TaskInfo.ctype)) :
    (ts.takeWhile fun ti => ! ti.task.ctr.ctype.isSimple) = ts.filter fun ti => ! ti.task.ctr.ctype.isSimple := by
  obtain ⟨gs, ss, h1, h2, h3⟩ := h
  obtain ⟨gs', ss', e1, e2, e3⟩ := List.map_eq_append_iff.mp h1
  have hg : ∀ ti ∈ gs', ti.task.ctr.ctype.isSimple = false := fun ti hti => h2 _ (e2 ▸ List.mem_map_of_mem hti)
  have hs : ∀ ti ∈ ss', ti.task.ctr.ctype.isSimple = true := fun ti hti => h3 _ (e3 ▸ List.mem_map_of_mem hti)
  rw [e1, List.filter_append, List.filter_eq_self.mpr (fun a ha => by simp [hg a ha]),
    List.filter_eq_nil_iff.mpr (fun a ha => by simp [hs a ha]), List.append_nil,
    List.takeWhile_append_of_pos (fun a ha => by simp [hg a ha])]
  cases ss' with
  | nil => simp
  | cons a ss' => rw [List.takeWhile_cons_of_neg (by simp [hs a (by simp)]), List.append_nil]

/-- The container of general constraints describes the general tasks of the level. -/
theorem C08_generalConstraints {L L' : Level E K} (hr : Reachable L) {nv : ℕ} {env : E} {g : Bool}
    (h : L.form nv env g = .ok L') (hi : ∀ ti ∈ L'.tasks, InRange ti.task.ctr) (z : Junk K) :
    ∃ k, L'.getGeneralConstraints z nv = .ok k ∧ k.A.rows = L'.nGeneral ∧ k.A.cols = nv ∧
      (∀ x, ALUHolds k x → ∀ ti ∈ L'.tasks, ti.task.ctr.ctype.isSimple = false → Satisfied ti.task.ctr x) ∧
      (∀ x, (∀ ti ∈ L'.tasks, ti.task.ctr.ctype.isSimple = false → Satisfied ti.task.ctr x) →
        (∀ ti ∈ L'.tasks, WithinInfinity ti.task.ctr x) → ALUHolds k x) := by
  have hf := formedLevel_of_form hr h hi
  have hsub : ∀ ti ∈ L'.tasks.filter (fun ti => ! ti.ctype.isSimple), ti ∈ L'.tasks :=
    fun ti hti => (List.mem_filter.mp hti).1
  obtain ⟨k, hk, hinv, hp⟩ := foldALU (L'.tasks.filter fun ti => ! ti.ctype.isSimple)
    (fun ti hti => hf.wf ti (hsub ti hti)) (fun ti hti => hf.nvars ti (hsub ti hti)) z
  have key := aluHolds_iff (fun ti hti => hf.wf ti (hsub ti hti)) (fun ti hti => hf.nvars ti (hsub ti hti)) hinv hp
  have h1 : ∀ x, ALUHolds k x → ∀ ti ∈ L'.tasks, ti.task.ctr.ctype.isSimple = false → Satisfied ti.task.ctr x :=
    fun x hx ti hti hs => (key x).1 hx ti (List.mem_filter.mpr ⟨hti, by simp [TaskInfo.ctype, hs]⟩)
  have h2 : ∀ x, (∀ ti ∈ L'.tasks, ti.task.ctr.ctype.isSimple = false → Satisfied ti.task.ctr x) →
      (∀ ti ∈ L'.tasks, WithinInfinity ti.task.ctr x) → ALUHolds k x :=
    fun x hx hw => (key x).2
      (fun ti hti => hx ti (hsub ti hti) (by simpa [TaskInfo.ctype] using (List.mem_filter.mp hti).2))
      (fun ti hti => hw ti (hsub ti hti))
  unfold Level.getGeneralConstraints
  by_cases hpos : L'.nGeneral > 0
  · refine ⟨k, ?_, by rw [hinv.rows, hf.nGeneral], hinv.cols, h1, h2⟩
    rw [if_pos hpos, takeWhile_ordered hf.ordered]
    simp only
    rw [hf.nGeneral, hk]; rfl
  · rw [if_neg hpos]
    have h0 : L'.nGeneral = 0 := by omega
    have hk0 : k.A.rows = 0 := by rw [hinv.rows, ← hf.nGeneral, h0]
    refine ⟨_, rfl, rfl, rfl, ?_, ?_⟩
    · intro x _
      exact h1 x fun i hi => absurd hi (by omega)
    · intro x _ _ i hi
      have : i < L'.nGeneral := hi
      omega

/-! ## C09: equalities and one-sided inequalities -/

theorem total_rowsAL (ts : List (TaskInfo E K)) :
    total (fun ti : TaskInfo E K => rowsAL ti.task.ctr) (ts.filter fun ti => ! ti.task.ctr.ctype.isEquality) =
      totalRows (ts.filter fun ti => ! ti.task.ctr.ctype.isEquality) +
        totalRows (ts.filter fun ti => ti.task.ctr.ctype.isTwoSided) := by
  induction ts with
  | nil => rfl
  | cons t ts ih =>
    have h2e : t.task.ctr.ctype.isTwoSided = true → t.task.ctr.ctype.isEquality = false := by
      cases t.task.ctr.ctype <;> simp [CtrType.isTwoSided, CtrType.isEquality]
    simp only [List.filter_cons]
    cases heq : t.task.ctr.ctype.isEquality <;> cases htw : t.task.ctr.ctype.isTwoSided
    · have h1 : rowsAL t.task.ctr = rows t.task.ctr := by simp [rowsAL, htw]
      simp only [Bool.not_false, if_true, Bool.false_eq_true, if_false, total_cons, totalRows_cons, h1, ih]
      omega
    · have h1 : rowsAL t.task.ctr = rows t.task.ctr + rows t.task.ctr := by simp [rowsAL, htw]
      simp only [Bool.not_false, if_true, total_cons, totalRows_cons, h1, ih]
      omega
    · simpa using ih
    · rw [h2e htw] at heq; cases heq

/-- The container of equalities and the container of lower bounds assembled from a formed level together describe
exactly the points which satisfy all tasks; upper bounds appear negated, two-sided tasks twice. -/
theorem C09_split {L L' : Level E K} (hr : Reachable L) {nv : ℕ} {env : E} {g : Bool}
    (h : L.form nv env g = .ok L') (hi : ∀ ti ∈ L'.tasks, InRange ti.task.ctr) (z : Junk K) :
    ∃ ke ki, L'.getEqualityConstraints z nv = .ok ke ∧ L'.getInequalityConstraints z nv = .ok ki ∧
      ke.A.rows = L'.nEquality ∧ ke.A.cols = nv ∧ ke.b.n = L'.nEquality ∧
      ki.A.rows = L'.nInequalityOneSided ∧ ki.A.cols = nv ∧ ki.lb.n = L'.nInequalityOneSided ∧
      ∀ x, (ABHolds ke x ∧ ALHolds ki x) ↔ LevelSatisfied L' x := by
  have hf := formedLevel_of_form hr h hi
  obtain ⟨_, _, _, _, _, _, _, _, _, _, hone⟩ := C07_layout hr h
  -- equalities
  have hsubE : ∀ ti ∈ L'.tasks.filter (fun ti => ti.ctype.isEquality), ti ∈ L'.tasks ∧ ti.ctype.isEquality = true :=
    fun ti hti => List.mem_filter.mp hti
  obtain ⟨ke, he1, he2, he3, _⟩ := fold_wrote (InvAB L'.nEquality nv) L'.nEquality rdAB
    (fun ti : TaskInfo E K => rows ti.task.ctr) (fun ti => PAB ti.task.ctr)
    (fun (p : ContainerAB K × ℕ) ti => ti.task.ctr.copyToAB p.1 p.2)
    (L'.tasks.filter fun ti => ti.ctype.isEquality)
    (fun ti hti s o hs ho => by
      obtain ⟨hm, heq⟩ := hsubE ti hti
      have := copyToAB_ok ti.task.ctr (hf.wf ti hm) heq L'.nEquality s o (by rw [hf.nvars ti hm]; exact hs) ho
      rwa [hf.nvars ti hm] at this)
    (ContainerAB.reset z L'.nEquality nv) 0 ⟨rfl, rfl, rfl, rfl⟩ (by rw [hf.nEquality]; simp [total, totalRows])
  have htE : total (fun ti : TaskInfo E K => rows ti.task.ctr) (L'.tasks.filter fun ti => ti.ctype.isEquality) =
      L'.nEquality := by rw [hf.nEquality]; rfl
  -- inequalities
  have hsubI : ∀ ti ∈ L'.tasks.filter (fun ti => ! ti.ctype.isEquality), ti ∈ L'.tasks ∧ ti.ctype.isEquality = false :=
    fun ti hti => by simpa using List.mem_filter.mp hti
  have htI : total (fun ti : TaskInfo E K => rowsAL ti.task.ctr) (L'.tasks.filter fun ti => ! ti.ctype.isEquality) =
      L'.nInequalityOneSided := by
    rw [hone]; exact total_rowsAL L'.tasks
  obtain ⟨ki, hi1, hi2, hi3, _⟩ := fold_wrote (InvAL L'.nInequalityOneSided nv) L'.nInequalityOneSided rdAL
    (fun ti : TaskInfo E K => rowsAL ti.task.ctr) (fun ti => PAL ti.task.ctr)
    (fun (p : ContainerAL K × ℕ) ti => ti.task.ctr.copyToAL p.1 p.2)
    (L'.tasks.filter fun ti => ! ti.ctype.isEquality)
    (fun ti hti s o hs ho => by
      obtain ⟨hm, heq⟩ := hsubI ti hti
      have := copyToAL_ok ti.task.ctr (hf.wf ti hm) heq L'.nInequalityOneSided s o
        (by rw [hf.nvars ti hm]; exact hs) ho
      rwa [hf.nvars ti hm] at this)
    (ContainerAL.reset z L'.nInequalityOneSided nv) 0 ⟨rfl, rfl, rfl, rfl⟩ (by rw [htI]; simp)
  refine ⟨ke, ki, ?_, ?_, he2.rows, he2.cols, he2.b, hi2.rows, hi2.cols, hi2.lb, ?_⟩
  · unfold Level.getEqualityConstraints
    have := foldlM_skip (fun ti : TaskInfo E K => ti.ctype.isEquality)
      (fun (p : ContainerAB K × ℕ) ti => ti.task.ctr.copyToAB p.1 p.2) L'.tasks
      (ContainerAB.reset z L'.nEquality nv, 0)
    rw [he1] at this
    simp only [TaskInfo.ctype] at this
    rw [this]; rfl
  · unfold Level.getInequalityConstraints
    have := foldlM_skip (fun ti : TaskInfo E K => ! ti.ctype.isEquality)
      (fun (p : ContainerAL K × ℕ) ti => ti.task.ctr.copyToAL p.1 p.2) L'.tasks
      (ContainerAL.reset z L'.nInequalityOneSided nv, 0)
    rw [hi1] at this
    simp only [TaskInfo.ctype, Bool.not_eq_true'] at this
    simp only [Bool.not_eq_true]
    rw [this]; rfl
  · intro x
    constructor
    · rintro ⟨hE, hI⟩ ti hti i hir
      cases heq : ti.ctype.isEquality
      · have hmem : ti ∈ L'.tasks.filter fun ti => ! ti.ctype.isEquality := List.mem_filter.mpr ⟨hti, by simp [heq]⟩
        have hsum := fun (a : ℕ → K) (ha : ∀ j, j < ti.task.ctr.nvars → a j = coef ti.task.ctr i j) =>
          sum_row (hf.wf ti hti) hir ha x
        constructor
        · intro l hl
          have hin : i < rowsAL ti.task.ctr := by unfold rowsAL; split <;> omega
          obtain ⟨p, _, hp1, q, hq, hq1 | hq2⟩ := hi3.item hmem hin
          · obtain ⟨ha, hlo, rfl⟩ := hq1
            have := hI p (by rw [hi2.rows, ← htI]; simpa using hp1)
            rw [hi2.cols, ← hf.nvars ti hti, hsum (ki.A.e p) ha] at this
            rw [hl] at hlo
            rw [Option.some.inj hlo]; exact this
          · exfalso
            obtain ⟨_, hup, hidx⟩ := hq2
            split at hidx
            · omega
            · rename_i h2
              simp only [TaskInfo.ctype] at heq
              revert hl hup h2 heq
              rcases ti.task.ctr with ⟨t, n, d⟩
              cases t <;> simp [lower, upper, CtrType.isTwoSided, CtrType.isEquality]
        · intro u hu
          have hin : (if ti.task.ctr.ctype.isTwoSided then rows ti.task.ctr + i else i) < rowsAL ti.task.ctr := by
            unfold rowsAL; split <;> omega
          obtain ⟨p, _, hp1, q, hq, hq1 | hq2⟩ := hi3.item hmem hin
          · exfalso
            obtain ⟨_, hlo, hidx⟩ := hq1
            split at hidx
            · omega
            · rename_i h2
              simp only [TaskInfo.ctype] at heq
              revert hu hlo h2 heq
              rcases ti.task.ctr with ⟨t, n, d⟩
              cases t <;> simp [lower, upper, CtrType.isTwoSided, CtrType.isEquality]
          · obtain ⟨ha, hup, hidx⟩ := hq2
            have hqi : q = i := by split at hidx <;> omega
            subst hqi
            have := hI p (by rw [hi2.rows, ← htI]; simpa using hp1)
            have hneg : ∑ j ∈ Finset.range ti.task.ctr.nvars, ki.A.e p j * x j = - lhs ti.task.ctr x q := by
              rw [← sum_coef ti.task.ctr (hf.wf ti hti) x q hir, ← Finset.sum_neg_distrib]
              exact Finset.sum_congr rfl fun j hj => by
                rw [show ki.A.e p j = - coef ti.task.ctr q j from ha j (Finset.mem_range.mp hj)]; ring
            rw [hi2.cols, ← hf.nvars ti hti, hneg] at this
            rw [hu] at hup
            have hb : u = - ki.lb.e p := Option.some.inj hup
            rw [hb]; linarith
      · have hmem : ti ∈ L'.tasks.filter fun ti => ti.ctype.isEquality := List.mem_filter.mpr ⟨hti, heq⟩
        obtain ⟨p, _, hp1, ha, hlo, hup⟩ := he3.item hmem (i := i) hir
        have := hE p (by rw [he2.rows, ← htE]; simpa using hp1)
        rw [he2.cols, ← hf.nvars ti hti, sum_row (a := ke.A.e p) (hf.wf ti hti) hir ha x] at this
        constructor
        · intro l hl
          rw [hl] at hlo
          rw [Option.some.inj hlo, this]; exact le_refl _
        · intro u hu
          rw [hu] at hup
          rw [Option.some.inj hup, this]; exact le_refl _
    · intro hsat
      constructor
      · intro p hp
        obtain ⟨ti, hti, i, hir, ha, hlo, hup⟩ := he3.row (p := p) (by omega) (by rw [he2.rows] at hp; rw [htE]; omega)
        obtain ⟨hm, _⟩ := hsubE ti hti
        rw [he2.cols, ← hf.nvars ti hm, sum_row (a := ke.A.e p) (hf.wf ti hm) hir ha x]
        obtain ⟨s1, s2⟩ := hsat ti hm i hir
        exact le_antisymm (s2 _ hup) (s1 _ hlo)
      · intro p hp
        obtain ⟨ti, hti, i, hir, q, hq, hq1 | hq2⟩ := hi3.row (p := p) (by omega)
          (by rw [hi2.rows] at hp; rw [htI]; omega)
        · obtain ⟨hm, _⟩ := hsubI ti hti
          obtain ⟨ha, hlo, _⟩ := hq1
          rw [hi2.cols, ← hf.nvars ti hm, sum_row (a := ki.A.e p) (hf.wf ti hm) hq ha x]
          exact (hsat ti hm q hq).1 _ hlo
        · obtain ⟨hm, _⟩ := hsubI ti hti
          obtain ⟨ha, hup, _⟩ := hq2
          have hneg : ∑ j ∈ Finset.range ti.task.ctr.nvars, ki.A.e p j * x j = - lhs ti.task.ctr x q := by
            rw [← sum_coef ti.task.ctr (hf.wf ti hm) x q hq, ← Finset.sum_neg_distrib]
            exact Finset.sum_congr rfl fun j hj => by
              rw [show ki.A.e p j = - coef ti.task.ctr q j from ha j (Finset.mem_range.mp hj)]; ring
          rw [hi2.cols, ← hf.nvars ti hm, hneg]
          have := (hsat ti hm q hq).2 _ hup
          have h4 : (rdAL ki p).2 = ki.lb.e p := rfl
          rw [h4] at this
          linarith

/-! ## Examples -/

/-- Simple constraint `x₁ ≥ -1`. -/
def exampleIL : Ctr ℚ :=
  ⟨.il, 2, ⟨Mat.ofRows 2 [], 0, ⟨1, fun _ => 1⟩, Vec.ofList [], Vec.ofList [], Vec.ofList [-1], Vec.ofList []⟩⟩

/-- Equality `x₀ + 2 x₁ = 3`. -/
def exampleAB : Ctr ℚ :=
  ⟨.ab, 2, ⟨Mat.ofRows 2 [[1, 2]], 0, ⟨0, fun _ => 0⟩, Vec.ofList [], Vec.ofList [3], Vec.ofList [], Vec.ofList []⟩⟩

/-- A task which forms the given constraints. -/
def exampleTask (c : Ctr ℚ) : Task Unit ℚ := ⟨c, true, [], [], fun _ c => pure (c.data, false), none⟩

/-- A level with a simple, a two-sided and an equality task. -/
def exampleLevel : Level Unit ℚ :=
  [exampleTask exampleIL, exampleTask exampleALU, exampleTask exampleAB].foldl Level.pushTask Level.empty

theorem exampleLevel_reachable : Reachable exampleLevel :=
  .push (exampleTask exampleAB) (.push (exampleTask exampleALU) (.push (exampleTask exampleIL) .empty))

/-- The level after forming. -/
def exampleFormed : Level Unit ℚ :=
  ⟨[⟨{ exampleTask exampleAB with guess := [.equality] }, ⟨0, 1⟩⟩,
    ⟨{ exampleTask exampleALU with guess := [.inactive, .inactive] }, ⟨1, 2⟩⟩,
    ⟨{ exampleTask exampleIL with guess := [.inactive] }, ⟨3, 1⟩⟩], 3, 1, 1, 2⟩

theorem exampleLevel_form : exampleLevel.form 2 () true = .ok exampleFormed := rfl

theorem exampleFormed_inRange : ∀ ti ∈ exampleFormed.tasks, InRange ti.task.ctr := by
  intro ti hti
  simp only [exampleFormed, List.mem_cons, List.not_mem_nil, or_false] at hti
  rcases hti with rfl | rfl | rfl
  · exact True.intro
  · exact True.intro
  · intro i hi
    simp [exampleTask, exampleIL]

example : exampleFormed.nConstraints = 4 ∧ exampleFormed.nInequalityOneSided = 5 := ⟨rfl, rfl⟩

end Humoto
