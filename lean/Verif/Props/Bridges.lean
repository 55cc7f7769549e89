import Verif.Lemmas.Bridges

/-!
# Active sets of the interface to qpOASES: C49
-/

namespace Humoto.Bridge

open Spec Finset

set_option linter.unusedSectionVars false

variable {E K : Type} [Field K] [LinearOrder K] [IsStrictOrderedRing K]

/-! ## C49 -/

/-- What `constraintActivation` returns. -/
theorem constraintActivation_ok {w : K} (h : WorkingValue w) : ∃ a, constraintActivation w = .ok a ∧ ReportsGeneral w a := by
  have h1 : (-1 : K) ≠ 0 := by norm_num
  have h2 : (-1 : K) ≠ 1 := by intro h; have : (0 : K) < 1 := one_pos; linarith
  unfold constraintActivation
  rcases h with rfl | rfl | rfl
  · exact ⟨.lowerBound, if_pos rfl, by simp [ReportsGeneral, h1, h2]⟩
  · exact ⟨.inactive, by rw [if_neg h1.symm, if_pos rfl], by simp [ReportsGeneral, h1.symm]⟩
  · exact ⟨.upperBound, by rw [if_neg h2.symm, if_neg one_ne_zero, if_pos rfl], by simp [ReportsGeneral, h2.symm]⟩

theorem constraintActivation_error {w : K} (h : ¬ WorkingValue w) : constraintActivation w = .error .thrown := by
  unfold WorkingValue at h
  push Not at h
  unfold constraintActivation
  rw [if_neg h.1, if_neg h.2.1, if_neg h.2.2]

/-- The activation which is given to row `p` of the bounds. -/
def boundAct (c : QPConstraintsILUALU K) (wb : ℕ → K) (p : ℕ) : Act :=
  if wb (c.bounds.idx.e p) = -1 then
    if c.bounds.lb.e p < c.lb.e (c.bounds.idx.e p) then .inactive else .lowerBound
  else if wb (c.bounds.idx.e p) = 0 then .inactive
  else if c.bounds.ub.e p > c.ub.e (c.bounds.idx.e p) then .inactive else .upperBound

/-- What `boundActivation` returns. -/
theorem boundActivation_ok {L : Level E K} {nv : ℕ} {c : QPConstraintsILUALU K} (hb : BoundsOf L nv c) {wb : ℕ → K}
    {p : ℕ} (hp : p < L.nSimple) (hw : WorkingValue (wb (c.bounds.idx.e p))) :
    boundActivation c ⟨c.bounds.nvars, wb⟩ p = .ok
      (boundAct c wb p) := by
  have hpos : 0 < L.nSimple := by omega
  have hv := hb.index p hp
  unfold boundActivation boundAct
  rw [Vec.get_ok (by rw [hb.nS]; exact hp), ok_bind, Vec.get_ok (by simp only [hb.nvars]; exact hv), ok_bind]
  simp only
  by_cases h1 : wb (c.bounds.idx.e p) = -1
  · rw [if_pos h1, if_pos h1, Vec.get_ok (by rw [hb.lbn]; exact hp), ok_bind,
      Vec.get_ok (by rw [(hb.size hpos).1]; exact hv), ok_bind]
    split <;> rfl
  · rw [if_neg h1, if_neg h1]
    by_cases h2 : wb (c.bounds.idx.e p) = 0
    · rw [if_pos h2, if_pos h2]; rfl
    · rw [if_neg h2, if_neg h2]
      rcases hw with h | h | h
      · exact absurd h h1
      · exact absurd h h2
      · rw [if_pos h, Vec.get_ok (by rw [hb.ubn]; exact hp), ok_bind,
          Vec.get_ok (by rw [(hb.size hpos).2]; exact hv), ok_bind]
        split <;> rfl

theorem boundActivation_error {L : Level E K} {nv : ℕ} {c : QPConstraintsILUALU K} (hb : BoundsOf L nv c) {wb : ℕ → K}
    {p : ℕ} (hp : p < L.nSimple) (hw : ¬ WorkingValue (wb (c.bounds.idx.e p))) :
    boundActivation c ⟨c.bounds.nvars, wb⟩ p = .error .thrown := by
  have hv := hb.index p hp
  unfold WorkingValue at hw
  push Not at hw
  unfold boundActivation
  rw [Vec.get_ok (by rw [hb.nS]; exact hp), ok_bind, Vec.get_ok (by simp only [hb.nvars]; exact hv), ok_bind]
  simp only
  rw [if_neg hw.1, if_neg hw.2.1, if_neg hw.2.2]

theorem getEntry_ok {s : ActiveSetH} {l i : ℕ} {t : ActiveSetC} (h : s[l]? = some t) {a : Act} (hi : t[i]? = some a) :
    getEntry s l i = .ok a := by
  unfold getEntry
  rw [h]
  simp [ActiveSetC.get, hi]

/-- Writing to the first of two levels. -/
theorem setEntry_ok {s0 s1 : ActiveSetC} {i : ℕ} (h : i < s0.length) (a : Act) :
    setEntry [s0, s1] 0 i a = .ok [s0.set i a, s1] := by
  unfold setEntry
  simp [ActiveSetC.setAt, h]

/-- Result of `getActiveSet` row by row: the first level is filled with given activations, or an exception is raised. -/
theorem getActiveSet_ok {c : QPConstraintsILUALU K} {wb wc : ℕ → K} {P : Hierarchy E K} {n0 n1 : ℕ}
    (hlen : P.levels.length = 2) (hcnt : P.counts = [n0, n1]) (hn : c.general.A.rows + c.bounds.idx.n = n0)
    (hpos : 0 < n0) (fc fb : ℕ → Act) (hc : ∀ i, i < c.general.A.rows → constraintActivation (wc i) = .ok (fc i))
    (hb : ∀ i, i < c.bounds.idx.n → boundActivation c ⟨c.bounds.nvars, wb⟩ i = .ok (fb i)) :
    ∃ s0, getActiveSet c wb wc P = .ok [s0, List.replicate n1 .equality] ∧ s0.length = n0 ∧
      (∀ i, i < c.general.A.rows → s0[i]? = some (fc i)) ∧
      ∀ i, i < c.bounds.idx.n → s0[c.general.A.rows + i]? = some (fb i) := by
  unfold getActiveSet
  simp only
  have h1 : ActiveSetH.init P.levels.length P.counts = .ok [ActiveSetC.init n0, ActiveSetC.init n1] := by
    rw [hlen, hcnt]; rfl
  have h2 : ActiveSetH.setLevel [ActiveSetC.init n0, ActiveSetC.init n1]
      (if 0 = c.general.A.rows + c.bounds.idx.n then 0 else 1) .equality =
      .ok [ActiveSetC.init n0, List.replicate n1 .equality] := by
    rw [if_neg (by omega)]
    unfold ActiveSetH.setLevel
    simp only [List.getElem?_cons_succ, List.getElem?_cons_zero]
    obtain ⟨r, k1, k2, k3, _⟩ := C03_setLoc (ActiveSetC.init n1) ⟨0, (ActiveSetC.init n1).length⟩ .equality (by simp)
    have k4 : r = List.replicate n1 .equality := by
      apply List.ext_getElem?
      intro i
      by_cases hi : i < n1
      · have := k3 i (by simpa [ActiveSetC.init] using hi)
        simp only [Nat.zero_add] at this
        rw [this, List.getElem?_replicate, if_pos hi]
      · rw [List.getElem?_eq_none (by rw [k2]; simpa [ActiveSetC.init] using hi),
          List.getElem?_eq_none (by simpa using hi)]
    unfold ActiveSetC.setAll
    rw [k1, ok_bind, k4]; rfl
  rw [h1, ok_bind, h2, ok_bind]
  obtain ⟨s, k1, s0, rfl, k3, k4⟩ := forRange_inv (P := fun k (s : ActiveSetH) => ∃ s0 : ActiveSetC,
      s = [s0, List.replicate n1 .equality] ∧ s0.length = n0 ∧ ∀ i, i < k → s0[i]? = some (fc i))
    (n := c.general.A.rows) (s := [ActiveSetC.init n0, List.replicate n1 .equality])
    (body := fun s i => do
      let a ← constraintActivation (wc i)
      setEntry s 0 i a) ⟨_, rfl, by simp [ActiveSetC.init], fun i hi => absurd hi (by omega)⟩ (by
    rintro i s hi ⟨s0, rfl, l1, l2⟩
    rw [hc i hi, ok_bind, setEntry_ok (by omega)]
    refine ⟨_, rfl, _, rfl, by simpa using l1, fun j hj => ?_⟩
    by_cases h : j = i
    · subst h; rw [List.getElem?_set_self (by omega)]
    · rw [List.getElem?_set_ne (by omega)]; exact l2 j (by omega))
  rw [k1, ok_bind]
  obtain ⟨s, l1, s0', rfl, l3, l4, l5⟩ := forRange_inv (P := fun k (s : ActiveSetH) => ∃ s0 : ActiveSetC,
      s = [s0, List.replicate n1 .equality] ∧ s0.length = n0 ∧ (∀ i, i < c.general.A.rows → s0[i]? = some (fc i)) ∧
      ∀ i, i < k → s0[c.general.A.rows + i]? = some (fb i))
    (n := c.bounds.idx.n) (s := [s0, List.replicate n1 .equality])
    (body := fun s i => do
      let a ← boundActivation c ⟨c.bounds.nvars, wb⟩ i
      setEntry s 0 (c.general.A.rows + i) a) ⟨s0, rfl, k3, k4, fun i hi => absurd hi (by omega)⟩ (by
    rintro i s hi ⟨s0, rfl, l1, l2, l3⟩
    rw [hb i hi, ok_bind, setEntry_ok (by omega)]
    refine ⟨_, rfl, _, rfl, by simpa using l1, fun j hj => ?_, fun j hj => ?_⟩
    · rw [List.getElem?_set_ne (by omega)]; exact l2 j hj
    · by_cases h : j = i
      · subst h; rw [List.getElem?_set_self (by omega)]
      · rw [List.getElem?_set_ne (by omega)]; exact l3 j (by omega))
  exact ⟨s0', l1, l3, l4, l5⟩

/-- The reported activation of a simple row means what it should. -/
theorem reportsSimple_of {L : Level E K} {nv : ℕ} {c : QPConstraintsILUALU K} (hb : BoundsOf L nv c) {wb : ℕ → K}
    (hw : WorkingBounds L.tasks nv wb) {ti : TaskInfo E K} (hti : ti ∈ L.tasks)
    (hs : ti.task.ctr.ctype.isSimple = true) {i p : ℕ} (hir : i < rows ti.task.ctr) (hp : p < L.nSimple)
    (hidx : c.bounds.idx.e p = ti.task.ctr.data.idx.e i) (hl : c.bounds.lb.e p = lbVal ti.task.ctr i)
    (hu : c.bounds.ub.e p = ubVal ti.task.ctr i) :
    ReportsSimple L.tasks ti.task.ctr i (wb (c.bounds.idx.e p))
      (boundAct c wb p) := by
  have hpos : 0 < L.nSimple := by omega
  have hv := hb.index p hp
  obtain ⟨tl, tu⟩ := hb.tight hpos _ hv
  have h1 : (-1 : K) ≠ 0 := by norm_num
  have h2 : (-1 : K) ≠ 1 := by intro h; have : (0 : K) < 1 := one_pos; linarith
  have uniqL := fun m => (C10_unique L.tasks (c.bounds.idx.e p) m (c.lb.e (c.bounds.idx.e p))).1
  have uniqU := fun m => (C10_unique L.tasks (c.bounds.idx.e p) m (c.ub.e (c.bounds.idx.e p))).2
  unfold boundAct
  rw [hidx] at hv tl tu uniqL uniqU ⊢
  -- the bound of the row compared to the tightest one
  have eL : wb (ti.task.ctr.data.idx.e i) = -1 → (¬ c.bounds.lb.e p < c.lb.e (ti.task.ctr.data.idx.e i) ↔
      ∃ m, TightestLower L.tasks (ti.task.ctr.data.idx.e i) m ∧ lower ti.task.ctr i = some m) := fun hm => by
    have hinf := hw.lower _ hv hm _ tl
    constructor
    · intro hge
      refine ⟨_, tl, ?_⟩
      cases hlo : lower ti.task.ctr i with
      | none =>
        exfalso
        rw [hl, lbVal, hlo] at hge
        exact hge hinf
      | some l =>
        rw [hl, lbVal, hlo] at hge
        rw [le_antisymm (tl.bound ti hti hs i hir rfl l hlo) (not_lt.mp hge)]
    · rintro ⟨m, hm1, hm2⟩
      rw [hl, lbVal, hm2, uniqL m hm1 tl]
      exact lt_irrefl _
  have eU : wb (ti.task.ctr.data.idx.e i) = 1 → (¬ c.bounds.ub.e p > c.ub.e (ti.task.ctr.data.idx.e i) ↔
      ∃ m, TightestUpper L.tasks (ti.task.ctr.data.idx.e i) m ∧ upper ti.task.ctr i = some m) := fun hm => by
    have hinf := hw.upper _ hv hm _ tu
    constructor
    · intro hge
      refine ⟨_, tu, ?_⟩
      cases hlo : upper ti.task.ctr i with
      | none =>
        exfalso
        rw [hu, ubVal, hlo] at hge
        exact hge hinf
      | some l =>
        rw [hu, ubVal, hlo] at hge
        rw [le_antisymm (show l ≤ _ from not_lt.mp hge) (tu.bound ti hti hs i hir rfl l hlo)]
    · rintro ⟨m, hm1, hm2⟩
      rw [hu, ubVal, hm2, uniqU m hm1 tu]
      exact lt_irrefl _
  unfold ReportsSimple
  rcases hw.value _ hv with h | h | h
  · have := eL h
    rw [if_pos h]
    by_cases hlt : c.bounds.lb.e p < c.lb.e (ti.task.ctr.data.idx.e i)
    · rw [if_pos hlt]
      simp only [h, h2, hlt, not_true_eq_false, false_iff, reduceCtorEq, true_and, false_and, or_self, not_false_eq_true]
        at this ⊢
      exact ⟨this, trivial⟩
    · rw [if_neg hlt]
      simp only [hlt, not_false_eq_true, true_iff] at this
      simp [h, h2, this]
  · rw [if_neg (by rw [h]; exact h1.symm), if_pos h]
    simp [h, h1.symm]
  · have := eU h
    rw [if_neg (by rw [h]; exact h2.symm), if_neg (by rw [h]; exact one_ne_zero)]
    by_cases hlt : c.bounds.ub.e p > c.ub.e (ti.task.ctr.data.idx.e i)
    · rw [if_pos hlt]
      simp only [h, h2.symm, hlt, not_true_eq_false, false_iff, reduceCtorEq, true_and, false_and, or_self,
        not_false_eq_true] at this ⊢
      exact ⟨this, trivial⟩
    · rw [if_neg hlt]
      simp only [hlt, not_false_eq_true, true_iff] at this
      simp [h, h2.symm, this]

theorem form_counts {P P' : Hierarchy E K} {nv : ℕ} {env : E} {g : Bool} (h : P.form nv env g = .ok P') :
    P'.counts = P'.levels.map Level.nConstraints := by
  unfold Hierarchy.form at h
  obtain ⟨_, _, h⟩ := bind_eq_ok.mp h
  obtain ⟨Ls, h1, h⟩ := bind_eq_ok.mp h
  cases h
  rfl

/-- The constraints which `initialize` leaves for a hierarchy of two levels. -/
theorem init_constraints {C : Type} {P : Hierarchy E K} {L0 L1 : Level E K} (hL : P.levels = [L0, L1])
    {z : ℕ → ℕ → K} {init : Level E K → Res C} {o : QPObjective K} {c : C} {upper : Bool} {q : QPObjective K × C}
    (h : P.getQPProblem z init o c upper = .ok q) : init L0 = .ok q.2 := by
  unfold Hierarchy.getQPProblem at h
  rw [hL, assertThat_true (by simp), ok_bind] at h
  simp only at h
  obtain ⟨o', h1, h⟩ := bind_eq_ok.mp h
  obtain ⟨c', h2, h⟩ := bind_eq_ok.mp h
  cases h
  exact h2

/-- The active set reported after a hierarchy of two levels was given to qpOASES, row by row. -/
theorem report_rows {P P' : Hierarchy E K} {nv : ℕ} {env : E} {g : Bool} (h : P.form nv env g = .ok P')
    (hr : ∀ L ∈ P.levels, Reachable L) {L0 L1 : Level E K} (hL : P'.levels = [L0, L1])
    (hi : ∀ L ∈ P'.levels, ∀ ti ∈ L.tasks, InRange ti.task.ctr)
    (hI : ∀ ti ∈ L0.tasks, ti.task.ctr.ctype.isSimple = true → ti.task.ctr.ctype.hasILUCopy = true)
    {z : ℕ → ℕ → K} {zc : Junk K} {old q : QPObjective K × QPConstraintsILUALU K}
    (hq : qpoasesInitialize z zc old P' nv = .ok q) {wb wc : ℕ → K} (hwb : ∀ v, v < nv → WorkingValue (wb v))
    (hwc : ∀ i, i < L0.nGeneral → WorkingValue (wc i)) :
    BoundsOf L0 nv q.2 ∧
    ∃ s0, getActiveSet q.2 wb wc P' = .ok [s0, List.replicate L1.nConstraints .equality] ∧
      s0.length = L0.nConstraints ∧
      (∀ i, i < L0.nGeneral → ∃ a, s0[i]? = some a ∧ ReportsGeneral (wc i) a) ∧
      ∀ p, p < L0.nSimple → s0[L0.nGeneral + p]? = some (boundAct q.2 wb p) := by
  obtain ⟨M0, hr0, h0⟩ := hierarchy_level h hr (L' := L0) (by simp [hL])
  have hi0 := hi L0 (by simp [hL])
  have hb := boundsOf hr0 h0 hi0 hI (init_constraints hL hq)
  have hf := formedLevel_of_form hr0 h0 hi0
  have hcnt : P'.counts = [L0.nConstraints, L1.nConstraints] := by rw [form_counts h, hL]; rfl
  have hfc : ∀ i, ∃ a, i < L0.nGeneral → constraintActivation (wc i) = .ok a ∧ ReportsGeneral (wc i) a := fun i => by
    by_cases hlt : i < L0.nGeneral
    · obtain ⟨a, ha⟩ := constraintActivation_ok (hwc i hlt)
      exact ⟨a, fun _ => ha⟩
    · exact ⟨.undefined, fun h => absurd h hlt⟩
  choose fc hfc using hfc
  obtain ⟨s0, k1, k2, k3, k4⟩ := getActiveSet_ok (c := q.2) (wb := wb) (wc := wc) (P := P') (by rw [hL]; rfl) hcnt
    (by rw [hb.nC, hb.nS, Level.nConstraints]) hf.pos fc (boundAct q.2 wb)
    (fun i hlt => (hfc i (by rw [← hb.nC]; exact hlt)).1)
    (fun p hp => boundActivation_ok hb (by rw [← hb.nS]; exact hp) (hwb _ (hb.index p (by rw [← hb.nS]; exact hp))))
  rw [hb.nC, hb.nS] at k4
  rw [hb.nC] at k3
  exact ⟨hb, s0, k1, k2, fun i hlt => ⟨_, k3 i hlt, (hfc i hlt).2⟩, k4⟩

/-- The active set reported after a hierarchy of two levels was given to qpOASES: the objective level consists of
equalities; each row of the first level gets exactly one activation, which corresponds to the working set. Row
`offset + i` of the constraints given to the solver is the row `i` of the task. -/
theorem C49_report {P P' : Hierarchy E K} {nv : ℕ} {env : E} {g : Bool} (h : P.form nv env g = .ok P')
    (hr : ∀ L ∈ P.levels, Reachable L) {L0 L1 : Level E K} (hL : P'.levels = [L0, L1])
    (hi : ∀ L ∈ P'.levels, ∀ ti ∈ L.tasks, InRange ti.task.ctr)
    (hI : ∀ ti ∈ L0.tasks, ti.task.ctr.ctype.isSimple = true → ti.task.ctr.ctype.hasILUCopy = true)
    {z : ℕ → ℕ → K} {zc : Junk K} {old q : QPObjective K × QPConstraintsILUALU K}
    (hq : qpoasesInitialize z zc old P' nv = .ok q) {wb wc : ℕ → K} (hwb : WorkingBounds L0.tasks nv wb)
    (hwc : ∀ i, i < L0.nGeneral → WorkingValue (wc i)) :
    ∃ s0, getActiveSet q.2 wb wc P' = .ok [s0, List.replicate L1.nConstraints .equality] ∧
      s0.length = L0.nConstraints ∧
      RowsALU (L0.tasks.filter fun ti => ! ti.ctype.isSimple) q.2.general ∧
      ∀ ti ∈ L0.tasks, ∀ i, i < rows ti.task.ctr → ∃ a, s0[ti.loc.offset + i]? = some a ∧
        (ti.task.ctr.ctype.isSimple = false → ReportsGeneral (wc (ti.loc.offset + i)) a) ∧
        (ti.task.ctr.ctype.isSimple = true →
          ReportsSimple L0.tasks ti.task.ctr i (wb (ti.task.ctr.data.idx.e i)) a) := by
  obtain ⟨M0, hr0, h0⟩ := hierarchy_level h hr (L' := L0) (by simp [hL])
  have hi0 := hi L0 (by simp [hL])
  have hc := init_constraints hL hq
  have hrowsALU : RowsALU (L0.tasks.filter fun ti => ! ti.ctype.isSimple) q.2.general := by
    unfold QPConstraintsILUALU.initialize at hc
    obtain ⟨ka, a1, hc⟩ := bind_eq_ok.mp hc
    obtain ⟨kb, b1, hc⟩ := bind_eq_ok.mp hc
    obtain ⟨p, p1, hc⟩ := bind_eq_ok.mp hc
    have hq2 : q.2.general = ka := by
      rcases p with ⟨lb, ub⟩
      simp only [pure_eq_ok, Except.ok.injEq] at hc
      rw [← hc]
    rw [hq2]
    exact (generalRows hr0 h0 hi0 a1).2.2.2.2
  obtain ⟨hb, s0, k1, k2, k3, k4⟩ := report_rows h hr hL hi hI hq hwb.value hwc
  refine ⟨s0, k1, k2, hrowsALU, fun ti hti i hir => ?_⟩
  obtain ⟨_, hcons, _, hown, _⟩ := C07_layout hr0 h0
  by_cases hs : ti.task.ctr.ctype.isSimple = true
  · obtain ⟨p, p1, p2, p3, p4, p5⟩ := hb.item ti hti hs i hir
    refine ⟨boundAct q.2 wb p, by rw [p1]; exact k4 p p2, fun h => (by rw [hs] at h; cases h), fun _ => ?_⟩
    have := reportsSimple_of hb hwb hti hs hir p2 p3 p4 p5
    rwa [p3] at this
  · have hloc := (consecutive_loc hcons ti hti).1
    have hlt : ti.loc.offset + i < L0.nGeneral := by
      by_contra hge
      exact hs ((hown ti hti (ti.loc.offset + i) ⟨by omega, by omega⟩).2.mpr (by omega))
    obtain ⟨a, a1, a2⟩ := k3 _ hlt
    exact ⟨a, a1, fun _ => a2, fun h => absurd h hs⟩

/-- A working set with a value which is not one of `-1`, `0`, `1` is rejected. -/
theorem C49_report_reject {P P' : Hierarchy E K} {nv : ℕ} {env : E} {g : Bool} (h : P.form nv env g = .ok P')
    (hr : ∀ L ∈ P.levels, Reachable L) {L0 L1 : Level E K} (hL : P'.levels = [L0, L1])
    (hi : ∀ L ∈ P'.levels, ∀ ti ∈ L.tasks, InRange ti.task.ctr)
    (hI : ∀ ti ∈ L0.tasks, ti.task.ctr.ctype.isSimple = true → ti.task.ctr.ctype.hasILUCopy = true)
    {z : ℕ → ℕ → K} {zc : Junk K} {old q : QPObjective K × QPConstraintsILUALU K}
    (hq : qpoasesInitialize z zc old P' nv = .ok q) {wb wc : ℕ → K}
    (hw : (∃ i, i < L0.nGeneral ∧ ¬ WorkingValue (wc i)) ∨
      ∃ ti ∈ L0.tasks, ti.task.ctr.ctype.isSimple = true ∧ ∃ i, i < rows ti.task.ctr ∧
        ¬ WorkingValue (wb (ti.task.ctr.data.idx.e i))) :
    getActiveSet q.2 wb wc P' = .error .thrown := by
  obtain ⟨M0, hr0, h0⟩ := hierarchy_level h hr (L' := L0) (by simp [hL])
  have hi0 := hi L0 (by simp [hL])
  have hb := boundsOf hr0 h0 hi0 hI (init_constraints hL hq)
  have hf := formedLevel_of_form hr0 h0 hi0
  have hcnt : P'.counts = [L0.nConstraints, L1.nConstraints] := by rw [form_counts h, hL]; rfl
  have hn : L0.nConstraints = L0.nGeneral + L0.nSimple := rfl
  have hpos := hf.pos
  unfold getActiveSet
  simp only
  have h1 : ActiveSetH.init P'.levels.length P'.counts =
      .ok [ActiveSetC.init L0.nConstraints, ActiveSetC.init L1.nConstraints] := by
    rw [hL, hcnt]; rfl
  rw [h1, ok_bind]
  have h2 : ∃ s1, ActiveSetH.setLevel [ActiveSetC.init L0.nConstraints, ActiveSetC.init L1.nConstraints]
      (if 0 = q.2.general.A.rows + q.2.bounds.idx.n then 0 else 1) .equality =
      .ok [ActiveSetC.init L0.nConstraints, s1] := by
    rw [if_neg (by rw [hb.nC, hb.nS]; omega)]
    unfold ActiveSetH.setLevel
    simp only [List.getElem?_cons_succ, List.getElem?_cons_zero]
    obtain ⟨r, k1, _⟩ := C03_setLoc (ActiveSetC.init L1.nConstraints) ⟨0, (ActiveSetC.init L1.nConstraints).length⟩
      .equality (by simp)
    unfold ActiveSetC.setAll
    exact ⟨r, by rw [k1, ok_bind]; rfl⟩
  obtain ⟨s1, h2⟩ := h2
  rw [h2, ok_bind]
  -- the first loop stops, or all constraints have proper values
  have main1 := forRange_or (P := fun k (s : ActiveSetH) => (∃ s0 : ActiveSetC, s = [s0, s1] ∧
      s0.length = L0.nConstraints) ∧ ∀ i, i < k → WorkingValue (wc i)) (Bad := fun _ => True) (e := .thrown)
    (n := q.2.general.A.rows) (s := [ActiveSetC.init L0.nConstraints, s1])
    (body := fun s i => do
      let a ← constraintActivation (wc i)
      setEntry s 0 i a) ⟨⟨_, rfl, by simp [ActiveSetC.init]⟩, fun i hi => absurd hi (by omega)⟩ (by
    rintro i s hlt ⟨⟨s0, rfl, l1⟩, l2⟩
    rw [hb.nC] at hlt
    by_cases hv : WorkingValue (wc i)
    · obtain ⟨a, ha, _⟩ := constraintActivation_ok hv
      rw [ha, ok_bind, setEntry_ok (by omega)]
      refine Or.inl ⟨_, rfl, ⟨_, rfl, by simpa using l1⟩, fun j hj => ?_⟩
      rcases Nat.lt_succ_iff_lt_or_eq.mp hj with h | h
      · exact l2 j h
      · rw [h]; exact hv
    · rw [constraintActivation_error hv]
      exact Or.inr ⟨rfl, trivial⟩)
  rcases main1 with ⟨s, k1, ⟨s0, rfl, k2⟩, k3⟩ | ⟨k1, _⟩
  · rw [k1, ok_bind]
    have main2 := forRange_or (P := fun k (s : ActiveSetH) => (∃ s0 : ActiveSetC, s = [s0, s1] ∧
        s0.length = L0.nConstraints) ∧ ∀ i, i < k → WorkingValue (wb (q.2.bounds.idx.e i))) (Bad := fun _ => True)
      (e := .thrown) (n := q.2.bounds.idx.n) (s := [s0, s1])
      (body := fun s i => do
        let a ← boundActivation q.2 ⟨q.2.bounds.nvars, wb⟩ i
        setEntry s 0 (q.2.general.A.rows + i) a) ⟨⟨s0, rfl, k2⟩, fun i hi => absurd hi (by omega)⟩ (by
      rintro i s hlt ⟨⟨s0, rfl, l1⟩, l2⟩
      rw [hb.nS] at hlt
      by_cases hv : WorkingValue (wb (q.2.bounds.idx.e i))
      · rw [boundActivation_ok hb hlt hv, ok_bind, setEntry_ok (by rw [hb.nC]; omega)]
        refine Or.inl ⟨_, rfl, ⟨_, rfl, by simpa using l1⟩, fun j hj => ?_⟩
        rcases Nat.lt_succ_iff_lt_or_eq.mp hj with h | h
        · exact l2 j h
        · rw [h]; exact hv
      · rw [boundActivation_error hb hlt hv]
        exact Or.inr ⟨rfl, trivial⟩)
    rcases main2 with ⟨s, l1, _, l3⟩ | ⟨l1, _⟩
    · exfalso
      rcases hw with ⟨i, hlt, hbad⟩ | ⟨ti, hti, hs, i, hir, hbad⟩
      · exact hbad (k3 i (by rw [hb.nC]; exact hlt))
      · obtain ⟨p, _, p2, p3, _⟩ := hb.item ti hti hs i hir
        exact hbad (p3 ▸ l3 p (by rw [hb.nS]; exact p2))
    · exact l1
  · rw [k1]; rfl

/-- A guess with an undefined entry is rejected. -/
theorem C49_guess_reject {L : Level E K} {nv : ℕ} {c : QPConstraintsILUALU K} (hb : BoundsOf L nv c) {s : ActiveSetH}
    {s0 : ActiveSetC} (hs : s[0]? = some s0) (hlen : s0.length = L.nConstraints) (hun : .undefined ∈ s0) :
    setActiveSet c s = .error .thrown := by
  have hn : L.nConstraints = L.nGeneral + L.nSimple := rfl
  unfold setActiveSet
  simp only
  have m1 := forRange_or (P := fun k (g : Vec Status) => g.n = L.nGeneral ∧ ∀ i, i < k → s0[i]? ≠ some .undefined)
    (Bad := fun _ => True) (e := .thrown) (n := c.general.A.rows) (s := (⟨c.general.A.rows, fun _ => .undefined⟩ : Vec Status))
    (body := fun g i => do
      let a ← getEntry s 0 i
      let st ← constraintStatus a
      g.set i st) ⟨hb.nC, fun i hi => absurd hi (by omega)⟩ (by
    rintro i g hlt ⟨k1, k2⟩
    rw [hb.nC] at hlt
    have ha : s0[i]? = some s0[i] := List.getElem?_eq_getElem (by omega)
    rw [getEntry_ok hs ha, ok_bind]
    by_cases hu : s0[i] = .undefined
    · rw [hu]
      exact Or.inr ⟨rfl, trivial⟩
    · obtain ⟨st, hst⟩ : ∃ st, constraintStatus s0[i] = .ok st := by
        cases h : s0[i] with
        | undefined => exact absurd h hu
        | _ => exact ⟨_, rfl⟩
      rw [hst, ok_bind]
      refine Or.inl ⟨_, Vec.set_ok (by omega) _, k1, fun j hj => ?_⟩
      rcases Nat.lt_succ_iff_lt_or_eq.mp hj with h | h
      · exact k2 j h
      · rw [h, ha]
        exact fun h => hu (Option.some.inj h))
  rcases m1 with ⟨gc, g1, -, g2⟩ | ⟨g1, -⟩
  · rw [g1, ok_bind]
    have m2 := forRange_or (P := fun k (g : Vec Status) => g.n = nv ∧
        ∀ i, i < k → s0[L.nGeneral + i]? ≠ some .undefined)
      (Bad := fun _ => True) (e := .thrown) (n := c.bounds.idx.n) (s := (⟨c.bounds.nvars, fun _ => .inactive⟩ : Vec Status))
      (body := fun g i => do
        let v ← c.bounds.idx.get i
        let a ← getEntry s 0 (c.general.A.rows + i)
        setBoundStatus g v a) ⟨hb.nvars, fun i hi => absurd hi (by omega)⟩ (by
      rintro i g hlt ⟨k1, k2⟩
      have hlt' := hlt
      rw [hb.nS] at hlt'
      have hv := hb.index i hlt'
      have ha : s0[L.nGeneral + i]? = some s0[L.nGeneral + i] := List.getElem?_eq_getElem (by omega)
      rw [Vec.get_ok hlt, ok_bind, hb.nC, getEntry_ok hs ha, ok_bind]
      by_cases hu : s0[L.nGeneral + i] = .undefined
      · rw [hu]
        exact Or.inr ⟨rfl, trivial⟩
      · have hst : ∃ g', setBoundStatus g (c.bounds.idx.e i) s0[L.nGeneral + i] = .ok g' ∧ g'.n = nv := by
          cases h : s0[L.nGeneral + i] with
          | undefined => exact absurd h hu
          | inactive => exact ⟨g, rfl, k1⟩
          | lowerBound => exact ⟨_, Vec.set_ok (by omega) _, k1⟩
          | upperBound => exact ⟨_, Vec.set_ok (by omega) _, k1⟩
          | equality => exact ⟨_, Vec.set_ok (by omega) _, k1⟩
        obtain ⟨g', h1, h2⟩ := hst
        refine Or.inl ⟨g', h1, h2, fun j hj => ?_⟩
        rcases Nat.lt_succ_iff_lt_or_eq.mp hj with h | h
        · exact k2 j h
        · rw [h, ha]
          exact fun h => hu (Option.some.inj h))
    rcases m2 with ⟨gb, b1, -, b2⟩ | ⟨b1, -⟩
    · exfalso
      obtain ⟨i, hi, hiu⟩ := List.getElem_of_mem hun
      have hiu' : s0[i]? = some .undefined := by rw [List.getElem?_eq_getElem hi, hiu]
      by_cases hlt : i < L.nGeneral
      · exact g2 i (by rw [hb.nC]; exact hlt) hiu'
      · refine b2 (i - L.nGeneral) (by rw [hb.nS]; omega) ?_
        rw [show L.nGeneral + (i - L.nGeneral) = i by omega]
        exact hiu'
    · rw [b1]
      rfl
  · rw [g1]
    rfl

/-- The guess for the solver: the status of each constraint corresponds to its activation; the status of a variable is
given by the last row about this variable which is not inactive; without such rows the variable is free. -/
theorem C49_guess {L : Level E K} {nv : ℕ} {c : QPConstraintsILUALU K} (hb : BoundsOf L nv c) {s : ActiveSetH}
    {s0 : ActiveSetC} (hs : s[0]? = some s0) (hlen : s0.length = L.nConstraints) (hdef : ∀ a ∈ s0, a ≠ .undefined) :
    ∃ gc gb, setActiveSet c s = .ok (gc, gb) ∧ gc.n = L.nGeneral ∧ gb.n = nv ∧
      (∀ i, i < L.nGeneral → ∃ a, s0[i]? = some a ∧ (gc.e i = .upper ↔ a = .upperBound) ∧
        (gc.e i = .inactive ↔ a = .inactive) ∧ (gc.e i = .lower ↔ a = .lowerBound ∨ a = .equality)) ∧
      ∀ v, v < nv →
        ((∃ p a, p < L.nSimple ∧ c.bounds.idx.e p = v ∧ s0[L.nGeneral + p]? = some a ∧ a ≠ .inactive ∧
          (∀ p', p < p' → p' < L.nSimple → c.bounds.idx.e p' = v → s0[L.nGeneral + p']? = some .inactive) ∧
          gb.e v = if a = .upperBound then .upper else .lower) ∨
        ((∀ p, p < L.nSimple → c.bounds.idx.e p = v → s0[L.nGeneral + p]? = some .inactive) ∧ gb.e v = .inactive)) := by
  have hn : L.nConstraints = L.nGeneral + L.nSimple := rfl
  have hget : ∀ i, i < s0.length → ∃ a, s0[i]? = some a ∧ a ≠ .undefined := fun i hi =>
    ⟨s0[i], List.getElem?_eq_getElem hi, hdef _ (List.getElem_mem hi)⟩
  unfold setActiveSet
  simp only
  obtain ⟨gc, g1, g2, g3⟩ := forRange_inv (P := fun k (g : Vec Status) => g.n = L.nGeneral ∧ ∀ i, i < k →
      ∃ a, s0[i]? = some a ∧ (g.e i = .upper ↔ a = .upperBound) ∧
        (g.e i = .inactive ↔ a = .inactive) ∧ (g.e i = .lower ↔ a = .lowerBound ∨ a = .equality))
    (n := c.general.A.rows) (s := (⟨c.general.A.rows, fun _ => .undefined⟩ : Vec Status))
    (body := fun g i => do
      let a ← getEntry s 0 i
      let st ← constraintStatus a
      g.set i st) ⟨hb.nC, fun i hi => absurd hi (by omega)⟩ (by
    rintro i g hlt ⟨k1, k2⟩
    rw [hb.nC] at hlt
    obtain ⟨a, ha, hua⟩ := hget i (by omega)
    have hst : ∃ st, constraintStatus a = .ok st ∧ (st = .upper ↔ a = .upperBound) ∧
        (st = .inactive ↔ a = .inactive) ∧ (st = .lower ↔ a = .lowerBound ∨ a = .equality) := by
      cases a
      · exact absurd rfl hua
      all_goals exact ⟨_, rfl, by decide⟩
    obtain ⟨st, t1, t2⟩ := hst
    rw [getEntry_ok hs ha, ok_bind, t1, ok_bind]
    refine ⟨_, Vec.set_ok (by omega) _, k1, fun j hj => ?_⟩
    by_cases h : j = i
    · subst h
      refine ⟨a, ha, ?_⟩
      simpa using t2
    · obtain ⟨b, hb1, hb2⟩ := k2 j (by omega)
      refine ⟨b, hb1, ?_⟩
      simpa [h] using hb2)
  rw [g1, ok_bind]
  obtain ⟨gb, b1, b2, b3⟩ := forRange_inv (P := fun k (g : Vec Status) => g.n = nv ∧ ∀ v, v < nv →
      ((∃ p a, p < k ∧ c.bounds.idx.e p = v ∧ s0[L.nGeneral + p]? = some a ∧ a ≠ .inactive ∧
        (∀ p', p < p' → p' < k → c.bounds.idx.e p' = v → s0[L.nGeneral + p']? = some .inactive) ∧
        g.e v = if a = .upperBound then .upper else .lower) ∨
      ((∀ p, p < k → c.bounds.idx.e p = v → s0[L.nGeneral + p]? = some .inactive) ∧ g.e v = .inactive)))
    (n := c.bounds.idx.n) (s := (⟨c.bounds.nvars, fun _ => .inactive⟩ : Vec Status))
    (body := fun g i => do
      let v ← c.bounds.idx.get i
      let a ← getEntry s 0 (c.general.A.rows + i)
      setBoundStatus g v a) ⟨hb.nvars, fun v _ => Or.inr ⟨fun p hp => absurd hp (by omega), rfl⟩⟩ (by
    rintro i g hlt ⟨k1, k2⟩
    have hlt' := hlt
    rw [hb.nS] at hlt'
    have hv := hb.index i hlt'
    obtain ⟨a, ha, hua⟩ := hget (L.nGeneral + i) (by omega)
    rw [Vec.get_ok hlt, ok_bind, hb.nC, getEntry_ok hs ha, ok_bind]
    -- an inactive row
    have hin : a = .inactive → ∀ v, v < nv →
        ((∃ p a, p < i + 1 ∧ c.bounds.idx.e p = v ∧ s0[L.nGeneral + p]? = some a ∧ a ≠ .inactive ∧
          (∀ p', p < p' → p' < i + 1 → c.bounds.idx.e p' = v → s0[L.nGeneral + p']? = some .inactive) ∧
          g.e v = if a = .upperBound then .upper else .lower) ∨
        ((∀ p, p < i + 1 → c.bounds.idx.e p = v → s0[L.nGeneral + p]? = some .inactive) ∧ g.e v = .inactive)) := by
      rintro rfl v hvn
      rcases k2 v hvn with ⟨p, b, p1, p2, p3, p4, p5, p6⟩ | ⟨q1, q2⟩
      · refine Or.inl ⟨p, b, by omega, p2, p3, p4, fun p' h1 h2 h3 => ?_, p6⟩
        rcases Nat.lt_succ_iff_lt_or_eq.mp h2 with h | h
        · exact p5 p' h1 h h3
        · rw [h]; exact ha
      · refine Or.inr ⟨fun p h1 h2 => ?_, q2⟩
        rcases Nat.lt_succ_iff_lt_or_eq.mp h1 with h | h
        · exact q1 p h h2
        · rw [h]; exact ha
    -- an active row
    have hact : a ≠ .inactive → ∀ v, v < nv →
        ((∃ p b, p < i + 1 ∧ c.bounds.idx.e p = v ∧ s0[L.nGeneral + p]? = some b ∧ b ≠ .inactive ∧
          (∀ p', p < p' → p' < i + 1 → c.bounds.idx.e p' = v → s0[L.nGeneral + p']? = some .inactive) ∧
          Function.update g.e (c.bounds.idx.e i) (if a = .upperBound then .upper else .lower) v =
            if b = .upperBound then .upper else .lower) ∨
        ((∀ p, p < i + 1 → c.bounds.idx.e p = v → s0[L.nGeneral + p]? = some .inactive) ∧
          Function.update g.e (c.bounds.idx.e i) (if a = .upperBound then .upper else .lower) v = .inactive)) := by
      intro hne v hvn
      by_cases hvi : v = c.bounds.idx.e i
      · exact Or.inl ⟨i, a, by omega, hvi.symm, ha, hne, fun p' h1 h2 => absurd h2 (by omega), by rw [hvi]; simp⟩
      · rw [Function.update_of_ne hvi]
        have hno : ∀ p', p' < i + 1 → c.bounds.idx.e p' = v → p' < i := fun p' h1 h2 => by
          rcases Nat.lt_succ_iff_lt_or_eq.mp h1 with h | h
          · exact h
          · rw [h] at h2; exact absurd h2.symm hvi
        rcases k2 v hvn with ⟨p, b, p1, p2, p3, p4, p5, p6⟩ | ⟨q1, q2⟩
        · exact Or.inl ⟨p, b, by omega, p2, p3, p4, fun p' h1 h2 h3 => p5 p' h1 (hno p' h2 h3) h3, p6⟩
        · exact Or.inr ⟨fun p h1 h2 => q1 p (hno p h1 h2) h2, q2⟩
    cases a with
    | undefined => exact absurd rfl hua
    | inactive => exact ⟨g, rfl, k1, hin rfl⟩
    | lowerBound => exact ⟨_, Vec.set_ok (by omega) _, k1, hact (by decide)⟩
    | upperBound => exact ⟨_, Vec.set_ok (by omega) _, k1, hact (by decide)⟩
    | equality => exact ⟨_, Vec.set_ok (by omega) _, k1, hact (by decide)⟩)
  rw [b1, ok_bind]
  rw [hb.nC] at g3
  rw [hb.nS] at b3
  exact ⟨gc, gb, rfl, g2, b2, g3, b3⟩

/-- Feeding a reported active set back restores the working set: every constraint and every variable gets the status
which it had. -/
theorem C49_roundtrip {P P' : Hierarchy E K} {nv : ℕ} {env : E} {g : Bool} (h : P.form nv env g = .ok P')
    (hr : ∀ L ∈ P.levels, Reachable L) {L0 L1 : Level E K} (hL : P'.levels = [L0, L1])
    (hi : ∀ L ∈ P'.levels, ∀ ti ∈ L.tasks, InRange ti.task.ctr)
    (hI : ∀ ti ∈ L0.tasks, ti.task.ctr.ctype.isSimple = true → ti.task.ctr.ctype.hasILUCopy = true)
    {z : ℕ → ℕ → K} {zc : Junk K} {old q : QPObjective K × QPConstraintsILUALU K}
    (hq : qpoasesInitialize z zc old P' nv = .ok q) {wb wc : ℕ → K} (hwb : WorkingBounds L0.tasks nv wb)
    (hwc : ∀ i, i < L0.nGeneral → WorkingValue (wc i)) :
    ∃ s gc gb, getActiveSet q.2 wb wc P' = .ok s ∧ setActiveSet q.2 s = .ok (gc, gb) ∧
      gc.n = L0.nGeneral ∧ (∀ i, i < L0.nGeneral → StatusOf (wc i) (gc.e i)) ∧
      gb.n = nv ∧ ∀ v, v < nv → StatusOf (wb v) (gb.e v) := by
  have h1 : (-1 : K) ≠ 0 := by norm_num
  have h2 : (-1 : K) ≠ 1 := by intro h; have : (0 : K) < 1 := one_pos; linarith
  obtain ⟨hb, s0, k1, k2, k3, k4⟩ := report_rows h hr hL hi hI hq hwb.value hwc
  have hn : L0.nConstraints = L0.nGeneral + L0.nSimple := rfl
  have hba : ∀ p, boundAct q.2 wb p ≠ .undefined ∧ boundAct q.2 wb p ≠ .equality := fun p => by
    unfold boundAct
    split
    · split <;> simp
    · split
      · simp
      · split <;> simp
  have hga : ∀ {i a}, i < L0.nGeneral → ReportsGeneral (wc i) a → a ≠ .undefined ∧ a ≠ .equality := by
    intro i a hlt ha
    obtain ⟨a1, a2, a3⟩ := ha
    rcases hwc i hlt with e | e | e
    · rw [a1.mpr e]; simp
    · rw [a2.mpr e]; simp
    · rw [a3.mpr e]; simp
  have hdef : ∀ a ∈ s0, a ≠ .undefined := by
    intro a ha
    obtain ⟨i, hlt, rfl⟩ := List.getElem_of_mem ha
    by_cases hig : i < L0.nGeneral
    · obtain ⟨b, b1, b2⟩ := k3 i hig
      rw [List.getElem?_eq_getElem hlt] at b1
      cases b1
      exact (hga hig b2).1
    · have := k4 (i - L0.nGeneral) (by omega)
      rw [show L0.nGeneral + (i - L0.nGeneral) = i by omega, List.getElem?_eq_getElem hlt] at this
      simp only [Option.some.injEq] at this
      rw [this]
      exact (hba _).1
  obtain ⟨gc, gb, g1, g2, g3, g4, g5⟩ := C49_guess hb (s := [s0, List.replicate L1.nConstraints .equality]) rfl k2 hdef
  refine ⟨_, gc, gb, k1, g1, g2, fun i hlt => ?_, g3, fun v hv => ?_⟩
  · obtain ⟨a, a1, a2, a3, a4⟩ := g4 i hlt
    obtain ⟨b, b1, b2⟩ := k3 i hlt
    rw [a1] at b1
    cases b1
    refine ⟨?_, a3.trans b2.2.1, a2.trans b2.2.2⟩
    rw [a4, ← b2.1]
    exact ⟨fun h => h.resolve_right (hga hlt b2).2, Or.inl⟩
  · -- activations of the rows about this variable
    have hrow : ∀ p, p < L0.nSimple → q.2.bounds.idx.e p = v → boundAct q.2 wb p ≠ .inactive →
        (wb v = -1 ∧ boundAct q.2 wb p = .lowerBound) ∨ (wb v = 1 ∧ boundAct q.2 wb p = .upperBound) := by
      rintro p hp rfl
      unfold boundAct
      rcases hwb.value _ hv with e | e | e
      · rw [if_pos e]
        split
        · intro h; exact absurd rfl h
        · exact fun _ => Or.inl ⟨e, rfl⟩
      · rw [if_neg (by rw [e]; exact h1.symm), if_pos e]
        exact fun h => absurd rfl h
      · rw [if_neg (by rw [e]; exact h2.symm), if_neg (by rw [e]; exact one_ne_zero)]
        split
        · intro h; exact absurd rfl h
        · exact fun _ => Or.inr ⟨e, rfl⟩
    rcases g5 v hv with ⟨p, a, p1, p2, p3, p4, _, p6⟩ | ⟨q1, q2⟩
    · rw [k4 p p1] at p3
      cases p3
      rcases hrow p p1 p2 p4 with ⟨e1, e2⟩ | ⟨e1, e2⟩
      · rw [p6, e2, e1]
        simp [StatusOf, h1, h2]
      · rw [p6, e2, e1]
        simp [StatusOf, h2.symm]
    · rw [q2]
      -- the bound in force belongs to some row
      rcases hwb.value v hv with e | e | e
      · exfalso
        by_cases hz : 0 < L0.nSimple
        · have tl := (hb.tight hz v hv).1
          have hinf := hwb.lower v hv e _ tl
          rcases tl.attained with h | ⟨ti, hti, hs, i, hir, hidx, hl⟩
          · rw [h] at hinf; exact lt_irrefl _ hinf
          · obtain ⟨p, _, p2, p3, p4, _⟩ := hb.item ti hti hs i hir
            have := q1 p p2 (by rw [p3, hidx])
            rw [k4 p p2] at this
            simp only [Option.some.injEq] at this
            unfold boundAct at this
            rw [p3, hidx, if_pos e, p4, lbVal, hl, Option.getD_some, if_neg (lt_irrefl _)] at this
            cases this
        · have hno : ∀ ti ∈ L0.tasks, ti.task.ctr.ctype.isSimple = true → ∀ i, ¬ i < rows ti.task.ctr :=
            fun ti hti hs i hir => by
              obtain ⟨p, _, p2, _⟩ := hb.item ti hti hs i hir
              omega
          exact lt_irrefl _ (hwb.lower v hv e (-10 ^ 20) ⟨le_refl _, fun ti hti hs i hir => absurd hir (hno ti hti hs i),
            Or.inl rfl⟩)
      · rw [e]; simp [StatusOf, h1.symm]
      · exfalso
        by_cases hz : 0 < L0.nSimple
        · have tl := (hb.tight hz v hv).2
          have hinf := hwb.upper v hv e _ tl
          rcases tl.attained with h | ⟨ti, hti, hs, i, hir, hidx, hl⟩
          · rw [h] at hinf; exact lt_irrefl _ hinf
          · obtain ⟨p, _, p2, p3, _, p4⟩ := hb.item ti hti hs i hir
            have := q1 p p2 (by rw [p3, hidx])
            rw [k4 p p2] at this
            simp only [Option.some.injEq] at this
            unfold boundAct at this
            rw [p3, hidx, if_neg (by rw [e]; exact h2.symm), if_neg (by rw [e]; exact one_ne_zero), p4, ubVal, hl,
              Option.getD_some, if_neg (lt_irrefl _)] at this
            cases this
        · have hno : ∀ ti ∈ L0.tasks, ti.task.ctr.ctype.isSimple = true → ∀ i, ¬ i < rows ti.task.ctr :=
            fun ti hti hs i hir => by
              obtain ⟨p, _, p2, _⟩ := hb.item ti hti hs i hir
              omega
          exact lt_irrefl _ (hwb.upper v hv e (10 ^ 20) ⟨le_refl _, fun ti hti hs i hir => absurd hir (hno ti hti hs i),
            Or.inl rfl⟩)

/-- One level and no constraints in the solver object: all rows are reported as equalities. -/
theorem C49_oneLevel {P P' : Hierarchy E K} {nv : ℕ} {env : E} {g : Bool} (h : P.form nv env g = .ok P') {L : Level E K}
    (hL : P'.levels = [L]) {c : QPConstraintsILUALU K} (h0 : c.general.A.rows = 0) (h1 : c.bounds.idx.n = 0)
    (wb wc : ℕ → K) : getActiveSet c wb wc P' = .ok [List.replicate L.nConstraints .equality] := by
  have hcnt : P'.counts = [L.nConstraints] := by rw [form_counts h, hL]; rfl
  unfold getActiveSet
  simp only [h0, h1]
  have e1 : ActiveSetH.init P'.levels.length P'.counts = .ok [ActiveSetC.init L.nConstraints] := by
    rw [hL, hcnt]; rfl
  rw [e1, ok_bind]
  have e2 : ActiveSetH.setLevel [ActiveSetC.init L.nConstraints] 0 .equality =
      .ok [List.replicate L.nConstraints .equality] := by
    unfold ActiveSetH.setLevel
    simp only [List.getElem?_cons_zero]
    obtain ⟨r, k1, k2, k3⟩ := C03_setLoc (ActiveSetC.init L.nConstraints) ⟨0, (ActiveSetC.init L.nConstraints).length⟩
      .equality (by simp)
    unfold ActiveSetC.setAll
    have hr : r = List.replicate L.nConstraints .equality := by
      refine List.ext_getElem? fun i => ?_
      by_cases hi : i < L.nConstraints
      · have := k3.1 i (by simpa [ActiveSetC.init] using hi)
        simp only [Nat.zero_add] at this
        rw [this]
        simp [hi]
      · rw [List.getElem?_eq_none (by rw [k2]; simp [ActiveSetC.init]; omega), List.getElem?_eq_none (by simp; omega)]
    rw [k1, ok_bind, hr]; rfl
  rw [if_pos trivial, e2, ok_bind]
  rfl

/-- One level and constraints which are left from another problem: there is no active set. -/
theorem C49_oneLevel_stale {P P' : Hierarchy E K} {nv : ℕ} {env : E} {g : Bool} (h : P.form nv env g = .ok P') {L : Level E K}
    (hL : P'.levels = [L]) {c : QPConstraintsILUALU K} (h0 : 0 < c.general.A.rows + c.bounds.idx.n)
    (wb wc : ℕ → K) : getActiveSet c wb wc P' = .error .thrown := by
  have hcnt : P'.counts = [L.nConstraints] := by rw [form_counts h, hL]; rfl
  unfold getActiveSet
  simp only
  have e1 : ActiveSetH.init P'.levels.length P'.counts = .ok [ActiveSetC.init L.nConstraints] := by
    rw [hL, hcnt]; rfl
  rw [e1, ok_bind, if_neg (by omega)]
  rfl

/-! ### The hypotheses are met -/

/-- Bounds on two variables above a least squares level. -/
def exampleBounded : Hierarchy Unit ℚ := ⟨[exampleSimple, Level.empty.pushTask (exampleTask exampleGIB)], [0, 0]⟩

def exampleBoundedFormed : Hierarchy Unit ℚ := ⟨[exampleSimpleFormed, exampleLevelGIB], [3, 2]⟩

theorem exampleBounded_form : exampleBounded.form 2 () true = .ok exampleBoundedFormed := rfl

/-- What the solver object holds after `initialize`. -/
def exampleBoundedProblem : Res (QPObjective ℚ × QPConstraintsILUALU ℚ) :=
  qpoasesInitialize (fun _ _ => 7) ⟨fun _ _ => 7, fun _ => 7, fun _ => 7, fun _ => 7⟩
    (⟨Mat.const 0 0 0, Vec.const 0 0, .undefined⟩,
      ⟨⟨0, Mat.const 0 0 0, Vec.const 0 0, Vec.const 0 0⟩, ⟨0, ⟨0, fun _ => 0⟩, Vec.const 0 0, Vec.const 0 0⟩, Vec.const 0 0,
        Vec.const 0 0⟩) exampleBoundedFormed 2

/-- The first variable is at its upper bound, the second one at its lower bound. -/
def exampleWorking : ℕ → ℚ := fun v => if v = 0 then 1 else -1

example : (∀ L ∈ exampleBounded.levels, Reachable L) ∧
    (∀ L ∈ exampleBoundedFormed.levels, ∀ ti ∈ L.tasks, InRange ti.task.ctr) ∧
    (∀ ti ∈ exampleSimpleFormed.tasks, ti.task.ctr.ctype.isSimple = true → ti.task.ctr.ctype.hasILUCopy = true) ∧
    WorkingBounds exampleSimpleFormed.tasks 2 exampleWorking := by
  refine ⟨?_, ?_, ?_, ?_⟩
  · intro L hL
    simp only [exampleBounded, List.mem_cons, List.not_mem_nil, or_false] at hL
    rcases hL with rfl | rfl
    · exact exampleSimple_reachable
    · exact .push _ .empty
  · intro L hL
    simp only [exampleBoundedFormed, List.mem_cons, List.not_mem_nil, or_false] at hL
    rcases hL with rfl | rfl
    · exact exampleSimpleFormed_inRange
    · exact exampleLevels_inRange exampleLevelGIB (by simp)
  · intro ti hti _
    simp only [exampleSimpleFormed, List.mem_cons, List.not_mem_nil, or_false] at hti
    rcases hti with rfl | rfl <;> rfl
  · refine ⟨fun v _ => ?_, fun v hv h m hm => ?_, fun v hv h m hm => ?_⟩
    · unfold exampleWorking WorkingValue
      split <;> simp
    · have hv1 : v = 1 := by
        unfold exampleWorking at h
        split at h
        · norm_num at h
        · omega
      subst hv1
      have := hm.bound ⟨{ exampleTask exampleIL with guess := [.inactive] }, ⟨0, 1⟩⟩ (by simp [exampleSimpleFormed]) rfl
        0 (by show 0 < 1; omega) rfl (-1) rfl
      norm_num at this ⊢
      linarith
    · have hv1 : v = 0 := by
        unfold exampleWorking at h
        split at h
        · assumption
        · norm_num at h
      subst hv1
      have := hm.bound ⟨{ exampleTask exampleILU with guess := [.inactive, .inactive] }, ⟨1, 2⟩⟩
        (by simp [exampleSimpleFormed]) rfl 1 (by show 1 < 2; omega) rfl 5 rfl
      norm_num at this ⊢
      linarith

/-- The bound `-2` on the second variable is not reported, since `-1` is in force. -/
example : (do let q ← exampleBoundedProblem
              getActiveSet q.2 exampleWorking (fun _ => 0) exampleBoundedFormed) =
    .ok [[.lowerBound, .inactive, .upperBound], [.equality, .equality]] := rfl

/-- A value which qpOASES does not use. -/
example : (do let q ← exampleBoundedProblem
              getActiveSet q.2 (fun _ => 2) (fun _ => 0) exampleBoundedFormed) = .error .thrown := rfl

/-- The guess is not "the guess for the last bound on the level", as the documentation says: the last bound on the second
variable is inactive in this active set, yet the guess is the lower bound. -/
theorem C49_lastBound_refuted : (do
      let q ← exampleBoundedProblem
      let g ← setActiveSet q.2 [[.lowerBound, .inactive, .inactive], [.equality, .equality]]
      pure ((List.range q.2.bounds.idx.n).map q.2.bounds.idx.e, g.2.e 1)) =
    (.ok ([1, 1, 0], .lower) : Res (List ℕ × Status)) := rfl

end Humoto.Bridge
