import Verif.Lemmas.Objective
import Verif.Props.Bounds

/-!
# Objectives and QP problems: C11, C12
-/

namespace Humoto

open Spec

set_option linter.unusedSectionVars false

variable {E K : Type} [Field K] [LinearOrder K] [IsStrictOrderedRing K]

/-- Off-diagonal entries vanish for simple constraints. -/
theorem gram_simple (c : Ctr K) (hs : c.ctype.isSimple = true) {i j : ℕ} (h : i ≠ j) : gram c i j = 0 := by
  refine Finset.sum_eq_zero fun r _ => ?_
  rcases c with ⟨t, n, d⟩
  have : ∀ v : K, (if i = d.idx.e r then v else 0) * (if j = d.idx.e r then v else 0) = 0 := by
    intro v
    by_cases h1 : i = d.idx.e r
    · rw [if_neg (c := j = d.idx.e r) (by omega), mul_zero]
    · rw [if_neg h1, zero_mul]
  cases t <;> first | exact this _ | cases hs

/-! ## C11 -/

/-- A formed level which consists of equality tasks gives the sum of squared residuals of the tasks. -/
theorem C11_objective {L L' : Level E K} (hr : Reachable L) {nv : ℕ} {env : E} {g : Bool}
    (h : L.form nv env g = .ok L') (hi : ∀ ti ∈ L'.tasks, InRange ti.task.ctr)
    (hm : ∀ ti ∈ L'.tasks, CanMinimise ti.task.ctr) (old : QPObjective K) (z : ℕ → ℕ → K) (upper : Bool) :
    ∃ q, QPObjective.initialize old z L' upper = .ok q ∧ Minimises q L'.tasks nv upper := by
  have hf := formedLevel_of_form hr h hi
  obtain ⟨p, h0, hH, hg⟩ := getObjective_ok hf hm z old.H old.g
  have hS : ∀ i j, overTasks (fun c => gram c i j) L'.tasks = overTasks (fun c => gram c j i) L'.tasks := fun i j => by
    simp only [gram_comm _ i j]
  have heq : L'.isEquality = true := by
    have e : L'.tasks.filter (fun ti => ti.ctype.isEquality) = L'.tasks :=
      List.filter_eq_self.mpr fun ti hti => (hm ti hti).1
    have e2 := hf.nEquality
    rw [e, ← hf.nConstraints] at e2
    simp [Level.isEquality, e2]
  -- facts about every matrix with this lower triangle
  have hval : ∀ H : Mat K, LowerIs H nv (fun i j => overTasks (fun c => gram c i j) L'.tasks) → ∀ x,
      lowerQuadratic H x / 2 + linear p.2.neg x =
        leastSquares L'.tasks x / 2 - leastSquares L'.tasks (fun _ => 0) / 2 := by
    intro H hH x
    have e1 := lowerQuadratic_eq hH hS x
    have e2 : linear p.2.neg x = - ∑ j ∈ Finset.range nv, overTasks (fun c => atb c j) L'.tasks * x j := by
      have en : p.2.neg.n = nv := hg.n
      rw [linear, en, ← Finset.sum_neg_distrib]
      refine Finset.sum_congr rfl fun j hj => ?_
      have ee : p.2.neg.e j = - p.2.e j := rfl
      rw [ee, hg.e j (Finset.mem_range.mp hj), neg_mul]
    have e3 := tasks_expand L'.tasks hf.nvars hf.wf x
    rw [e1, e2]
    linear_combination e3 / 2
  have hdiag : L'.isSimple = true → ∀ i j, j < i → overTasks (fun c => gram c i j) L'.tasks = 0 := by
    intro hsim i j hji
    have hz : totalRows (L'.tasks.filter fun ti => ! ti.ctype.isSimple) = 0 := by
      have e1 := hf.nConstraints
      simp only [Level.isSimple, decide_eq_true_eq] at hsim
      rw [← hf.nGeneral]
      unfold Level.nConstraints at hsim
      omega
    refine List.sum_eq_zero fun v hv => ?_
    obtain ⟨ti, hti, rfl⟩ := List.mem_map.mp hv
    by_cases hs : ti.task.ctr.ctype.isSimple = true
    · exact gram_simple _ hs (by omega)
    · have h2 : rows ti.task.ctr ∈ (L'.tasks.filter fun ti => ! ti.ctype.isSimple).map fun ti => rows ti.task.ctr :=
        List.mem_map_of_mem (List.mem_filter.mpr ⟨hti, by simpa [TaskInfo.ctype] using hs⟩)
      have h3 := List.sum_eq_zero_iff.mp hz _ h2
      simp [gram, h3]
  obtain ⟨R, r0, r1, r2, r3⟩ := convertLLT_ok p.1 (by rw [hH.rows, hH.cols])
  have hR : LowerIs R nv (fun i j => overTasks (fun c => gram c i j) L'.tasks) :=
    ⟨by rw [r1, hH.rows], by rw [r2, hH.cols], fun i j hij hin => by rw [r3, if_neg (by omega), hH.e i j hij hin]⟩
  have hRs : ∀ i j, i < nv → j < nv → R.e i j = overTasks (fun c => gram c i j) L'.tasks := by
    intro i j hin hjn
    by_cases hij : j ≤ i
    · exact hR.e i j hij hin
    · rw [r3, if_pos ⟨by omega, by rw [hH.cols]; exact hjn⟩, hH.e j i (by omega) hjn, hS]
  have hRq : ∀ x, quadratic R x = lowerQuadratic R x := by
    intro x
    rw [lowerQuadratic_eq hR hS, quadratic, hR.rows, hR.cols]
    exact Finset.sum_congr rfl fun i hin => Finset.sum_congr rfl fun j hjn => by
      rw [hRs i j (Finset.mem_range.mp hin) (Finset.mem_range.mp hjn)]
  have hfull : ∀ t, t ≠ .undefined → (t = .diagonal → L'.isSimple = true) →
      Minimises (⟨R, p.2.neg, t⟩ : QPObjective K) L'.tasks nv true := fun t ht hd =>
    ⟨hR.rows, hR.cols, hg.n, hval R hR, fun _ x => by rw [hRq]; exact hval R hR x,
      fun _ i j hin hjn => by rw [hRs i j hin hjn, hRs j i hjn hin, hS],
      fun hdt i j hin hji => by rw [hRs i j hin (by omega)]; exact hdiag (hd hdt) i j hji, fun _ => rfl, ht⟩
  have hlow : ∀ t, t ≠ .undefined → t ≠ .generic → (t = .diagonal → L'.isSimple = true) →
      Minimises (⟨p.1, p.2.neg, t⟩ : QPObjective K) L'.tasks nv false := fun t ht hgen hd =>
    ⟨hH.rows, hH.cols, hg.n, hval p.1 hH, fun h => (by cases h), fun h => (by cases h),
      fun hdt i j hin hji => by rw [hH.e i j (by omega) hin]; exact hdiag (hd hdt) i j hji,
      fun h => absurd h hgen, ht⟩
  unfold QPObjective.initialize
  rw [assertThat_true heq, ok_bind, assertThat_true hf.pos, ok_bind, h0, ok_bind]
  cases hsim : L'.isSimple <;> cases upper
  · exact ⟨_, rfl, hlow .lowerTriangular (by decide) (by decide) (fun h => by cases h)⟩
  · simp only [r0, ok_bind, if_true]
    exact ⟨_, rfl, hfull .generic (by decide) (fun h => by cases h)⟩
  · exact ⟨_, rfl, hlow .diagonal (by decide) (by decide) (fun _ => hsim)⟩
  · simp only [r0, ok_bind, if_true]
    exact ⟨_, rfl, hfull .diagonal (by decide) (fun _ => hsim)⟩

/-- Otherwise there is no objective: a formed level with an inequality task is rejected. -/
theorem C11_reject {L L' : Level E K} (hr : Reachable L) {nv : ℕ} {env : E} {g : Bool}
    (h : L.form nv env g = .ok L') (hi : ∀ ti ∈ L'.tasks, InRange ti.task.ctr)
    (hm : ∃ ti ∈ L'.tasks, ti.task.ctr.ctype.isEquality = false) (old : QPObjective K) (z : ℕ → ℕ → K) (upper : Bool) :
    QPObjective.initialize old z L' upper = .error .thrown := by
  have hf := formedLevel_of_form hr h hi
  -- a task which cannot be minimised throws
  have bad : ∀ c : Ctr K, ¬ CanMinimise c → (∀ z, c.getATAandATb z = .error .thrown) ∧
      ∀ H g, c.addATAandATb H g = .error .thrown := by
    intro c hc
    rcases c with ⟨t, n, d⟩
    cases t <;> first
      | exact ⟨fun _ => rfl, fun _ _ => rfl⟩
      | exact absurd ⟨rfl, by intro h; cases h⟩ hc
  have key : ∀ (ts : List (TaskInfo E K)) (p : Mat K × Vec K) (S : ℕ → ℕ → K) (t : ℕ → K),
      (∀ ti ∈ ts, ti ∈ L'.tasks) → (∃ ti ∈ ts, ¬ CanMinimise ti.task.ctr) → LowerIs p.1 nv S → VecIs p.2 nv t →
      ts.foldlM (fun (Hg : Mat K × Vec K) ti => ti.task.ctr.addATAandATb Hg.1 Hg.2) p = .error .thrown := by
    intro ts
    induction ts with
    | nil => rintro p S t _ ⟨ti, hti, _⟩; cases hti
    | cons ti ts ih =>
      rintro p S t hsub ⟨tb, htb, hbad⟩ h1 h2
      have hti := hsub ti (by simp)
      have hn := hf.nvars ti hti
      by_cases hc : CanMinimise ti.task.ctr
      · obtain ⟨q, k0, k1, k2⟩ := addATAandATb_ok ti.task.ctr (hf.wf ti hti) hc p.1 p.2 (by rw [hn]; exact h1)
          (by rw [hn]; exact h2)
        rw [hn] at k1 k2
        rw [List.foldlM_cons, k0, ok_bind]
        refine ih q _ _ (fun t ht => hsub t (by simp [ht])) ⟨tb, ?_, hbad⟩ k1 k2
        rcases List.mem_cons.mp htb with rfl | h
        · exact absurd hc hbad
        · exact h
      · rw [List.foldlM_cons, (bad _ hc).2]; rfl
  have hthrow : L'.getObjective z old.H old.g = .error .thrown := by
    obtain ⟨tb, htb, he⟩ := hm
    have hbad : ¬ CanMinimise tb.task.ctr := fun hc => by rw [hc.1] at he; cases he
    unfold Level.getObjective
    cases hts : L'.tasks with
    | nil => rw [hts] at htb; cases htb
    | cons ti ts =>
      have hti : ti ∈ L'.tasks := by simp [hts]
      by_cases hc : CanMinimise ti.task.ctr
      · obtain ⟨q, k0, k1, k2⟩ := getATAandATb_ok ti.task.ctr (hf.wf ti hti) hc z
        rw [hf.nvars ti hti] at k1 k2
        simp only [k0, ok_bind]
        refine key ts q _ _ (fun t ht => by simp [hts, ht]) ⟨tb, ?_, hbad⟩ k1 k2
        rw [hts] at htb
        rcases List.mem_cons.mp htb with rfl | h
        · exact absurd hc hbad
        · exact h
      · simp only [(bad _ hc).1]; rfl
  unfold QPObjective.initialize
  by_cases heq : L'.isEquality = true
  · rw [assertThat_true heq, ok_bind, assertThat_true hf.pos, ok_bind, hthrow]; rfl
  · rw [assertThat_false heq]; rfl

/-! ## C12 -/

/-- Forming of a hierarchy forms all levels. -/
theorem mapM_ok {α β : Type} {f : α → Res β} {l : List α} {r : List β} (h : l.mapM f = .ok r) :
    List.Forall₂ (fun a b => f a = .ok b) l r := by
  induction l generalizing r with
  | nil => cases h; exact .nil
  | cons a l ih =>
    rw [List.mapM_cons] at h
    obtain ⟨b, h1, h⟩ := bind_eq_ok.mp h
    obtain ⟨bs, h2, h⟩ := bind_eq_ok.mp h
    cases h
    exact .cons h1 (ih h2)

theorem hierarchy_form {P P' : Hierarchy E K} {nv : ℕ} {env : E} {g : Bool} (h : P.form nv env g = .ok P') :
    List.Forall₂ (fun L L' : Level E K => L.form nv env g = .ok L') P.levels P'.levels := by
  unfold Hierarchy.form at h
  obtain ⟨_, _, h⟩ := bind_eq_ok.mp h
  obtain ⟨Ls, h1, h⟩ := bind_eq_ok.mp h
  cases h
  exact mapM_ok h1

theorem hierarchy_level {P P' : Hierarchy E K} {nv : ℕ} {env : E} {g : Bool} (h : P.form nv env g = .ok P')
    (hr : ∀ L ∈ P.levels, Reachable L) {L' : Level E K} (hL : L' ∈ P'.levels) :
    ∃ L, Reachable L ∧ L.form nv env g = .ok L' := by
  have key : ∀ {l l' : List (Level E K)}, List.Forall₂ (fun L L' : Level E K => L.form nv env g = .ok L') l l' →
      (∀ L ∈ l, Reachable L) → L' ∈ l' → ∃ L, Reachable L ∧ L.form nv env g = .ok L' := by
    intro l l' hf
    induction hf with
    | nil => intro _ h; cases h
    | cons hab _ ih =>
      intro hr hm
      rcases List.mem_cons.mp hm with rfl | hm
      · exact ⟨_, hr _ (by simp), hab⟩
      · exact ih (fun L hL => hr L (by simp [hL])) hm
  exact key (hierarchy_form h) hr hL

/-- Hierarchies with other numbers of levels are rejected. -/
theorem C12_reject {C : Type} (P : Hierarchy E K) (hl : P.levels.length = 0 ∨ 2 < P.levels.length) (z : ℕ → ℕ → K)
    (init : Level E K → Res C) (q : QPObjective K) (c : C) (upper : Bool) :
    P.getQPProblem z init q c upper = .error .thrown := by
  unfold Hierarchy.getQPProblem
  rw [assertThat_false (by omega)]; rfl

/-- One level: its tasks are minimised, the container of constraints is not touched. -/
theorem C12_oneLevel {C : Type} {P P' : Hierarchy E K} {nv : ℕ} {env : E} {g : Bool} (h : P.form nv env g = .ok P')
    (hr : ∀ L ∈ P.levels, Reachable L) {L : Level E K} (hL : P'.levels = [L])
    (hi : ∀ ti ∈ L.tasks, InRange ti.task.ctr) (hm : ∀ ti ∈ L.tasks, CanMinimise ti.task.ctr) (z : ℕ → ℕ → K)
    (init : Level E K → Res C) (old : QPObjective K) (c : C) (upper : Bool) :
    ∃ q, P'.getQPProblem z init old c upper = .ok (q, c) ∧ Minimises q L.tasks nv upper := by
  obtain ⟨L0, hr0, h0⟩ := hierarchy_level h hr (L' := L) (by simp [hL])
  obtain ⟨q, h1, h2⟩ := C11_objective hr0 h0 hi hm old z upper
  refine ⟨q, ?_, h2⟩
  unfold Hierarchy.getQPProblem
  rw [hL, assertThat_true (by simp), ok_bind]
  simp only [h1, ok_bind]; rfl

/-- Two levels, equality and one-sided inequality constraints: the points which satisfy the constraints of the QP are those
which satisfy the tasks of the first level, the tasks of the second one are minimised. -/
theorem C12_twoLevels_ABAL {P P' : Hierarchy E K} {nv : ℕ} {env : E} {g : Bool} (h : P.form nv env g = .ok P')
    (hr : ∀ L ∈ P.levels, Reachable L) {L0 L1 : Level E K} (hL : P'.levels = [L0, L1])
    (hi : ∀ L ∈ P'.levels, ∀ ti ∈ L.tasks, InRange ti.task.ctr) (hm : ∀ ti ∈ L1.tasks, CanMinimise ti.task.ctr)
    (z : ℕ → ℕ → K) (zc : Junk K) (old : QPObjective K) (oldc : QPConstraintsABAL K) (upper : Bool) :
    ∃ q c, P'.getQPProblem z (fun L => QPConstraintsABAL.initialize zc L nv) old oldc upper = .ok (q, c) ∧
      Minimises q L1.tasks nv upper ∧ c.eq.A.cols = nv ∧ c.ineq.A.cols = nv ∧
      ∀ x, (ABHolds c.eq x ∧ ALHolds c.ineq x) ↔ LevelSatisfied L0 x := by
  obtain ⟨M0, hr0, h0⟩ := hierarchy_level h hr (L' := L0) (by simp [hL])
  obtain ⟨M1, hr1, h1⟩ := hierarchy_level h hr (L' := L1) (by simp [hL])
  obtain ⟨q, q1, q2⟩ := C11_objective hr1 h1 (hi L1 (by simp [hL])) hm old z upper
  obtain ⟨ke, ki, k1, k2, _, k3, _, _, k4, _, k5⟩ := C09_split hr0 h0 (hi L0 (by simp [hL])) zc
  refine ⟨q, ⟨ke, ki⟩, ?_, q2, k3, k4, k5⟩
  unfold Hierarchy.getQPProblem
  rw [hL, assertThat_true (by simp), ok_bind]
  simp only [q1, ok_bind, QPConstraintsABAL.initialize, k1, k2]; rfl

/-- Two levels, two-sided constraints and bounds on variables. -/
theorem C12_twoLevels_ILUALU {P P' : Hierarchy E K} {nv : ℕ} {env : E} {g : Bool} (h : P.form nv env g = .ok P')
    (hr : ∀ L ∈ P.levels, Reachable L) {L0 L1 : Level E K} (hL : P'.levels = [L0, L1])
    (hi : ∀ L ∈ P'.levels, ∀ ti ∈ L.tasks, InRange ti.task.ctr) (hm : ∀ ti ∈ L1.tasks, CanMinimise ti.task.ctr)
    (hI : ∀ ti ∈ L0.tasks, ti.task.ctr.ctype.isSimple = true → ti.task.ctr.ctype.hasILUCopy = true)
    (z : ℕ → ℕ → K) (zc : Junk K) (old : QPObjective K) (oldc : QPConstraintsILUALU K) (upper : Bool) :
    (∃ q c, P'.getQPProblem z (fun L => QPConstraintsILUALU.initialize zc L nv) old oldc upper = .ok (q, c) ∧
      Minimises q L1.tasks nv upper ∧ c.general.A.cols = nv ∧ (c.lb.n = 0 ∨ c.lb.n = nv) ∧ c.ub.n = c.lb.n ∧
      (∀ x, ALUHolds c.general x → (∀ v, v < c.lb.n → c.lb.e v ≤ x v ∧ x v ≤ c.ub.e v) → LevelSatisfied L0 x) ∧
      (∀ x, LevelSatisfied L0 x → (∀ ti ∈ L0.tasks, WithinInfinity ti.task.ctr x) →
        (∀ v, v < nv → -10 ^ 20 ≤ x v ∧ x v ≤ 10 ^ 20) →
        ALUHolds c.general x ∧ ∀ v, v < c.lb.n → c.lb.e v ≤ x v ∧ x v ≤ c.ub.e v)) ∨
    (P'.getQPProblem z (fun L => QPConstraintsILUALU.initialize zc L nv) old oldc upper = .error .thrown ∧
      ∀ x, (∀ v, v < nv → -10 ^ 20 ≤ x v ∧ x v ≤ 10 ^ 20) → ¬ LevelSatisfied L0 x) := by
  obtain ⟨M0, hr0, h0⟩ := hierarchy_level h hr (L' := L0) (by simp [hL])
  obtain ⟨M1, hr1, h1⟩ := hierarchy_level h hr (L' := L1) (by simp [hL])
  have hi0 := hi L0 (by simp [hL])
  obtain ⟨q, q1, q2⟩ := C11_objective hr1 h1 (hi L1 (by simp [hL])) hm old z upper
  obtain ⟨ka, a1, _, a2, a3, a4⟩ := C08_generalConstraints hr0 h0 hi0 zc
  obtain ⟨kb, b1, b2, b3⟩ := C10_bounds hr0 h0 hi0 hI zc
  have success : ∀ p : Vec K × Vec K, kb.solutionBounds = .ok p → (p.1.n = 0 ∨ p.1.n = nv) → p.2.n = p.1.n →
      ∃ q c, P'.getQPProblem z (fun L => QPConstraintsILUALU.initialize zc L nv) old oldc upper = .ok (q, c) ∧
      Minimises q L1.tasks nv upper ∧ c.general.A.cols = nv ∧ (c.lb.n = 0 ∨ c.lb.n = nv) ∧ c.ub.n = c.lb.n ∧
      (∀ x, ALUHolds c.general x → (∀ v, v < c.lb.n → c.lb.e v ≤ x v ∧ x v ≤ c.ub.e v) → LevelSatisfied L0 x) ∧
      (∀ x, LevelSatisfied L0 x → (∀ ti ∈ L0.tasks, WithinInfinity ti.task.ctr x) →
        (∀ v, v < nv → -10 ^ 20 ≤ x v ∧ x v ≤ 10 ^ 20) →
        ALUHolds c.general x ∧ ∀ v, v < c.lb.n → c.lb.e v ≤ x v ∧ x v ≤ c.ub.e v) := by
    intro p hp hn1 hn2
    refine ⟨q, ⟨ka, kb, p.1, p.2⟩, ?_, q2, a2, hn1, hn2, ?_, ?_⟩
    · unfold Hierarchy.getQPProblem
      rw [hL, assertThat_true (by simp), ok_bind]
      simp only [q1, ok_bind, QPConstraintsILUALU.initialize, a1, b1, hp]; rfl
    · intro x hx hb ti hti
      by_cases hs : ti.task.ctr.ctype.isSimple = true
      · exact (C10_feasible hr0 h0 hi0 hI b1 hp x).1 hb ti hti hs
      · exact a3 x hx ti hti (by simpa using hs)
    · intro x hx hw hinf
      exact ⟨a4 x (fun ti hti _ => hx ti hti) hw,
        (C10_feasible hr0 h0 hi0 hI b1 hp x).2 (fun ti hti _ => hx ti hti) hinf⟩
  rcases Nat.eq_zero_or_pos L0.nSimple with hz | hz
  · obtain ⟨p, hp, hn1, hn2⟩ := b2 hz
    exact Or.inl (success p hp (Or.inl hn1) (by omega))
  · rcases b3 hz with ⟨p, hp, hn1, hn2, _⟩ | ⟨hthrow, v, hv, m, M, hlo, hup, hMm⟩
    · exact Or.inl (success p hp (Or.inr hn1) (by omega))
    · refine Or.inr ⟨?_, ?_⟩
      · unfold Hierarchy.getQPProblem
        rw [hL, assertThat_true (by simp), ok_bind]
        simp only [q1, ok_bind, QPConstraintsILUALU.initialize, a1, b1, hthrow]; rfl
      · intro x hinf hsat
        have hf := formedLevel_of_form hr0 h0 hi0
        have hlow : m ≤ x v := by
          rcases hlo.attained with e | ⟨ti, hti, hsi, i, hir, hidx, hl⟩
          · rw [e]; exact (hinf v hv).1
          · have := (hsat ti hti i hir).1 _ hl
            rwa [(simple_row ti.task.ctr (hf.wf ti hti).2 (hI ti hti hsi) hir).1 x, hidx] at this
        have hupp : x v ≤ M := by
          rcases hup.attained with e | ⟨ti, hti, hsi, i, hir, hidx, hl⟩
          · rw [e]; exact (hinf v hv).2
          · have := (hsat ti hti i hir).2 _ hl
            rwa [(simple_row ti.task.ctr (hf.wf ti hti).2 (hI ti hti hsi) hir).1 x, hidx] at this
        exact absurd (le_trans hlow hupp) (not_le.mpr hMm)

/-! ### The hypotheses are met -/

/-- Two weighted and one dense equality task. -/
def exampleGIB : Ctr ℚ :=
  ⟨.gib, 2, ⟨Mat.ofRows 2 [], 0, ⟨2, fun i => i⟩, Vec.ofList [2, 3], Vec.ofList [1, -1], Vec.ofList [], Vec.ofList []⟩⟩

/-- A hierarchy with the level `exampleLevel` above a least squares level. -/
def exampleHierarchy : Hierarchy Unit ℚ :=
  ⟨[exampleLevel, (Level.empty.pushTask (exampleTask exampleGIB)).pushTask (exampleTask exampleAB)], [0, 0]⟩

/-- The second level after forming. -/
def exampleObjectiveFormed : Level Unit ℚ :=
  ⟨[⟨{ exampleTask exampleAB with guess := [.equality] }, ⟨0, 1⟩⟩,
    ⟨{ exampleTask exampleGIB with guess := [.equality, .equality] }, ⟨1, 2⟩⟩], 1, 2, 3, 0⟩

theorem exampleHierarchy_form :
    exampleHierarchy.form 2 () true = .ok ⟨[exampleFormed, exampleObjectiveFormed], [4, 3]⟩ := rfl

theorem exampleHierarchy_reachable : ∀ L ∈ exampleHierarchy.levels, Reachable L := by
  intro L hL
  simp only [exampleHierarchy, List.mem_cons, List.not_mem_nil, or_false] at hL
  rcases hL with rfl | rfl
  · exact exampleLevel_reachable
  · exact .push (exampleTask exampleAB) (.push (exampleTask exampleGIB) .empty)

/-- All hypotheses of the theorems above hold for this hierarchy. -/
example : (∀ L ∈ [exampleFormed, exampleObjectiveFormed], ∀ ti ∈ L.tasks, InRange ti.task.ctr) ∧
    (∀ ti ∈ exampleObjectiveFormed.tasks, CanMinimise ti.task.ctr) ∧
    (∀ ti ∈ exampleFormed.tasks, ti.task.ctr.ctype.isSimple = true → ti.task.ctr.ctype.hasILUCopy = true) := by
  refine ⟨?_, ?_, ?_⟩
  · intro L hL
    simp only [List.mem_cons, List.not_mem_nil, or_false] at hL
    rcases hL with rfl | rfl
    · exact exampleFormed_inRange
    · intro ti hti
      simp only [exampleObjectiveFormed, List.mem_cons, List.not_mem_nil, or_false] at hti
      rcases hti with rfl | rfl
      · exact True.intro
      · intro i hi; exact hi
  · intro ti hti
    simp only [exampleObjectiveFormed, List.mem_cons, List.not_mem_nil, or_false] at hti
    rcases hti with rfl | rfl <;> exact ⟨rfl, by intro h; cases h⟩
  · intro ti hti hs
    simp only [exampleFormed, List.mem_cons, List.not_mem_nil, or_false] at hti
    rcases hti with rfl | rfl | rfl
    · cases hs
    · cases hs
    · rfl

end Humoto
