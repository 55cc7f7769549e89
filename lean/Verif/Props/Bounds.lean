import Verif.Props.Level

/-!
# Bounds on variables: C10
-/

namespace Humoto

open Spec

set_option linter.unusedSectionVars false

variable {E K : Type} [Field K] [LinearOrder K] [IsStrictOrderedRing K]

/-- Running maximum of the lower bounds on `v` over the first `n` rows. -/
def lbAt (k : ContainerILU K) : ℕ → ℕ → K
  | 0, _ => -gInf K
  | n + 1, v => if k.idx.e n = v then max (lbAt k n v) (k.lb.e n) else lbAt k n v

/-- Running minimum of the upper bounds on `v` over the first `n` rows. -/
def ubAt (k : ContainerILU K) : ℕ → ℕ → K
  | 0, _ => gInf K
  | n + 1, v => if k.idx.e n = v then min (ubAt k n v) (k.ub.e n) else ubAt k n v

theorem lbAt_mono (k : ContainerILU K) (v : ℕ) {m n : ℕ} (h : m ≤ n) : lbAt k m v ≤ lbAt k n v := by
  induction n, h using Nat.le_induction with
  | base => exact le_refl _
  | succ n _ ih =>
    rw [lbAt]
    split
    · exact le_trans ih (le_max_left _ _)
    · exact ih

theorem ubAt_mono (k : ContainerILU K) (v : ℕ) {m n : ℕ} (h : m ≤ n) : ubAt k n v ≤ ubAt k m v := by
  induction n, h using Nat.le_induction with
  | base => exact le_refl _
  | succ n _ ih =>
    rw [ubAt]
    split
    · exact le_trans (min_le_left _ _) ih
    · exact ih

theorem lbAt_bound (k : ContainerILU K) (v n i : ℕ) (hi : i < n) (hv : k.idx.e i = v) : k.lb.e i ≤ lbAt k n v := by
  refine le_trans ?_ (lbAt_mono k v (m := i + 1) hi)
  rw [lbAt, if_pos hv]; exact le_max_right _ _

theorem ubAt_bound (k : ContainerILU K) (v n i : ℕ) (hi : i < n) (hv : k.idx.e i = v) : ubAt k n v ≤ k.ub.e i := by
  refine le_trans (ubAt_mono k v (m := i + 1) hi) ?_
  rw [ubAt, if_pos hv]; exact min_le_right _ _

theorem lbAt_attained (k : ContainerILU K) (v n : ℕ) :
    lbAt k n v = -gInf K ∨ ∃ i, i < n ∧ k.idx.e i = v ∧ lbAt k n v = k.lb.e i := by
  induction n with
  | zero => exact Or.inl rfl
  | succ n ih =>
    have old : lbAt k (n + 1) v = lbAt k n v →
        lbAt k (n + 1) v = -gInf K ∨ ∃ i, i < n + 1 ∧ k.idx.e i = v ∧ lbAt k (n + 1) v = k.lb.e i := by
      intro h; rw [h]
      rcases ih with h | ⟨i, h1, h2, h3⟩
      · exact Or.inl h
      · exact Or.inr ⟨i, by omega, h2, h3⟩
    by_cases hv : k.idx.e n = v
    · rcases max_choice (lbAt k n v) (k.lb.e n) with h | h
      · exact old (by rw [lbAt, if_pos hv, h])
      · exact Or.inr ⟨n, by omega, hv, by rw [lbAt, if_pos hv, h]⟩
    · exact old (by rw [lbAt, if_neg hv])

theorem ubAt_attained (k : ContainerILU K) (v n : ℕ) :
    ubAt k n v = gInf K ∨ ∃ i, i < n ∧ k.idx.e i = v ∧ ubAt k n v = k.ub.e i := by
  induction n with
  | zero => exact Or.inl rfl
  | succ n ih =>
    have old : ubAt k (n + 1) v = ubAt k n v →
        ubAt k (n + 1) v = gInf K ∨ ∃ i, i < n + 1 ∧ k.idx.e i = v ∧ ubAt k (n + 1) v = k.ub.e i := by
      intro h; rw [h]
      rcases ih with h | ⟨i, h1, h2, h3⟩
      · exact Or.inl h
      · exact Or.inr ⟨i, by omega, h2, h3⟩
    by_cases hv : k.idx.e n = v
    · rcases min_choice (ubAt k n v) (k.ub.e n) with h | h
      · exact old (by rw [ubAt, if_pos hv, h])
      · exact Or.inr ⟨n, by omega, hv, by rw [ubAt, if_pos hv, h]⟩
    · exact old (by rw [ubAt, if_neg hv])

theorem solutionBounds_cases (k : ContainerILU K) {size nv : ℕ} (hk : InvILU size nv k) (hpos : 0 < size)
    (hidx : ∀ i, i < size → k.idx.e i < nv) :
    (∃ p, k.solutionBounds = .ok p ∧ p.1.n = nv ∧ p.2.n = nv ∧
      ∀ v, v < nv → p.1.e v = lbAt k size v ∧ p.2.e v = ubAt k size v ∧ lbAt k size v ≤ ubAt k size v) ∨
    (k.solutionBounds = .error .thrown ∧ ∃ v, v < nv ∧ ubAt k size v < lbAt k size v) := by
  have hinf : -gInf K ≤ gInf K := by
    have : (0 : K) < gInf K := by unfold gInf; positivity
    linarith
  unfold ContainerILU.solutionBounds
  rw [if_neg (by rw [hk.idx]; omega), hk.idx]
  have main := forRange_or (α := Vec K × Vec K) (P := fun n p => p.1.n = nv ∧ p.2.n = nv ∧
      ∀ v, v < nv → p.1.e v = lbAt k n v ∧ p.2.e v = ubAt k n v ∧ lbAt k n v ≤ ubAt k n v)
    (Bad := fun n => ubAt k (n + 1) (k.idx.e n) < lbAt k (n + 1) (k.idx.e n)) (e := .thrown) (n := size)
    (s := (Vec.const k.nvars (-gInf K), Vec.const k.nvars (gInf K)))
    (body := fun (lb, ub) i => do
      let v ← k.idx.get i
      let rowLb ← k.lb.get i
      let rowUb ← k.ub.get i
      let curLb ← lb.get v
      let lb' ← if curLb < rowLb then lb.set v rowLb else pure lb
      let curUb ← ub.get v
      let ub' ← if curUb > rowUb then ub.set v rowUb else pure ub
      let newLb ← lb'.get v
      let newUb ← ub'.get v
      assertThat (¬ newLb > newUb)
      pure (lb', ub'))
    (by refine ⟨hk.nvars, hk.nvars, fun v _ => ⟨rfl, rfl, hinf⟩⟩) ?_
  · rcases main with ⟨p, h1, h2, h3, h4⟩ | ⟨h1, i, hi, hb⟩
    · exact Or.inl ⟨p, h1, h2, h3, h4⟩
    · refine Or.inr ⟨h1, k.idx.e i, hidx i hi, ?_⟩
      exact lt_of_le_of_lt (ubAt_mono k _ (by omega)) (lt_of_lt_of_le hb (lbAt_mono k _ (by omega)))
  · rintro i ⟨lb, ub⟩ hi ⟨hl, hu, hv⟩
    simp only at hl hu
    have hvi := hidx i hi
    obtain ⟨a, b, c⟩ := hv (k.idx.e i) hvi
    simp only at a b
    have elb : lbAt k (i + 1) (k.idx.e i) = max (lb.e (k.idx.e i)) (k.lb.e i) := by rw [lbAt, if_pos rfl, a]
    have eub : ubAt k (i + 1) (k.idx.e i) = min (ub.e (k.idx.e i)) (k.ub.e i) := by rw [ubAt, if_pos rfl, b]
    have elb' : ∀ v, v ≠ k.idx.e i → lbAt k (i + 1) v = lbAt k i v := fun v h => by rw [lbAt, if_neg (Ne.symm h)]
    have eub' : ∀ v, v ≠ k.idx.e i → ubAt k (i + 1) v = ubAt k i v := fun v h => by rw [ubAt, if_neg (Ne.symm h)]
    -- the new bounds
    obtain ⟨lb', hlb, hln, hle⟩ : ∃ lb' : Vec K, (if lb.e (k.idx.e i) < k.lb.e i then lb.set (k.idx.e i) (k.lb.e i)
        else pure lb) = .ok lb' ∧ lb'.n = nv ∧ ∀ v, v < nv → lb'.e v = lbAt k (i + 1) v := by
      by_cases h : lb.e (k.idx.e i) < k.lb.e i
      · refine ⟨⟨lb.n, Function.update lb.e (k.idx.e i) (k.lb.e i)⟩, ?_, hl, fun v hvn => ?_⟩
        · rw [if_pos h, Vec.set_ok (by omega)]
        · by_cases hvv : v = k.idx.e i
          · subst hvv; rw [elb, max_eq_right (le_of_lt h)]; simp
          · rw [elb' v hvv, ← (hv v hvn).1]; simp [hvv]
      · refine ⟨lb, by rw [if_neg h]; rfl, hl, fun v hvn => ?_⟩
        by_cases hvv : v = k.idx.e i
        · subst hvv; rw [elb, max_eq_left (not_lt.mp h)]
        · rw [elb' v hvv]; exact (hv v hvn).1
    obtain ⟨ub', hub, hun, hue⟩ : ∃ ub' : Vec K, (if ub.e (k.idx.e i) > k.ub.e i then ub.set (k.idx.e i) (k.ub.e i)
        else pure ub) = .ok ub' ∧ ub'.n = nv ∧ ∀ v, v < nv → ub'.e v = ubAt k (i + 1) v := by
      by_cases h : ub.e (k.idx.e i) > k.ub.e i
      · refine ⟨⟨ub.n, Function.update ub.e (k.idx.e i) (k.ub.e i)⟩, ?_, hu, fun v hvn => ?_⟩
        · rw [if_pos h, Vec.set_ok (by omega)]
        · by_cases hvv : v = k.idx.e i
          · subst hvv; rw [eub, min_eq_right (le_of_lt h)]; simp
          · rw [eub' v hvv, ← (hv v hvn).2.1]; simp [hvv]
      · refine ⟨ub, by rw [if_neg h]; rfl, hu, fun v hvn => ?_⟩
        by_cases hvv : v = k.idx.e i
        · subst hvv; rw [eub, min_eq_left (not_lt.mp h)]
        · rw [eub' v hvv]; exact (hv v hvn).2.1
    have hbody : (do
        let v ← k.idx.get i
        let rowLb ← k.lb.get i
        let rowUb ← k.ub.get i
        let curLb ← lb.get v
        let lb' ← if curLb < rowLb then lb.set v rowLb else pure lb
        let curUb ← ub.get v
        let ub' ← if curUb > rowUb then ub.set v rowUb else pure ub
        let newLb ← lb'.get v
        let newUb ← ub'.get v
        assertThat (¬ newLb > newUb)
        pure (lb', ub') : Res (Vec K × Vec K)) =
        (assertThat (¬ lbAt k (i + 1) (k.idx.e i) > ubAt k (i + 1) (k.idx.e i)) >>= fun _ => .ok (lb', ub')) := by
      rw [Vec.get_ok (by rw [hk.idx]; exact hi), ok_bind, Vec.get_ok (by rw [hk.lb]; exact hi), ok_bind,
        Vec.get_ok (by rw [hk.ub]; exact hi), ok_bind, Vec.get_ok (by omega), ok_bind]
      simp only [Vec.get_ok (show k.idx.e i < ub.n by omega), ok_bind]
      by_cases h1 : lb.e (k.idx.e i) < k.lb.e i <;> by_cases h2 : ub.e (k.idx.e i) > k.ub.e i
      all_goals
        simp only [h1, h2, if_true, if_false] at hlb hub ⊢
        rw [hlb, ok_bind, hub, ok_bind, Vec.get_ok (by omega), ok_bind, Vec.get_ok (by omega), ok_bind, hle _ hvi,
          hue _ hvi]
        rfl
    by_cases hbad : ubAt k (i + 1) (k.idx.e i) < lbAt k (i + 1) (k.idx.e i)
    · refine Or.inr ⟨?_, hbad⟩
      simp only
      rw [hbody, assertThat_false (not_not.mpr hbad)]; rfl
    · refine Or.inl ⟨(lb', ub'), ?_, hln, hun, fun v hvn => ⟨hle v hvn, hue v hvn, ?_⟩⟩
      · simp only
        rw [hbody, assertThat_true hbad, ok_bind]
      · by_cases hvv : v = k.idx.e i
        · subst hvv; exact not_lt.mp hbad
        · rw [elb' v hvv, eub' v hvv]; exact (hv v hvn).2.2

theorem getSimple_ok {L : Level E K} {nv : ℕ} (hf : FormedLevel L nv)
    (hI : ∀ ti ∈ L.tasks, ti.task.ctr.ctype.isSimple = true → ti.task.ctr.ctype.hasILUCopy = true) (z : Junk K) :
    ∃ k, L.getSimpleConstraints z nv = .ok k ∧ InvILU L.nSimple nv k ∧
      Placed (fun ti : TaskInfo E K => rows ti.task.ctr) (fun ti => PILU ti.task.ctr) (rdILU k) 0
        (L.tasks.filter fun ti => ti.task.ctr.ctype.isSimple) := by
  have hsub : ∀ ti ∈ L.tasks.filter (fun ti => ti.task.ctr.ctype.isSimple),
      ti ∈ L.tasks ∧ ti.task.ctr.ctype.isSimple = true := fun ti hti => List.mem_filter.mp hti
  have ht : total (fun ti : TaskInfo E K => rows ti.task.ctr) (L.tasks.filter fun ti => ti.task.ctr.ctype.isSimple) =
      L.nSimple := by rw [hf.nSimple]; rfl
  obtain ⟨k, h1, h2, h3, _⟩ := fold_wrote (InvILU L.nSimple nv) L.nSimple rdILU
    (fun ti : TaskInfo E K => rows ti.task.ctr) (fun ti => PILU ti.task.ctr)
    (fun (p : ContainerILU K × ℕ) ti => ti.task.ctr.copyToILU p.1 p.2)
    (L.tasks.filter fun ti => ti.task.ctr.ctype.isSimple)
    (fun ti hti s o hs ho => by
      obtain ⟨hm, hsi⟩ := hsub ti hti
      have := copyToILU_ok ti.task.ctr (hf.wf ti hm) (hI ti hm hsi) L.nSimple s o
        (by rw [hf.nvars ti hm]; exact hs) ho
      rwa [hf.nvars ti hm] at this)
    (ContainerILU.reset z L.nSimple nv) 0 ⟨rfl, rfl, rfl, rfl⟩ (by rw [ht]; simp)
  unfold Level.getSimpleConstraints
  by_cases hpos : L.nSimple > 0
  · refine ⟨k, ?_, h2, h3⟩
    rw [if_pos hpos]
    have := foldlM_skip (fun ti : TaskInfo E K => ti.task.ctr.ctype.isSimple)
      (fun (p : ContainerILU K × ℕ) ti => ti.task.ctr.copyToILU p.1 p.2) L.tasks
      (ContainerILU.reset z L.nSimple nv, 0)
    rw [h1] at this
    simp only at this ⊢
    rw [this]; rfl
  · rw [if_neg hpos]
    refine ⟨_, rfl, ⟨rfl, rfl, rfl, rfl⟩, ?_⟩
    have key : ∀ (ts : List (TaskInfo E K)) (o : ℕ) (rd : ℕ → ℕ × K × K),
        total (fun ti : TaskInfo E K => rows ti.task.ctr) ts = 0 →
        Placed (fun ti : TaskInfo E K => rows ti.task.ctr) (fun ti => PILU ti.task.ctr) rd o ts := by
      intro ts
      induction ts with
      | nil => intros; trivial
      | cons t ts ih =>
        intro o rd h0
        rw [total_cons] at h0
        exact ⟨fun i (hi : i < rows t.task.ctr) => absurd hi (by omega), ih _ _ (by omega)⟩
    exact key _ _ _ (by rw [ht]; omega)

theorem simple_row (c : Ctr K) (hb : BodyFits c) (hc : c.ctype.hasILUCopy = true) {i : ℕ} (hir : i < rows c) :
    (∀ x : ℕ → K, lhs c x i = x (c.data.idx.e i)) ∧ c.data.idx.e i < c.nvars := by
  rcases c with ⟨t, n, d⟩
  cases t
  case ilu | il | iu | ib | ib0 => exact ⟨fun _ => rfl, hb i hir⟩
  all_goals cases hc

/-! ## C10 -/

/-- Bounds on variables computed for a formed level whose simple tasks are not weighted: without simple rows there are no
bounds; otherwise there is a pair of bounds for each variable, which are the tightest ones, or an exception is raised and
the tightest bounds on some variable contradict each other. Hence an exception is raised iff they do. -/
theorem C10_bounds {L L' : Level E K} (hr : Reachable L) {nv : ℕ} {env : E} {g : Bool}
    (h : L.form nv env g = .ok L') (hi : ∀ ti ∈ L'.tasks, InRange ti.task.ctr)
    (hI : ∀ ti ∈ L'.tasks, ti.task.ctr.ctype.isSimple = true → ti.task.ctr.ctype.hasILUCopy = true) (z : Junk K) :
    ∃ k, L'.getSimpleConstraints z nv = .ok k ∧
      (L'.nSimple = 0 → ∃ p, k.solutionBounds = .ok p ∧ p.1.n = 0 ∧ p.2.n = 0) ∧
      (0 < L'.nSimple →
        (∃ p, k.solutionBounds = .ok p ∧ p.1.n = nv ∧ p.2.n = nv ∧
          ∀ v, v < nv → TightestLower L'.tasks v (p.1.e v) ∧ TightestUpper L'.tasks v (p.2.e v) ∧ p.1.e v ≤ p.2.e v) ∨
        (k.solutionBounds = .error .thrown ∧
          ∃ v, v < nv ∧ ∃ m M, TightestLower L'.tasks v m ∧ TightestUpper L'.tasks v M ∧ M < m)) := by
  have hf := formedLevel_of_form hr h hi
  obtain ⟨k, hk, hinv, hp⟩ := getSimple_ok hf hI z
  have ht : total (fun ti : TaskInfo E K => rows ti.task.ctr)
      (L'.tasks.filter fun ti => ti.task.ctr.ctype.isSimple) = L'.nSimple := by rw [hf.nSimple]; rfl
  have hTL : ∀ v, TightestLower L'.tasks v (lbAt k L'.nSimple v) := by
    intro v
    refine ⟨lbAt_mono k v (Nat.zero_le _), ?_, ?_⟩
    · intro ti hti hsi i hir hidx l hl
      obtain ⟨p, _, hp1, hP1, hP2, _⟩ := hp.item (List.mem_filter.mpr ⟨hti, hsi⟩) (i := i) hir
      have hb := lbAt_bound k v L'.nSimple p (by rw [← ht]; simpa using hp1)
        (by rw [← hidx]; exact hP1)
      have e : k.lb.e p = l := by
        rw [show k.lb.e p = lbVal ti.task.ctr i from hP2, lbVal, hl]; rfl
      rwa [e] at hb
    · rcases lbAt_attained k v L'.nSimple with h0 | ⟨p, hp1, hp2, hp3⟩
      · exact Or.inl h0
      · obtain ⟨ti, hti, i, hir, hP1, hP2, _⟩ := hp.row (p := p) (by omega) (by rw [ht]; omega)
        obtain ⟨hm, hsi⟩ := List.mem_filter.mp hti
        have e : k.lb.e p = lbVal ti.task.ctr i := hP2
        cases hlo : lower ti.task.ctr i with
        | none => left; rw [hp3, e, lbVal, hlo]; rfl
        | some l =>
          refine Or.inr ⟨ti, hm, hsi, i, hir, ?_, ?_⟩
          · rw [← hp2]; exact hP1.symm
          · rw [hlo, hp3, e, lbVal, hlo]; rfl
  have hTU : ∀ v, TightestUpper L'.tasks v (ubAt k L'.nSimple v) := by
    intro v
    refine ⟨ubAt_mono k v (Nat.zero_le _), ?_, ?_⟩
    · intro ti hti hsi i hir hidx l hl
      obtain ⟨p, _, hp1, hP1, _, hP2⟩ := hp.item (List.mem_filter.mpr ⟨hti, hsi⟩) (i := i) hir
      have hb := ubAt_bound k v L'.nSimple p (by rw [← ht]; simpa using hp1)
        (by rw [← hidx]; exact hP1)
      have e : k.ub.e p = l := by
        rw [show k.ub.e p = ubVal ti.task.ctr i from hP2, ubVal, hl]; rfl
      rwa [e] at hb
    · rcases ubAt_attained k v L'.nSimple with h0 | ⟨p, hp1, hp2, hp3⟩
      · exact Or.inl h0
      · obtain ⟨ti, hti, i, hir, hP1, _, hP2⟩ := hp.row (p := p) (by omega) (by rw [ht]; omega)
        obtain ⟨hm, hsi⟩ := List.mem_filter.mp hti
        have e : k.ub.e p = ubVal ti.task.ctr i := hP2
        cases hlo : upper ti.task.ctr i with
        | none => left; rw [hp3, e, ubVal, hlo]; rfl
        | some l =>
          refine Or.inr ⟨ti, hm, hsi, i, hir, ?_, ?_⟩
          · rw [← hp2]; exact hP1.symm
          · rw [hlo, hp3, e, ubVal, hlo]; rfl
  refine ⟨k, hk, ?_, ?_⟩
  · intro h0
    refine ⟨(⟨0, fun _ => 0⟩, ⟨0, fun _ => 0⟩), ?_, rfl, rfl⟩
    unfold ContainerILU.solutionBounds
    rw [if_pos (by rw [hinv.idx, h0])]
  · intro hpos
    have hidx : ∀ i, i < L'.nSimple → k.idx.e i < nv := by
      intro p hp1
      obtain ⟨ti, hti, i, hir, hP1, _⟩ := hp.row (p := p) (by omega) (by rw [ht]; omega)
      obtain ⟨hm, hsi⟩ := List.mem_filter.mp hti
      rw [show k.idx.e p = ti.task.ctr.data.idx.e i from hP1, ← hf.nvars ti hm]
      exact (simple_row _ (hf.wf ti hm).2 (hI ti hm hsi) hir).2
    rcases solutionBounds_cases k hinv hpos hidx with ⟨p, h1, h2, h3, h4⟩ | ⟨h1, v, hv, hb⟩
    · refine Or.inl ⟨p, h1, h2, h3, fun v hv => ?_⟩
      obtain ⟨a, b, c⟩ := h4 v hv
      rw [a, b]
      exact ⟨hTL v, hTU v, c⟩
    · exact Or.inr ⟨h1, v, hv, _, _, hTL v, hTU v, hb⟩

/-- The tightest bounds are unique, so that the previous theorem determines the outcome. -/
theorem C10_unique (ts : List (TaskInfo E K)) (v : ℕ) (a b : K) :
    (TightestLower ts v a → TightestLower ts v b → a = b) ∧ (TightestUpper ts v a → TightestUpper ts v b → a = b) := by
  have hL : ∀ a b : K, TightestLower ts v a → TightestLower ts v b → a ≤ b := by
    intro a b ha hb
    rcases ha.attained with h | ⟨ti, h1, h2, i, h3, h4, h5⟩
    · rw [h]; exact hb.clamp
    · exact hb.bound ti h1 h2 i h3 h4 a h5
  have hU : ∀ a b : K, TightestUpper ts v a → TightestUpper ts v b → b ≤ a := by
    intro a b ha hb
    rcases ha.attained with h | ⟨ti, h1, h2, i, h3, h4, h5⟩
    · rw [h]; exact hb.clamp
    · exact hb.bound ti h1 h2 i h3 h4 a h5
  exact ⟨fun ha hb => le_antisymm (hL a b ha hb) (hL b a hb ha), fun ha hb => le_antisymm (hU b a hb ha) (hU a b ha hb)⟩

/-- What the bounds mean: a point within the bounds satisfies all simple tasks; a point which satisfies all simple tasks
and does not exceed the library infinity is within the bounds. -/
theorem C10_feasible {L L' : Level E K} (hr : Reachable L) {nv : ℕ} {env : E} {g : Bool}
    (h : L.form nv env g = .ok L') (hi : ∀ ti ∈ L'.tasks, InRange ti.task.ctr)
    (hI : ∀ ti ∈ L'.tasks, ti.task.ctr.ctype.isSimple = true → ti.task.ctr.ctype.hasILUCopy = true) {z : Junk K}
    {k : ContainerILU K} (hk : L'.getSimpleConstraints z nv = .ok k) {p : Vec K × Vec K}
    (hp : k.solutionBounds = .ok p) (x : ℕ → K) :
    ((∀ v, v < p.1.n → p.1.e v ≤ x v ∧ x v ≤ p.2.e v) →
      ∀ ti ∈ L'.tasks, ti.task.ctr.ctype.isSimple = true → Satisfied ti.task.ctr x) ∧
    ((∀ ti ∈ L'.tasks, ti.task.ctr.ctype.isSimple = true → Satisfied ti.task.ctr x) →
      (∀ v, v < nv → -10 ^ 20 ≤ x v ∧ x v ≤ 10 ^ 20) → ∀ v, v < p.1.n → p.1.e v ≤ x v ∧ x v ≤ p.2.e v) := by
  have hf := formedLevel_of_form hr h hi
  obtain ⟨k', hk', h0, hpos⟩ := C10_bounds hr h hi hI z
  rw [hk] at hk'
  cases hk'
  have hlhs : ∀ ti ∈ L'.tasks, ti.task.ctr.ctype.isSimple = true → ∀ i, i < rows ti.task.ctr →
      lhs ti.task.ctr x i = x (ti.task.ctr.data.idx.e i) ∧ ti.task.ctr.data.idx.e i < nv := by
    intro ti hm hsi i hir
    rw [← hf.nvars ti hm]
    have := simple_row ti.task.ctr (hf.wf ti hm).2 (hI ti hm hsi) hir
    exact ⟨this.1 x, this.2⟩
  rcases Nat.eq_zero_or_pos L'.nSimple with hz | hz
  · obtain ⟨p', hp', hn1, hn2⟩ := h0 hz
    rw [hp] at hp'
    cases hp'
    constructor
    · intro _ ti hti hsi i hir
      exfalso
      have h1 : totalRows (L'.tasks.filter fun ti => ti.ctype.isSimple) = 0 := by rw [← hf.nSimple, hz]
      have h2 : rows ti.task.ctr ∈ (L'.tasks.filter fun ti => ti.ctype.isSimple).map fun ti => rows ti.task.ctr :=
        List.mem_map_of_mem (List.mem_filter.mpr ⟨hti, hsi⟩)
      have h3 := List.sum_eq_zero_iff.mp h1 _ h2
      omega
    · intro _ _ v hv
      omega
  · rcases hpos hz with ⟨p', hp', hn1, hn2, hb⟩ | ⟨hthrow, _⟩
    · rw [hp] at hp'
      cases hp'
      constructor
      · intro hx ti hti hsi i hir
        obtain ⟨e1, e2⟩ := hlhs ti hti hsi i hir
        obtain ⟨b1, b2, _⟩ := hb _ e2
        obtain ⟨x1, x2⟩ := hx _ (by rw [hn1]; exact e2)
        refine ⟨fun l hl => ?_, fun u hu => ?_⟩
        · rw [e1]; exact le_trans (b1.bound ti hti hsi i hir rfl l hl) x1
        · rw [e1]; exact le_trans x2 (b2.bound ti hti hsi i hir rfl u hu)
      · intro hsat hinf v hv
        rw [hn1] at hv
        obtain ⟨b1, b2, _⟩ := hb v hv
        constructor
        · rcases b1.attained with e | ⟨ti, hti, hsi, i, hir, hidx, hl⟩
          · rw [e]; exact (hinf v hv).1
          · have := (hsat ti hti hsi i hir).1 _ hl
            rwa [(hlhs ti hti hsi i hir).1, hidx] at this
        · rcases b2.attained with e | ⟨ti, hti, hsi, i, hir, hidx, hl⟩
          · rw [e]; exact (hinf v hv).2
          · have := (hsat ti hti hsi i hir).2 _ hl
            rwa [(hlhs ti hti hsi i hir).1, hidx] at this
    · rw [hp] at hthrow; cases hthrow

/-- The hypothesis about weighted tasks cannot be dropped: a weighted task counts as simple, but a level with rows of such
a task does not produce bounds, an exception is raised. -/
theorem C10_weighted_refuted {L L' : Level E K} (hr : Reachable L) {nv : ℕ} {env : E} {g : Bool}
    (h : L.form nv env g = .ok L') (hi : ∀ ti ∈ L'.tasks, InRange ti.task.ctr) {ti : TaskInfo E K}
    (hti : ti ∈ L'.tasks) (hs : ti.task.ctr.ctype.isSimple = true) (hw : ti.task.ctr.ctype.hasILUCopy = false)
    (hpos : 0 < rows ti.task.ctr) (z : Junk K) : L'.getSimpleConstraints z nv = .error .thrown := by
  have hf := formedLevel_of_form hr h hi
  have hn : 0 < L'.nSimple := by
    rw [hf.nSimple]
    have h2 : rows ti.task.ctr ∈ (L'.tasks.filter fun ti => ti.ctype.isSimple).map fun ti => rows ti.task.ctr :=
      List.mem_map_of_mem (List.mem_filter.mpr ⟨hti, hs⟩)
    have := List.le_sum_of_mem h2
    exact lt_of_lt_of_le hpos this
  -- the tasks before the first weighted one
  have key : ∀ (ts : List (TaskInfo E K)) (k : ContainerILU K) (o : ℕ), (∀ t ∈ ts, t ∈ L'.tasks) → ti ∈ ts →
      InvILU L'.nSimple nv k → o + totalRows (ts.filter fun ti => ti.ctype.isSimple) = L'.nSimple →
      (ts.foldlM (fun (p : ContainerILU K × ℕ) (ti : TaskInfo E K) =>
        if ti.task.ctr.ctype.isSimple then ti.task.ctr.copyToILU p.1 p.2 else pure p) (k, o)) =
        (.error .thrown : Res _) := by
    intro ts
    induction ts with
    | nil => intro k o _ hm; cases hm
    | cons t ts ih =>
      intro k o hsub hm hk ho
      rw [List.foldlM_cons]
      by_cases hts : t.task.ctr.ctype.isSimple = true
      · rw [if_pos hts]
        have e1 : totalRows ((t :: ts).filter fun ti => ti.ctype.isSimple) =
            rows t.task.ctr + totalRows (ts.filter fun ti => ti.ctype.isSimple) := by
          rw [List.filter_cons, if_pos hts]; rfl
        by_cases htw : t.task.ctr.ctype.hasILUCopy = true
        · have hm' : ti ∈ ts := by
            rcases List.mem_cons.mp hm with rfl | hm
            · rw [hw] at htw; cases htw
            · exact hm
          have hnv := hf.nvars t (hsub t (by simp))
          obtain ⟨k', h1, h2, _⟩ := copyToILU_ok t.task.ctr (hf.wf t (hsub t (by simp))) htw L'.nSimple k o
            (by rw [hnv]; exact hk) (by omega)
          rw [hnv] at h2
          rw [h1, ok_bind]
          exact ih k' _ (fun t ht => hsub t (by simp [ht])) hm' h2 (by omega)
        · unfold Ctr.copyToILU
          rw [if_neg htw]; rfl
      · rw [if_neg hts]
        have e1 : totalRows ((t :: ts).filter fun ti => ti.ctype.isSimple) =
            totalRows (ts.filter fun ti => ti.ctype.isSimple) := by
          rw [List.filter_cons, if_neg hts]
        have hm' : ti ∈ ts := by
          rcases List.mem_cons.mp hm with rfl | hm
          · exact absurd hs hts
          · exact hm
        exact ih k o (fun t ht => hsub t (by simp [ht])) hm' hk (by omega)
  unfold Level.getSimpleConstraints
  rw [if_pos hn]
  have := key L'.tasks (ContainerILU.reset z L'.nSimple nv) 0 (fun _ h => h) hti ⟨rfl, rfl, rfl, rfl⟩
    (by rw [hf.nSimple, Nat.zero_add])
  simp only at this ⊢
  rw [this]; rfl

/-! ### The hypotheses are met -/

/-- Bounds `-2 <= x₁ <= 1` and `0 <= x₀ <= 5`. -/
def exampleILU : Ctr ℚ :=
  ⟨.ilu, 2, ⟨Mat.ofRows 2 [], 0, ⟨2, fun i => 1 - i⟩, Vec.ofList [], Vec.ofList [], Vec.ofList [-2, 0],
    Vec.ofList [1, 5]⟩⟩

/-- A weighted bound `3 x₀ <= 1`. -/
def exampleGIU : Ctr ℚ :=
  ⟨.giu, 2, ⟨Mat.ofRows 2 [], 0, ⟨1, fun _ => 0⟩, Vec.ofList [3], Vec.ofList [], Vec.ofList [], Vec.ofList [1]⟩⟩

/-- A level with two simple tasks about the same variable. -/
def exampleSimple : Level Unit ℚ := (Level.empty.pushTask (exampleTask exampleIL)).pushTask (exampleTask exampleILU)

/-- The level after forming. -/
def exampleSimpleFormed : Level Unit ℚ :=
  ⟨[⟨{ exampleTask exampleIL with guess := [.inactive] }, ⟨0, 1⟩⟩,
    ⟨{ exampleTask exampleILU with guess := [.inactive, .inactive] }, ⟨1, 2⟩⟩], 0, 3, 0, 2⟩

theorem exampleSimple_form : exampleSimple.form 2 () true = .ok exampleSimpleFormed := rfl

theorem exampleSimple_reachable : Reachable exampleSimple :=
  .push (exampleTask exampleILU) (.push (exampleTask exampleIL) .empty)

theorem exampleSimpleFormed_inRange : ∀ ti ∈ exampleSimpleFormed.tasks, InRange ti.task.ctr := by
  intro ti hti
  simp only [exampleSimpleFormed, List.mem_cons, List.not_mem_nil, or_false] at hti
  rcases hti with rfl | rfl
  · intro i hi; simp [exampleTask, exampleIL]
  · intro i hi; simp only [exampleTask, exampleILU]; omega

/-- All hypotheses of `C10_bounds` hold for this level; the lower bound on `x₁` is the largest one, `-1`. -/
example : (∀ ti ∈ exampleSimpleFormed.tasks, ti.task.ctr.ctype.isSimple = true → ti.task.ctr.ctype.hasILUCopy = true) ∧
    (do let k ← exampleSimpleFormed.getSimpleConstraints ⟨fun _ _ => 7, fun _ => 7, fun _ => 7, fun _ => 7⟩ 2
        let p ← k.solutionBounds
        pure (p.1.e 0, p.1.e 1, p.2.e 0, p.2.e 1)) = (.ok (0, -1, 5, 1) : Res (ℚ × ℚ × ℚ × ℚ)) := by
  refine ⟨?_, ?_⟩
  · intro ti hti _
    simp only [exampleSimpleFormed, List.mem_cons, List.not_mem_nil, or_false] at hti
    rcases hti with rfl | rfl <;> rfl
  · rfl

/-- A reachable level with a weighted simple task. -/
example : ((Level.empty.pushTask (exampleTask exampleGIU)).form 2 () true).toOption.map
    (fun L => L.tasks.map fun ti => (ti.task.ctr.ctype.isSimple, ti.task.ctr.ctype.hasILUCopy, rows ti.task.ctr)) =
    some [(true, false, 1)] := rfl

end Humoto
