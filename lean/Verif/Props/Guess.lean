import Verif.Props.Objective
import Verif.Props.ActiveSet

/-!
# Active sets of tasks, levels and hierarchies: C13, C14
-/

namespace Humoto

open Spec

set_option linter.unusedSectionVars false

variable {E K : Type}

theorem mapM_map {α β : Type} {f : α → Res β} {g : α → β} {l : List α} (h : ∀ a ∈ l, f a = .ok (g a)) :
    l.mapM f = .ok (l.map g) := by
  induction l with
  | nil => rfl
  | cons a l ih =>
    rw [List.mapM_cons, h a (by simp), ok_bind, ih fun a ha => h a (by simp [ha]), ok_bind]; rfl

/-- What `processActiveSet` does with a task. -/
def TaskInfo.withActual (s : ActiveSetC) (ti : TaskInfo E K) : TaskInfo E K :=
  { ti with task := { ti.task with actual := (s.drop ti.loc.offset).take ti.loc.length } }

theorem formLoop_forall2 {nv : ℕ} {env : E} {g : Bool} {ts : List (TaskInfo E K)} {L L' : Level E K}
    (h : Level.formLoop nv env g L ts = .ok L') :
    ∃ ts', L'.tasks = L.tasks ++ ts' ∧
      List.Forall₂ (fun a b : TaskInfo E K => a.task.formAll nv env g = .ok b.task) ts ts' := by
  induction ts generalizing L with
  | nil => cases h; exact ⟨[], by simp, .nil⟩
  | cons ti ts ih =>
    unfold Level.formLoop at h
    obtain ⟨t, ht, h⟩ := bind_eq_ok.mp h
    simp only at h
    obtain ⟨ts', k1, k2⟩ := ih h
    cases hs : t.ctr.ctype.isSimple
    · refine ⟨⟨t, ⟨L.nGeneral, t.ctr.numRows⟩⟩ :: ts', ?_, .cons ht k2⟩
      rw [k1]
      cases t.ctr.ctype.isEquality <;> cases t.ctr.ctype.isTwoSided <;> simp [hs]
    · refine ⟨⟨t, ⟨L.nSimple + L.nGeneral, t.ctr.numRows⟩⟩ :: ts', ?_, .cons ht k2⟩
      rw [k1]
      cases t.ctr.ctype.isEquality <;> cases t.ctr.ctype.isTwoSided <;> simp [hs]

theorem form_forall2 {nv : ℕ} {env : E} {g : Bool} {L L' : Level E K} (h : L.form nv env g = .ok L') :
    List.Forall₂ (fun a b : TaskInfo E K => a.task.formAll nv env g = .ok b.task) L.tasks L'.tasks := by
  unfold Level.form at h
  obtain ⟨_, _, h⟩ := bind_eq_ok.mp h
  obtain ⟨L1, h1, h⟩ := bind_eq_ok.mp h
  obtain ⟨_, _, h⟩ := bind_eq_ok.mp h
  cases h
  obtain ⟨ts', k1, k2⟩ := formLoop_forall2 h1
  rw [k1]; exact k2

variable [Field K]

theorem form_consecutive {L L' : Level E K} (hr : Reachable L) {nv : ℕ} {env : E} {g : Bool}
    (h : L.form nv env g = .ok L') : Consecutive 0 L'.tasks ∧ L'.nConstraints = totalRows L'.tasks := by
  obtain ⟨k1, k2, k3, k4, k5, k6, k7, k8⟩ := form_facts h
  have ho : Ordered (L'.tasks.map TaskInfo.ctype) := by rw [k1]; exact reachable_ordered hr
  refine ⟨by simpa using consecutive_of_located k3 ho (Or.inl rfl), ?_⟩
  rw [Level.nConstraints, k4, k5, rowsIf_not]

theorem consecutive_loc {o : ℕ} {ts : List (TaskInfo E K)} (h : Consecutive o ts) :
    ∀ ti ∈ ts, ti.loc.length = rows ti.task.ctr ∧ o ≤ ti.loc.offset ∧
      ti.loc.offset + ti.loc.length ≤ o + totalRows ts := by
  induction ts generalizing o with
  | nil => intro ti hti; cases hti
  | cons t ts ih =>
    intro ti hti
    have e : totalRows (t :: ts) = rows t.task.ctr + totalRows ts := by simp [totalRows]
    rcases List.mem_cons.mp hti with rfl | hti
    · rw [h.1]; exact ⟨rfl, le_refl _, by simp only; omega⟩
    · obtain ⟨h1, h2, h3⟩ := ih h.2 ti hti
      exact ⟨h1, by omega, by omega⟩

/-! ## C13 -/

theorem processActiveSet_ok {L : Level E K} {s : ActiveSetC} (hc : Consecutive 0 L.tasks)
    (hs : s.length = totalRows L.tasks) :
    L.processActiveSet s = .ok { L with tasks := L.tasks.map (TaskInfo.withActual s) } := by
  unfold Level.processActiveSet
  rw [mapM_map (g := TaskInfo.withActual s)]
  · rfl
  · intro ti hti
    obtain ⟨_, _, h3⟩ := consecutive_loc hc ti hti
    rw [C03_initFrom _ _ _ (by omega)]
    rfl

/-- Distribution: an active set of a formed level is accepted if it has one entry per row of the level; every task gets
exactly the entries of its own rows, in order, and nothing else in the level changes. -/
theorem C13_distribute {L L' : Level E K} (hr : Reachable L) {nv : ℕ} {env : E} {g : Bool}
    (h : L.form nv env g = .ok L') {s : List Act} (hs : s.length = L'.nConstraints) :
    ∃ L'', L'.processActiveSet s = .ok L'' ∧
      List.Forall₂ (fun a b : TaskInfo E K => b.loc = a.loc ∧ b.task = { a.task with actual := b.task.actual } ∧
        b.task.actual.length = rows a.task.ctr ∧ ∀ i, i < rows a.task.ctr → b.task.actual[i]? = s[a.loc.offset + i]?)
        L'.tasks L''.tasks ∧
      L''.nConstraints = L'.nConstraints ∧ L''.nEquality = L'.nEquality ∧ L''.nTwoSided = L'.nTwoSided := by
  obtain ⟨hc, hn⟩ := form_consecutive hr h
  refine ⟨_, processActiveSet_ok hc (by omega), ?_, rfl, rfl, rfl⟩
  rw [List.forall₂_map_right_iff, List.forall₂_same]
  intro ti hti
  obtain ⟨h1, _, h3⟩ := consecutive_loc hc ti hti
  refine ⟨rfl, rfl, ?_, ?_⟩
  · simp only [TaskInfo.withActual, List.length_take, List.length_drop]; omega
  · intro i hi
    simp only [TaskInfo.withActual, List.getElem?_take, List.getElem?_drop]
    rw [if_pos (by omega)]

/-- A set of another length is not always rejected: when it is longer than the level, the first entries are used; when it
is shorter, an exception is raised. -/
theorem C13_distribute_short {L L' : Level E K} (hr : Reachable L) {nv : ℕ} {env : E} {g : Bool}
    (h : L.form nv env g = .ok L') {s : List Act} (hs : s.length < L'.nConstraints) :
    L'.processActiveSet s = .error .thrown := by
  obtain ⟨hc, hn⟩ := form_consecutive hr h
  rw [hn] at hs
  have key : ∀ (ts : List (TaskInfo E K)) (o : ℕ), Consecutive o ts → o ≤ s.length → s.length < o + totalRows ts →
      (ts.mapM fun ti => do
        let a ← ActiveSetC.initFrom ti.task.actual s ti.loc
        pure ({ ti with task := { ti.task with actual := a } } : TaskInfo E K)) = (.error .thrown : Res _) := by
    intro ts
    induction ts with
    | nil => intro o _ h1 h2; simp [totalRows] at h2; omega
    | cons t ts ih =>
      intro o hc h1 h2
      have e : totalRows (t :: ts) = rows t.task.ctr + totalRows ts := by simp [totalRows]
      rw [List.mapM_cons]
      by_cases hfit : t.loc.offset + t.loc.length ≤ s.length
      · rw [C03_initFrom _ _ _ hfit, ok_bind, pure_eq_ok, ok_bind]
        have hl := hc.1
        rw [hl] at hfit
        simp only at hfit
        rw [ih _ hc.2 (by omega) (by omega)]; rfl
      · rw [(C03_rejects s t.task.actual t.loc).2.2.1 hfit]; rfl
  unfold Level.processActiveSet
  rw [key L'.tasks 0 hc (by omega) (by omega)]; rfl

theorem collect_slices (s : ActiveSetC) (ts : List (TaskInfo E K)) (o : ℕ) (s0 : ActiveSetC) (hc : Consecutive o ts)
    (hg : ∀ ti ∈ ts, ti.task.guess = (s.drop ti.loc.offset).take ti.loc.length)
    (hs : s.length = o + totalRows ts) (hl : s0.length = s.length) (ht : s0.take o = s.take o) :
    ts.foldlM (fun s ti => ActiveSetC.copyTo s ti.loc ti.task.guess) s0 = .ok s := by
  induction ts generalizing o s0 with
  | nil =>
    have e : o = s.length := by simp [totalRows] at hs; omega
    rw [e, List.take_length, ← hl, List.take_length] at ht
    rw [ht]; rfl
  | cons t ts ih =>
    have e : totalRows (t :: ts) = rows t.task.ctr + totalRows ts := by simp [totalRows]
    have hloc := hc.1
    have hgt := hg t (by simp)
    rw [hloc] at hgt
    simp only at hgt
    have hgl : t.task.guess.length = rows t.task.ctr := by rw [hgt]; simp; omega
    rw [List.foldlM_cons]
    have hcopy : ActiveSetC.copyTo s0 t.loc t.task.guess =
        .ok (s0.take o ++ t.task.guess ++ s0.drop (o + t.task.guess.length)) := by
      unfold ActiveSetC.copyTo
      rw [assertThat_true ((Location.checkLength_iff _ _).2 (by rw [hloc]; simp only; omega)), ok_bind, hloc]
      exact copyInto_ok (by simp only [Location.front]; omega)
    rw [hcopy, ok_bind]
    refine ih (o + rows t.task.ctr) _ hc.2 (fun ti hti => hg ti (by simp [hti])) (by omega) ?_ ?_
    · simp only [List.length_append, List.length_take, List.length_drop]; omega
    · have hlen : (s0.take o ++ t.task.guess).length = o + rows t.task.ctr := by
        rw [List.length_append, List.length_take, hgl]; omega
      have e2 : s0.take o ++ t.task.guess = s.take (o + rows t.task.ctr) := by rw [hgt, ht, ← List.take_add]
      rw [List.take_append_of_le_length (by omega), e2, List.take_take, Nat.min_self]

/-- Round trip: an active set which is distributed to the tasks of a formed level comes back unchanged when the level is
formed again, provided that the tasks report that they did not change, keep their numbers of rows and do not override the
guess. The buffer `s0` into which the guesses are collected is arbitrary. -/
theorem C13_roundtrip {L L1 L2 L3 : Level E K} (hr : Reachable L) {nv nv' : ℕ} {env env' : E} {g : Bool}
    (h1 : L.form nv env g = .ok L1) {s : List Act} (hs : s.length = L1.nConstraints)
    (h2 : L1.processActiveSet s = .ok L2) (h3 : L2.form nv' env' true = .ok L3)
    (hu : ∀ ti ∈ L1.tasks, ti.task.guessFn = none ∧ ∀ c d u, ti.task.formFn env' c = .ok (d, u) →
      u = true ∧ rows ({ c with data := d } : Ctr K) = rows ti.task.ctr)
    {s0 : List Act} (h0 : s0.length = L3.nConstraints) : L3.guessActiveSet s0 = .ok s := by
  obtain ⟨hc, hn⟩ := form_consecutive hr h1
  rw [processActiveSet_ok hc (by omega)] at h2
  cases h2
  have hr2 : Reachable ({ L1 with tasks := L1.tasks.map (TaskInfo.withActual s) } : Level E K) :=
    .change (.form hr h1) (by simp only [List.map_map]; rfl)
  obtain ⟨hc3, hn3⟩ := form_consecutive hr2 h3
  have hf := form_forall2 h3
  simp only [List.forall₂_map_left_iff] at hf
  -- one task
  have htask : ∀ a b : TaskInfo E K, a ∈ L1.tasks →
      (a.withActual s).task.formAll nv' env' true = .ok b.task →
      rows b.task.ctr = rows a.task.ctr ∧ b.task.guess = (s.drop a.loc.offset).take a.loc.length := by
    intro a b ha hab
    obtain ⟨hg1, hg2⟩ := hu a ha
    obtain ⟨hl1, _, hl3⟩ := consecutive_loc hc a ha
    unfold Task.formAll at hab
    obtain ⟨t1, e1, hab⟩ := bind_eq_ok.mp hab
    obtain ⟨t2, e2, hab⟩ := bind_eq_ok.mp hab
    obtain ⟨u, e3, hab⟩ := bind_eq_ok.mp hab
    have hb : b.task = t2 := by cases hab; rfl
    unfold Task.form at e1
    obtain ⟨⟨d, un⟩, f1, e1⟩ := bind_eq_ok.mp e1
    obtain ⟨k1, k2⟩ := hg2 _ d un f1
    have ht1 : t1.modified = false ∧ t1.actual = (s.drop a.loc.offset).take a.loc.length ∧
        rows t1.ctr = rows a.task.ctr ∧ t1.guessFn = none := by
      cases e1
      refine ⟨by simp [k1], rfl, k2, hg1⟩
    obtain ⟨m1, m2, m3, m4⟩ := ht1
    have hlen : t1.actual.length = rows a.task.ctr := by rw [m2]; simp; omega
    simp only [Task.guessIf, if_true, Task.guessActiveSet, m4, Task.guessDefault, m1] at e2
    rw [hb]
    by_cases hz : t1.actual.length = 0
    · have hnil : t1.actual = [] := List.length_eq_zero_iff.mp hz
      rw [if_pos (Or.inr hz)] at e2
      have hnr : t1.ctr.numRows = 0 := by rw [numRows_eq, m3]; omega
      rw [hnr] at e2
      split at e2
      · cases e2
        exact ⟨m3, by rw [← m2, hnil]; rfl⟩
      · cases e2
        exact ⟨m3, by rw [← m2, hnil]; rfl⟩
    · rw [if_neg (by simp [hz])] at e2
      obtain ⟨_, _, e2⟩ := bind_eq_ok.mp e2
      cases e2
      exact ⟨m3, m2⟩
  -- same locations
  have hpairs : ∀ (as bs : List (TaskInfo E K)) (o : ℕ), (∀ a ∈ as, a ∈ L1.tasks) → Consecutive o as →
      Consecutive o bs →
      List.Forall₂ (fun a b : TaskInfo E K => (a.withActual s).task.formAll nv' env' true = .ok b.task) as bs →
      totalRows bs = totalRows as ∧ ∀ b ∈ bs, b.task.guess = (s.drop b.loc.offset).take b.loc.length := by
    intro as bs o hsub ca cb hab
    induction hab generalizing o with
    | nil => exact ⟨rfl, by simp⟩
    | @cons x y as bs hxy _ ih =>
      obtain ⟨t1, t2⟩ := htask x y (hsub x (by simp)) hxy
      obtain ⟨k1, k2⟩ := ih (o + rows x.task.ctr) (fun a ha => hsub a (by simp [ha])) ca.2 (by rw [← t1]; exact cb.2)
      refine ⟨by simp only [totalRows, List.map_cons, List.sum_cons] at k1 ⊢; omega, ?_⟩
      intro b hb
      rcases List.mem_cons.mp hb with rfl | hb
      · rw [t2, cb.1, ca.1, t1]
      · exact k2 b hb
  obtain ⟨k1, k2⟩ := hpairs L1.tasks L3.tasks 0 (fun _ h => h) hc hc3 hf
  exact collect_slices s L3.tasks 0 s0 hc3 k2 (by omega) (by omega) (by simp)

theorem hierarchy_forms {P P' : Hierarchy E K} {nv : ℕ} {env : E} {g : Bool} (h : P.form nv env g = .ok P') :
    List.Forall₂ (fun L L' : Level E K => L.form nv env g = .ok L') P.levels P'.levels := by
  unfold Hierarchy.form at h
  obtain ⟨_, _, h⟩ := bind_eq_ok.mp h
  obtain ⟨Ls, h1, h⟩ := bind_eq_ok.mp h
  cases h
  exact mapM_ok h1

/-- The round trip for a whole hierarchy. -/
theorem C13_hierarchy {P P1 P2 P3 : Hierarchy E K} (hr : ∀ L ∈ P.levels, Reachable L) {nv nv' : ℕ} {env env' : E}
    {g : Bool} (h1 : P.form nv env g = .ok P1) {S : List (List Act)}
    (hS : S.map List.length = P1.levels.map Level.nConstraints)
    (h2 : P1.processActiveSet S = .ok P2) (h3 : P2.form nv' env' true = .ok P3)
    (hu : ∀ L ∈ P1.levels, ∀ ti ∈ L.tasks, ti.task.guessFn = none ∧ ∀ c d u, ti.task.formFn env' c = .ok (d, u) →
      u = true ∧ rows ({ c with data := d } : Ctr K) = rows ti.task.ctr) :
    P3.guessActiveSet = .ok S := by
  have f1 := hierarchy_forms h1
  have f3 := hierarchy_forms h3
  have hcnt : P3.counts = P3.levels.map Level.nConstraints := by
    unfold Hierarchy.form at h3
    obtain ⟨_, _, h⟩ := bind_eq_ok.mp h3
    obtain ⟨Ls, h1, h⟩ := bind_eq_ok.mp h
    cases h
    rfl
  have f2 : (S.zip P1.levels).mapM (fun (p : ActiveSetC × Level E K) => p.2.processActiveSet p.1) = .ok P2.levels := by
    unfold Hierarchy.processActiveSet at h2
    obtain ⟨_, _, h⟩ := bind_eq_ok.mp h2
    obtain ⟨Ls, h1, h⟩ := bind_eq_ok.mp h
    cases h
    exact h1
  have key : ∀ (l l1 l2 l3 : List (Level E K)) (S : List ActiveSetC), (∀ L ∈ l, Reachable L) →
      (∀ L ∈ l1, ∀ ti ∈ L.tasks, ti.task.guessFn = none ∧ ∀ c d u, ti.task.formFn env' c = .ok (d, u) →
        u = true ∧ rows ({ c with data := d } : Ctr K) = rows ti.task.ctr) →
      List.Forall₂ (fun L L' : Level E K => L.form nv env g = .ok L') l l1 →
      S.map List.length = l1.map Level.nConstraints →
      (S.zip l1).mapM (fun (p : ActiveSetC × Level E K) => p.2.processActiveSet p.1) = .ok l2 →
      List.Forall₂ (fun L L' : Level E K => L.form nv' env' true = .ok L') l2 l3 →
      (((l3.map Level.nConstraints).map ActiveSetC.init).zip l3).mapM
        (fun (p : ActiveSetC × Level E K) => p.2.guessActiveSet p.1) = .ok S := by
    intro l l1 l2 l3 S hr hu f1
    induction f1 generalizing l2 l3 S with
    | nil =>
      intro hS f2 f3
      cases S with
      | cons _ _ => simp at hS
      | nil => cases f2; cases f3; rfl
    | @cons a a1 l l1 ha _ ih =>
      intro hS f2 f3
      cases S with
      | nil => simp at hS
      | cons s S =>
        simp only [List.map_cons, List.cons.injEq] at hS
        rw [List.zip_cons_cons, List.mapM_cons] at f2
        obtain ⟨a2, g2, f2⟩ := bind_eq_ok.mp f2
        obtain ⟨l2', g3, f2⟩ := bind_eq_ok.mp f2
        cases f2
        cases f3 with
        | cons g4 f4 =>
          have ihr := ih _ _ _ (fun L hL => hr L (by simp [hL])) (fun L hL => hu L (by simp [hL])) hS.2 g3 f4
          have hlev := fun s0 => C13_roundtrip (s0 := s0) (hr a (by simp)) ha hS.1 g2 g4 (hu a1 (by simp))
          rw [List.map_cons, List.map_cons, List.zip_cons_cons, List.mapM_cons]
          rw [hlev _ (by simp [ActiveSetC.init]), ok_bind, ihr]; rfl
  unfold Hierarchy.guessActiveSet ActiveSetH.init
  rw [hcnt, require_true (by simp), ok_bind, List.take_of_length_le (by simp), pure_eq_ok, ok_bind]
  exact key _ _ _ _ _ hr hu f1 hS f2 f3

/-! ## C14 -/

/-- After forming, the guess of a task is empty or has one entry per row; a guess of any other size, be it a stale one or
one which a task produced, leads to an exception. -/
theorem C14_task (t : Task E K) (nv : ℕ) (env : E) (g : Bool) :
    (∀ t', t.formAll nv env g = .ok t' → t'.guess = [] ∨ t'.guess.length = rows t'.ctr) ∧
    (∀ t1 t2, (t.preForm nv).form env = .ok t1 → t1.guessIf env g = .ok t2 → t2.ctr.checkConsistency = .ok () →
      t2.guess ≠ [] → t2.guess.length ≠ rows t2.ctr → t.formAll nv env g = .error .thrown) := by
  refine ⟨fun t' h => ?_, fun t1 t2 h1 h2 h3 h4 h5 => ?_⟩
  · obtain ⟨_, _, _, h4⟩ := formAll_facts h
    rw [numRows_eq] at h4
    rcases h4 with h4 | h4
    · exact Or.inl (List.length_eq_zero_iff.mp h4)
    · exact Or.inr h4
  · unfold Task.formAll
    rw [h1, ok_bind, h2, ok_bind]
    unfold Task.postForm
    rw [h3, ok_bind, assertThat_false (by
      rw [numRows_eq, List.length_eq_zero_iff]
      exact fun h => h.elim h4 h5)]
    rfl

/-- With guessing enabled and without an override, the guess always has one entry per row: the previous actual active set
if the task did not change and there is one, otherwise `equality` or `inactive`. -/
theorem C14_default {t t' : Task E K} (hd : t.guessFn = none) {nv : ℕ} {env : E}
    (h : t.formAll nv env true = .ok t') :
    t'.guess.length = rows t'.ctr ∧
      (t'.guess = t.actual ∧ t'.modified = false ∨
        t'.guess = List.replicate (rows t'.ctr) (if t.ctr.ctype.isEquality then .equality else .inactive)) := by
  unfold Task.formAll at h
  obtain ⟨t1, e1, h⟩ := bind_eq_ok.mp h
  obtain ⟨t2, e2, h⟩ := bind_eq_ok.mp h
  obtain ⟨u, e3, h⟩ := bind_eq_ok.mp h
  cases h
  unfold Task.form at e1
  obtain ⟨⟨d, un⟩, f1, e1⟩ := bind_eq_ok.mp e1
  have hc : t1.ctr.ctype = t.ctr.ctype ∧ t1.actual = t.actual ∧ t1.guessFn = none := by
    cases e1; exact ⟨rfl, rfl, hd⟩
  obtain ⟨c1, c2, c3⟩ := hc
  simp only [Task.guessIf, if_true, Task.guessActiveSet, c3, Task.guessDefault] at e2
  by_cases hm : t1.modified = true ∨ t1.actual.length = 0
  · rw [if_pos hm] at e2
    by_cases he : t1.ctr.ctype.isEquality = true
    · rw [if_pos he] at e2
      cases e2
      simp only [ActiveSetC.initWith, List.length_replicate, numRows_eq, c1 ▸ he, if_true, true_and]
      exact Or.inr True.intro
    · rw [if_neg he] at e2
      cases e2
      simp only [ActiveSetC.initWith, List.length_replicate, numRows_eq, true_and]
      rw [c1] at he
      simp [he]
  · rw [if_neg hm] at e2
    obtain ⟨_, a1, e2⟩ := bind_eq_ok.mp e2
    cases e2
    have := assertThat_eq_ok a1
    refine ⟨?_, Or.inl ⟨c2, ?_⟩⟩
    · simp only; rw [← this, numRows_eq]
    · have : ¬ t1.modified = true := fun h => hm (Or.inl h)
      simpa using this

/-- Collecting of the guesses of a formed level never fails, never writes out of range and keeps the size; the rows of
each task get its guess, or keep the initial value if the guess is empty. -/
theorem C14_level {L L' : Level E K} (hr : Reachable L) {nv : ℕ} {env : E} {g : Bool}
    (h : L.form nv env g = .ok L') {s0 : List Act} (h0 : s0.length = L'.nConstraints) :
    ∃ s, L'.guessActiveSet s0 = .ok s ∧ s.length = L'.nConstraints ∧
      ∀ ti ∈ L'.tasks, ∀ i, i < rows ti.task.ctr →
        s[ti.loc.offset + i]? = if ti.task.guess = [] then s0[ti.loc.offset + i]? else ti.task.guess[i]? := by
  obtain ⟨hc, hn⟩ := form_consecutive hr h
  have hg : ∀ ti ∈ L'.tasks, ti.task.guess = [] ∨ ti.task.guess.length = rows ti.task.ctr := by
    intro ti hti
    have := ((form_facts h).2.1 ti hti).guess
    rw [numRows_eq] at this
    rcases this with h4 | h4
    · exact Or.inl (List.length_eq_zero_iff.mp h4)
    · exact Or.inr h4
  have key : ∀ (ts : List (TaskInfo E K)) (o : ℕ) (s0 : ActiveSetC), Consecutive o ts →
      (∀ ti ∈ ts, ti.task.guess = [] ∨ ti.task.guess.length = rows ti.task.ctr) → o + totalRows ts ≤ s0.length →
      ∃ s, ts.foldlM (fun s ti => ActiveSetC.copyTo s ti.loc ti.task.guess) s0 = .ok s ∧ s.length = s0.length ∧
        (∀ i, i < o → s[i]? = s0[i]?) ∧
        ∀ ti ∈ ts, ∀ i, i < rows ti.task.ctr →
          s[ti.loc.offset + i]? = if ti.task.guess = [] then s0[ti.loc.offset + i]? else ti.task.guess[i]? := by
    intro ts
    induction ts with
    | nil => intro o s0 _ _ _; exact ⟨s0, rfl, rfl, fun _ _ => rfl, by simp⟩
    | cons t ts ih =>
      intro o s0 hc hg hl
      have e : totalRows (t :: ts) = rows t.task.ctr + totalRows ts := by simp [totalRows]
      have hloc := hc.1
      have hgl : t.task.guess.length ≤ rows t.task.ctr := by
        rcases hg t (by simp) with h | h
        · rw [h]; simp
        · omega
      obtain ⟨s1, hcp⟩ : ∃ s1, copyInto s0 o t.task.guess = .ok s1 := ⟨_, copyInto_ok (by omega)⟩
      have hcopy : ActiveSetC.copyTo s0 t.loc t.task.guess = .ok s1 := by
        unfold ActiveSetC.copyTo
        rw [assertThat_true ((Location.checkLength_iff _ _).2 (by rw [hloc]; simp only; omega)), ok_bind, hloc]
        exact hcp
      have hl1 := copyInto_length hcp
      have hget := copyInto_get hcp
      obtain ⟨s, k1, k2, k3, k4⟩ := ih (o + rows t.task.ctr) s1 hc.2 (fun ti hti => hg ti (by simp [hti])) (by omega)
      refine ⟨s, by rw [List.foldlM_cons, hcopy, ok_bind, k1], by omega, ?_, ?_⟩
      · intro i hi
        rw [k3 i (by omega), hget, if_neg (by omega)]
      · intro ti hti i hi
        rcases List.mem_cons.mp hti with rfl | hti
        · rw [hloc]
          simp only
          rw [k3 _ (by omega), hget]
          rcases hg ti (by simp) with h | h
          · rw [if_pos h, h, if_neg (by simp)]
          · have hne : ti.task.guess ≠ [] := fun h' => by rw [h'] at h; simp at h; omega
            rw [if_neg hne, if_pos (by omega), Nat.add_sub_cancel_left]
        · rw [k4 ti hti i hi]
          have hb := (consecutive_loc hc.2 ti hti).2.1
          have hgi := hget (ti.loc.offset + i)
          rw [if_neg (by omega)] at hgi
          rw [hgi]
  obtain ⟨s, k1, k2, _, k4⟩ := key L'.tasks 0 s0 hc hg (by omega)
  exact ⟨s, k1, by omega, k4⟩

/-- The same for a hierarchy: the guess which is handed to a solver has one active set per level, each with one entry per
row of this level. -/
theorem C14_hierarchy {P P' : Hierarchy E K} {nv : ℕ} {env : E} {g : Bool} (h : P.form nv env g = .ok P')
    (hr : ∀ L ∈ P.levels, Reachable L) :
    ∃ s, P'.guessActiveSet = .ok s ∧ s.map List.length = P'.levels.map Level.nConstraints := by
  have hcnt : P'.counts = P'.levels.map Level.nConstraints := by
    unfold Hierarchy.form at h
    obtain ⟨_, _, h⟩ := bind_eq_ok.mp h
    obtain ⟨Ls, h1, h⟩ := bind_eq_ok.mp h
    cases h
    rfl
  have hlev : ∀ L ∈ P'.levels, ∃ s, L.guessActiveSet (ActiveSetC.init L.nConstraints) = .ok s ∧
      s.length = L.nConstraints := by
    intro L hL
    have hf : List.Forall₂ (fun L L' : Level E K => L.form nv env g = .ok L') P.levels P'.levels := by
      unfold Hierarchy.form at h
      obtain ⟨_, _, h⟩ := bind_eq_ok.mp h
      obtain ⟨Ls, h1, h⟩ := bind_eq_ok.mp h
      cases h
      exact mapM_ok h1
    have key : ∀ {l l' : List (Level E K)}, List.Forall₂ (fun L L' : Level E K => L.form nv env g = .ok L') l l' →
        (∀ L ∈ l, Reachable L) → L ∈ l' → ∃ L0, Reachable L0 ∧ L0.form nv env g = .ok L := by
      intro l l' hf
      induction hf with
      | nil => intro _ h; cases h
      | cons hab _ ih =>
        intro hr hm
        rcases List.mem_cons.mp hm with rfl | hm
        · exact ⟨_, hr _ (by simp), hab⟩
        · exact ih (fun L hL => hr L (by simp [hL])) hm
    obtain ⟨L0, hr0, h0⟩ := key hf hr hL
    obtain ⟨s, h1, h2, _⟩ := C14_level hr0 h0 (s0 := ActiveSetC.init L.nConstraints) (by simp [ActiveSetC.init])
    exact ⟨s, h1, h2⟩
  have key : ∀ l : List (Level E K), (∀ L ∈ l, ∃ s, L.guessActiveSet (ActiveSetC.init L.nConstraints) = .ok s ∧
      s.length = L.nConstraints) →
      ∃ s, (((l.map Level.nConstraints).map ActiveSetC.init).zip l).mapM
        (fun (p : ActiveSetC × Level E K) => p.2.guessActiveSet p.1) = .ok s ∧
        s.map List.length = l.map Level.nConstraints := by
    intro l
    induction l with
    | nil => intro _; exact ⟨[], rfl, rfl⟩
    | cons L l ih =>
      intro hl
      obtain ⟨s1, a1, a2⟩ := hl L (by simp)
      obtain ⟨s, b1, b2⟩ := ih fun L hL => hl L (by simp [hL])
      refine ⟨s1 :: s, ?_, by simp [a2, b2]⟩
      rw [List.map_cons, List.map_cons, List.zip_cons_cons, List.mapM_cons]
      simp only [a1, ok_bind, b1]; rfl
  obtain ⟨s, k1, k2⟩ := key P'.levels hlev
  refine ⟨s, ?_, k2⟩
  unfold Hierarchy.guessActiveSet ActiveSetH.init
  rw [hcnt, require_true (by simp), ok_bind, List.take_of_length_le (by simp), pure_eq_ok, ok_bind]
  exact k1

/-! ### The hypotheses are met -/

/-- A task which does not change after the first forming. -/
def exampleConstTask (c : Ctr ℚ) : Task Unit ℚ := ⟨c, true, [], [], fun _ c' => pure ({ c with nvars := c'.nvars }.data, true), none⟩

/-- Form, distribute, form again, collect. -/
example : (do
    let L1 ← ((Level.empty.pushTask (exampleConstTask exampleALU)).pushTask (exampleConstTask exampleIL)).form 2 () true
    let L2 ← L1.processActiveSet [.lowerBound, .upperBound, .inactive]
    let L3 ← L2.form 2 () true
    L3.guessActiveSet (ActiveSetC.init 3)) = .ok [.lowerBound, .upperBound, .inactive] := rfl

/-- A stale guess: the task has two rows when the guess is made, and one row later. -/
example : (exampleTask exampleIL).guess = [] ∧
    ({ exampleTask exampleIL with guess := [.inactive, .inactive] } : Task Unit ℚ).formAll 2 () false = .error .thrown :=
  ⟨rfl, rfl⟩

end Humoto
