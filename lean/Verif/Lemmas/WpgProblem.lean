import Verif.Spec.WpgProblem
import Verif.Props.WpgTasks
import Verif.Props.Guess

/-!
# Walking pattern generator: tasks of the optimization problem
-/

namespace Humoto.Wpg

open Spec Spec.Wpg

/-- The tasks of the problem. -/
inductive WalkTask
  | footsteps | cop | terminal | copVelocity | comVelocity | copPosition

/-- A new task. -/
noncomputable def WalkTask.make (o : ProblemSetup) : WalkTask → Task ProblemEnv ℝ
  | .footsteps => footstepsTask o
  | .cop => copTask
  | .terminal => terminalTask o
  | .copVelocity => copVelocityTask o
  | .comVelocity => comVelocityTask o
  | .copPosition => copPositionTask

/-- Tasks of the levels in the order in which they are processed. -/
def walkTasks (o : ProblemSetup) : List (List WalkTask) :=
  [if o.terminal then [.terminal, .footsteps, .cop] else [.footsteps, .cop], [.copVelocity, .comVelocity, .copPosition]]

/-- `t` is a task of the given kind, with additional conditions `Q`. -/
structure TaskOf (o : ProblemSetup) (z : ZeroVariables ℝ) (Q : WalkTask → Task ProblemEnv ℝ → Prop) (t : Task ProblemEnv ℝ)
    (k : WalkTask) : Prop where
  formFn : t.formFn = (k.make o).formFn
  guessFn : t.guessFn = (k.make o).guessFn
  ctype : t.ctr.ctype = (k.make o).ctr.ctype
  zero : k = .copPosition → ∃ ss : List SolutionStructure,
    (z, t.ctr.data) = afterOps (ZeroVariables.make o.copPositionGain copId, noData) (ss.map ZeroOp.form)
  kept : Q k t

/-- A problem with the expected tasks. -/
structure WalkProblem (o : ProblemSetup) (Q : WalkTask → Task ProblemEnv ℝ → Prop) (p : Problem) : Prop where
  reach : ∀ L ∈ p.hierarchy.levels, Reachable L
  shape : List.Forall₂ (fun (L : Level ProblemEnv ℝ) ks => List.Forall₂ (fun (ti : TaskInfo ProblemEnv ℝ) k => TaskOf o p.zero Q ti.task k)
    L.tasks ks) p.hierarchy.levels (walkTasks o)

/-- What the constraints of a task mean. -/
def TaskMeans (o : ProblemSetup) (H : Horizon) (model : Model) (c : Ctr ℝ) : WalkTask → Prop
  | .footsteps => rows c = 2 * H.variable_steps.length ∧ ∀ x, Satisfied c x ↔ if o.fixed then StepsFixed H x else StepsWithin H x
  | .cop => rows c = 2 * H.intervals.n ∧ ∀ x, Satisfied c x ↔ CopWithin H x
  | .terminal => TerminalTask H model o.terminalGain c
  | .copVelocity => CopVelocityTask H model o.copVelocityGain c
  | .comVelocity => ComVelocityTask H model o.comVelocityGain c
  | .copPosition => CopPositionTask H o.copPositionGain c

/-- Number of rows. -/
def taskRows (H : Horizon) : WalkTask → ℕ
  | .footsteps => 2 * H.variable_steps.length
  | .terminal => 2
  | _ => 2 * H.intervals.n

theorem taskMeans_rows {o : ProblemSetup} {H : Horizon} {model : Model} {c : Ctr ℝ} {k : WalkTask} (h : TaskMeans o H model c k) :
    rows c = taskRows H k := by
  cases k
  · exact h.1
  · exact h.1
  · exact TerminalTask.size h
  · exact CopVelocityTask.size h
  · exact ComVelocityTask.size h
  · exact CopPositionTask.size h

theorem zero_form_fst (z : ZeroVariables ℝ) (s : SolutionStructure) (d d' : CtrData ℝ) : (z.form s d).1 = (z.form s d').1 := by
  unfold ZeroVariables.form
  simp only
  split <;> rfl

section
variable {model : Model} {mpc : Mpc} {o : ProblemSetup} {Q : WalkTask → Task ProblemEnv ℝ → Prop} {z : ZeroVariables ℝ}
  {t : Task ProblemEnv ℝ} {k : WalkTask}

/-- The virtual function `form` of the tasks. -/
theorem task_forms (h : Ready model mpc) (hk : TaskOf o z Q t k) (junk : ℕ → ℕ → ℕ → ℝ) (junkI : ℕ → ℕ → ℕ) :
    ∃ d u, t.formFn ⟨TaskEnv.of model mpc, z, junk, junkI⟩ ⟨t.ctr.ctype, problemSize mpc, t.ctr.data⟩ = .ok (d, u) ∧
      WellFormed (⟨t.ctr.ctype, problemSize mpc, d⟩ : Ctr ℝ) ∧ TaskMeans o mpc.horizon model ⟨t.ctr.ctype, problemSize mpc, d⟩ k ∧
      (k = .copPosition → ∃ ss : List SolutionStructure, ((z.form (TaskEnv.of model mpc).structure_ noData).1, d) =
        afterOps (ZeroVariables.make o.copPositionGain copId, noData) (ss.map ZeroOp.form)) ∧
      (u = true → k = .copPosition) := by
  rw [hk.formFn, hk.ctype]
  cases k with
  | footsteps =>
    by_cases hf : o.fixed = true
    · obtain ⟨d, e, h1, h2, h3⟩ := C81_fixed h (junk 0) (junkI 0) t.ctr.data
      refine ⟨d, false, ?_, h1, ⟨h2, fun x => ?_⟩, fun e => (by cases e), fun e => (by cases e)⟩
      · show footstepBoundsForm (junk 0) (junkI 0) o.fixed _ _ >>= _ = _
        rw [hf, e]
        rfl
      · rw [if_pos hf]
        exact h3 x
    · obtain ⟨d, e, h1, h2, h3⟩ := C81_footsteps h (junk 0) (junkI 0) t.ctr.data
      refine ⟨d, false, ?_, h1, ⟨h2, fun x => ?_⟩, fun e => (by cases e), fun e => (by cases e)⟩
      · show footstepBoundsForm (junk 0) (junkI 0) o.fixed _ _ >>= _ = _
        rw [show o.fixed = false by simpa using hf, e]
        rfl
      · rw [if_neg hf]
        exact h3 x
  | cop =>
    obtain ⟨d, e, h1, h2, h3⟩ := C81_cop h (junk 1) (junkI 1) t.ctr.data
    refine ⟨d, false, ?_, h1, ⟨h2, h3⟩, fun e => (by cases e), fun e => (by cases e)⟩
    show copBoundsForm (junk 1) (junkI 1) _ _ >>= _ = _
    rw [e]
    rfl
  | terminal =>
    obtain ⟨d, e, h1, h2⟩ := C81_terminal h o.terminalGain t.ctr.data
    refine ⟨d, false, ?_, h1, h2, fun e => (by cases e), fun e => (by cases e)⟩
    show terminalForm _ _ _ >>= _ = _
    rw [e]
    rfl
  | copVelocity =>
    obtain ⟨d, e, h1, h2⟩ := C81_copVelocity h (junk 3) o.copVelocityGain t.ctr.data
    refine ⟨d, false, ?_, h1, h2, fun e => (by cases e), fun e => (by cases e)⟩
    show copVelocityForm (junk 3) _ _ _ >>= _ = _
    rw [e]
    rfl
  | comVelocity =>
    obtain ⟨d, e, h1, h2⟩ := C81_comVelocity h (junk 2 0) o.comVelocityGain t.ctr.data
    refine ⟨d, false, ?_, h1, h2, fun e => (by cases e), fun e => (by cases e)⟩
    show comVelocityForm (junk 2 0) _ _ _ >>= _ = _
    rw [e]
    rfl
  | copPosition =>
    obtain ⟨ss, hs⟩ := hk.zero rfl
    have hy : ((z.form (TaskEnv.of model mpc).structure_ t.ctr.data).1, (z.form (TaskEnv.of model mpc).structure_ t.ctr.data).2.1) =
        afterOps (ZeroVariables.make o.copPositionGain copId, noData) (ss.map ZeroOp.form ++ [.form (TaskEnv.of model mpc).structure_]) := by
      rw [afterOps_append, ← hs]
      rfl
    obtain ⟨h1, h2⟩ := C81_copPosition h ⟨rfl, rfl⟩ ss hy
    refine ⟨_, _, rfl, h1, h2, fun _ => ⟨ss ++ [(TaskEnv.of model mpc).structure_], ?_⟩, fun _ => rfl⟩
    rw [zero_form_fst z _ noData t.ctr.data, hy, List.map_append]
    rfl

/-- The active set which the task has seen last fits the new problem. -/
def ActualFits (o : ProblemSetup) (H : Horizon) (a : ActiveSetC) : WalkTask → Prop
  | .footsteps => o.fixed = true ∨ ∃ n, a.length = 2 * n ∧ n ≤ H.variable_steps.length + 1
  | .cop => a.length = 0 ∨ (a.length = 2 * H.intervals.n ∧ 2 ≤ H.intervals.n)
  | .copPosition => a.length = 0 ∨ a.length = 2 * H.intervals.n
  | _ => True

/-- The condition under which the guess of the task fits the new problem. -/
def GuessFits (o : ProblemSetup) (H : Horizon) (guessing : Bool) (k : WalkTask) (t : Task ProblemEnv ℝ) : Prop :=
  if guessing then ActualFits o H t.actual k else t.guess = []

theorem copyTo_length {n m : ℕ} {a : Act} {s : ActiveSetC} (hs : s.length = m) (hm : m ≤ n) :
    ∃ g, ActiveSetC.copyTo (ActiveSetC.initWith n a) ⟨0, s.length⟩ s = .ok g ∧ g.length = n := by
  have hn : (ActiveSetC.initWith n a).length = n := List.length_replicate
  refine ⟨s ++ (ActiveSetC.initWith n a).drop s.length, ?_, by rw [List.length_append, List.length_drop, hn]; omega⟩
  unfold ActiveSetC.copyTo
  rw [assertThat_true ((Location.checkLength_iff _ _).2 (by rw [hn]; simp only; omega)), ok_bind]
  unfold copyInto
  rw [if_pos (by rw [hn]; show 0 + _ ≤ _; omega)]
  show Except.ok ((ActiveSetC.initWith n a).take 0 ++ s ++ _) = _
  rw [List.take_zero, List.nil_append]
  show Except.ok (s ++ (ActiveSetC.initWith n a).drop (0 + s.length)) = _
  rw [Nat.zero_add]

theorem footstepsGuess_length (h : Ready model mpc) {a : ActiveSetC} (ha : ActualFits o mpc.horizon a .footsteps) :
    ∃ g, footstepBoundsGuess o.fixed (TaskEnv.of model mpc) a = .ok g ∧ g.length = 2 * mpc.horizon.variable_steps.length := by
  unfold footstepBoundsGuess
  rw [h.footpos]
  simp only
  by_cases hf : o.fixed = true
  · rw [if_pos hf]
    exact ⟨_, rfl, by rw [ActiveSetC.initWith, List.length_replicate, Nat.mul_comm]⟩
  · rw [if_neg hf]
    obtain ⟨n, hn, hle⟩ := ha.resolve_left hf
    by_cases h0 : a.length = 0
    · rw [if_pos h0]
      exact ⟨_, rfl, by rw [ActiveSetC.initWith, List.length_replicate, Nat.mul_comm]⟩
    rw [if_neg h0]
    by_cases h1 : a.length = mpc.horizon.variable_steps.length * 2
    · rw [if_pos h1]
      exact ⟨a, rfl, by omega⟩
    rw [if_neg h1]
    by_cases h2 : a.length > mpc.horizon.variable_steps.length * 2
    · rw [if_pos h2, C03_initFrom _ _ _ (by show 2 + (a.length - 2) ≤ _; omega)]
      refine ⟨_, rfl, ?_⟩
      rw [List.length_take, List.length_drop]
      show min (a.length - 2) (a.length - 2) = _
      omega
    · rw [if_neg h2]
      obtain ⟨g, e, hg⟩ := copyTo_length (n := mpc.horizon.variable_steps.length * 2) (a := .inactive) (s := a) rfl (by omega)
      exact ⟨g, e, by omega⟩

theorem copGuess_length (h : Ready model mpc) {a : ActiveSetC} (ha : ActualFits o mpc.horizon a .cop) :
    ∃ g, copBoundsGuess (TaskEnv.of model mpc) a = .ok g ∧ g.length = 2 * mpc.horizon.intervals.n := by
  unfold copBoundsGuess
  rw [h.cop]
  simp only
  by_cases h0 : a.length = 0
  · rw [if_pos h0]
    exact ⟨_, rfl, by rw [ActiveSetC.initWith, List.length_replicate, Nat.mul_comm]⟩
  · rw [if_neg h0]
    obtain ⟨h1, h2⟩ := ha.resolve_left h0
    rw [assertThat_true (show a.length = mpc.horizon.intervals.n * 2 by omega), ok_bind]
    unfold ActiveSetC.shift
    rw [assertThat_true (show 2 < a.length by omega), ok_bind]
    have hl : (a.drop 2 ++ a.take 2).length = a.length := by rw [List.length_append, List.length_drop, List.length_take]; omega
    unfold copyInto
    simp only [hl]
    rw [if_pos (by rw [List.length_replicate]; omega)]
    refine ⟨_, rfl, ?_⟩
    rw [List.length_append, List.length_append, List.length_take, List.length_drop, hl, List.length_replicate]
    omega

theorem guessActiveSet_none {E K : Type} [Zero K] {t : Task E K} (h : t.guessFn = none) (env : E) : t.guessActiveSet env = t.guessDefault := by
  unfold Task.guessActiveSet
  split
  · rfl
  · next hf => rw [h] at hf; cases hf

theorem guessActiveSet_some {E K : Type} [Zero K] {t : Task E K} {f : E → Ctr K → ActiveSetC → Res ActiveSetC} (h : t.guessFn = some f) {env : E}
    {g : ActiveSetC} (hg : f env t.ctr t.actual = .ok g) : t.guessActiveSet env = .ok { t with guess := g } := by
  unfold Task.guessActiveSet
  split
  · next hf => rw [h] at hf; cases hf
  · next f' hf =>
    rw [h] at hf
    cases hf
    rw [hg]
    rfl

theorem guessIf_ok {E K : Type} {t t' : Task E K} {env : E} {g : Bool} (h : t.guessIf env g = .ok t') :
    (∃ x, t' = { t with guess := x }) ∧ (g = false → t' = t) := by
  cases g with
  | false => cases h; exact ⟨⟨_, rfl⟩, fun _ => rfl⟩
  | true =>
    refine ⟨?_, fun e => (by cases e)⟩
    simp only [Task.guessIf, if_true] at h
    unfold Task.guessActiveSet at h
    split at h
    · unfold Task.guessDefault at h
      split at h
      · split at h <;> (cases h; exact ⟨_, rfl⟩)
      · obtain ⟨_, _, h⟩ := bind_eq_ok.mp h
        cases h; exact ⟨_, rfl⟩
    · obtain ⟨_, _, h⟩ := bind_eq_ok.mp h
      cases h; exact ⟨_, rfl⟩

/-- The task after the virtual function `form`. -/
structure AfterForm (o : ProblemSetup) (model : Model) (mpc : Mpc) (z : ZeroVariables ℝ) (t t1 : Task ProblemEnv ℝ) (k : WalkTask) : Prop where
  ctype : t1.ctr.ctype = t.ctr.ctype
  nvars : t1.ctr.nvars = problemSize mpc
  formFn : t1.formFn = t.formFn
  guessFn : t1.guessFn = t.guessFn
  guess : t1.guess = t.guess
  actual : t1.actual = t.actual
  modified : k ≠ .copPosition → t1.modified = true
  wf : WellFormed t1.ctr
  means : TaskMeans o mpc.horizon model t1.ctr k
  zero : k = .copPosition → ∃ ss : List SolutionStructure, ((z.form (TaskEnv.of model mpc).structure_ noData).1, t1.ctr.data) =
    afterOps (ZeroVariables.make o.copPositionGain copId, noData) (ss.map ZeroOp.form)

theorem task_form (h : Ready model mpc) (hk : TaskOf o z Q t k) (junk : ℕ → ℕ → ℕ → ℝ) (junkI : ℕ → ℕ → ℕ) :
    ∃ t1, (t.preForm (problemSize mpc)).form ⟨TaskEnv.of model mpc, z, junk, junkI⟩ = .ok t1 ∧ AfterForm o model mpc z t t1 k := by
  obtain ⟨d, u, e, h1, h2, h3, h4⟩ := task_forms h hk junk junkI
  refine ⟨{ t with ctr := ⟨t.ctr.ctype, problemSize mpc, d⟩, modified := if u then false else true }, ?_, rfl, rfl, rfl, rfl, rfl, rfl,
    fun hne => ?_, h1, h2, h3⟩
  · unfold Task.form
    show t.formFn _ ⟨t.ctr.ctype, problemSize mpc, t.ctr.data⟩ >>= _ = _
    rw [e]
    rfl
  · cases u with
    | false => rfl
    | true => exact absurd (h4 rfl) hne

/-- What is known about a formed task. -/
structure FormedWalkTask (o : ProblemSetup) (model : Model) (mpc : Mpc) (guessing : Bool) (old : Task ProblemEnv ℝ) (t : Task ProblemEnv ℝ)
    (k : WalkTask) : Prop where
  wf : WellFormed t.ctr
  means : TaskMeans o mpc.horizon model t.ctr k
  nvars : t.ctr.nvars = problemSize mpc
  guess : guessing = false → t.guess = old.guess
  actual : t.actual = old.actual

/-- Whatever the guesses are, a task which was formed has its meaning. -/
theorem task_formed (h : Ready model mpc) (hk : TaskOf o z Q t k) {junk : ℕ → ℕ → ℕ → ℝ} {junkI : ℕ → ℕ → ℕ} {guessing : Bool}
    {t' : Task ProblemEnv ℝ} (e : t.formAll (problemSize mpc) ⟨TaskEnv.of model mpc, z, junk, junkI⟩ guessing = .ok t') :
    TaskOf o (z.form (TaskEnv.of model mpc).structure_ noData).1
      (fun k t' => ∃ t, Q k t ∧ FormedWalkTask o model mpc guessing t t' k) t' k := by
  obtain ⟨t1, et, hf⟩ := task_form h hk junk junkI
  unfold Task.formAll at e
  rw [et, ok_bind] at e
  obtain ⟨t2, e2, e⟩ := bind_eq_ok.1 e
  obtain ⟨_, _, e⟩ := bind_eq_ok.1 e
  cases e
  obtain ⟨⟨x, hx⟩, hx'⟩ := guessIf_ok e2
  have hc : t'.ctr = t1.ctr := by rw [hx]
  refine ⟨?_, ?_, ?_, ?_, t, hk.kept, ?_, ?_, ?_, fun e => ?_, ?_⟩
  · rw [hx]; exact hf.formFn.trans hk.formFn
  · rw [hx]; exact hf.guessFn.trans hk.guessFn
  · rw [hx]; exact hf.ctype.trans hk.ctype
  · rw [hc]; exact hf.zero
  · rw [hc]; exact hf.wf
  · rw [hc]; exact hf.means
  · rw [hc]; exact hf.nvars
  · rw [hx' e]; exact hf.guess
  · rw [hx]; exact hf.actual

/-- The task can be formed if its guess fits. -/
theorem task_formAll (h : Ready model mpc) (hk : TaskOf o z Q t k) (junk : ℕ → ℕ → ℕ → ℝ) (junkI : ℕ → ℕ → ℕ) {guessing : Bool}
    (hg : GuessFits o mpc.horizon guessing k t) :
    ∃ t', t.formAll (problemSize mpc) ⟨TaskEnv.of model mpc, z, junk, junkI⟩ guessing = .ok t' ∧
      (guessing = true → t'.guess.length = rows t'.ctr) := by
  obtain ⟨t1, et, hf⟩ := task_form h hk junk junkI
  have hr : rows t1.ctr = taskRows mpc.horizon k := taskMeans_rows hf.means
  -- the guess
  obtain ⟨g, eg, hgl⟩ : ∃ g : ActiveSetC, t1.guessIf ⟨TaskEnv.of model mpc, z, junk, junkI⟩ guessing = .ok { t1 with guess := g } ∧
      if guessing then g.length = rows t1.ctr else g = [] := by
    cases guessing with
    | false => exact ⟨t1.guess, rfl, by rw [if_neg (by decide), hf.guess]; exact hg⟩
    | true =>
      have hg : ActualFits o mpc.horizon t.actual k := hg
      show ∃ g : ActiveSetC, t1.guessActiveSet _ = _ ∧ g.length = rows t1.ctr
      rw [hr]
      have hdef : ∀ (hd : t1.modified = true ∨ t1.actual.length = 0 ∨ t1.actual.length = rows t1.ctr),
          ∃ g, t1.guessDefault = .ok { t1 with guess := g } ∧ g.length = taskRows mpc.horizon k := by
        intro hd
        unfold Task.guessDefault
        by_cases hm : t1.modified = true ∨ t1.actual.length = 0
        · rw [if_pos hm, numRows_eq, hr]
          split
          · exact ⟨_, rfl, List.length_replicate⟩
          · exact ⟨_, rfl, List.length_replicate⟩
        · rw [if_neg hm]
          have e : t1.actual.length = rows t1.ctr := by
            rcases hd with a | a | a
            · exact absurd (Or.inl a) hm
            · exact absurd (Or.inr a) hm
            · exact a
          rw [numRows_eq, assertThat_true e.symm]
          exact ⟨t1.actual, rfl, e.trans hr⟩
      have hu := hf.modified
      cases k with
      | footsteps =>
        obtain ⟨g, eg, hl⟩ := footstepsGuess_length h hg
        exact ⟨g, guessActiveSet_some (hf.guessFn.trans hk.guessFn) (by rw [hf.actual]; exact eg), hl⟩
      | cop =>
        obtain ⟨g, eg, hl⟩ := copGuess_length (o := o) h hg
        exact ⟨g, guessActiveSet_some (hf.guessFn.trans hk.guessFn) (by rw [hf.actual]; exact eg), hl⟩
      | terminal =>
        rw [guessActiveSet_none (hf.guessFn.trans hk.guessFn)]
        exact hdef (.inl (hu (by intro e; cases e)))
      | copVelocity =>
        rw [guessActiveSet_none (hf.guessFn.trans hk.guessFn)]
        exact hdef (.inl (hu (by intro e; cases e)))
      | comVelocity =>
        rw [guessActiveSet_none (hf.guessFn.trans hk.guessFn)]
        exact hdef (.inl (hu (by intro e; cases e)))
      | copPosition =>
        rw [guessActiveSet_none (hf.guessFn.trans hk.guessFn)]
        refine hdef (.inr ?_)
        rw [hf.actual, hr]
        exact hg
  refine ⟨{ t1 with guess := g }, ?_, fun e => by rw [if_pos e] at hgl; exact hgl⟩
  unfold Task.formAll
  rw [et, ok_bind, eg, ok_bind]
  unfold Task.postForm
  rw [checkConsistency_of_wellFormed _ (show WellFormed t1.ctr from hf.wf), ok_bind, numRows_eq]
  show (assertThat (g.length = 0 ∨ g.length = rows t1.ctr) >>= _) = _
  rw [assertThat_true ?_, ok_bind]
  · rfl
  · cases guessing with
    | false => exact Or.inl (by rw [show g = [] from hgl]; rfl)
    | true => exact Or.inr hgl

/-- The task on footsteps cannot be formed when the number of steps has decreased by more than one. -/
theorem footsteps_throws (h : Ready model mpc) (hk : TaskOf o z Q t .footsteps) (junk : ℕ → ℕ → ℕ → ℝ) (junkI : ℕ → ℕ → ℕ)
    (hfix : o.fixed = false) {n : ℕ} (ha : t.actual.length = 2 * n) (hn : mpc.horizon.variable_steps.length + 1 < n) :
    t.formAll (problemSize mpc) ⟨TaskEnv.of model mpc, z, junk, junkI⟩ true = .error .thrown := by
  obtain ⟨t1, et, hf⟩ := task_form h hk junk junkI
  have hr : rows t1.ctr = 2 * mpc.horizon.variable_steps.length := taskMeans_rows hf.means
  have eg : footstepBoundsGuess o.fixed (TaskEnv.of model mpc) t1.actual = .ok ((t.actual.drop 2).take (t.actual.length - 2)) := by
    unfold footstepBoundsGuess
    rw [h.footpos, hfix, hf.actual]
    simp only
    rw [if_neg (by decide), if_neg (by omega), if_neg (by omega), if_pos (by omega), C03_initFrom _ _ _ (by
      show 2 + (t.actual.length - 2) ≤ _; omega)]
  have e2 : t1.guessIf ⟨TaskEnv.of model mpc, z, junk, junkI⟩ true = .ok { t1 with guess := (t.actual.drop 2).take (t.actual.length - 2) } :=
    guessActiveSet_some (hf.guessFn.trans hk.guessFn) eg
  unfold Task.formAll
  rw [et, ok_bind, e2, ok_bind]
  unfold Task.postForm
  rw [checkConsistency_of_wellFormed _ (show WellFormed t1.ctr from hf.wf), ok_bind, numRows_eq]
  show (assertThat (((t.actual.drop 2).take (t.actual.length - 2)).length = 0 ∨ _ = rows t1.ctr) >>= _) = _
  rw [assertThat_false ?_]
  · rfl
  · rw [hr, List.length_take, List.length_drop]
    omega

end

end Humoto.Wpg
