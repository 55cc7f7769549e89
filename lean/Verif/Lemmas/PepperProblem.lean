import Verif.Spec.PepperProblem
import Verif.Props.PepperTasks
import Verif.Lemmas.Shape

/-!
# Pepper: tasks of the optimization problem
-/

namespace Humoto.Pepper

open Spec

variable {K : Type} [Field K] [LinearOrder K] [IsStrictOrderedRing K]

/-- The tasks of the problem. -/
inductive PepperTask
  | acceleration | cop | body | velocity | copCentering | baseJerk | reference | bodyJerk
  deriving DecidableEq

/-- A new task. -/
def PepperTask.make (o : ProblemSetup K) : PepperTask → Task (ProblemEnv K) K
  | .acceleration => accelerationBoundsTask
  | .cop => copBoundsTask
  | .body => bodyBoundsTask
  | .velocity => velocityBoundsTask
  | .copCentering => copCenteringTask o
  | .baseJerk => baseJerkTask o
  | .reference => if o.mode = .maintainPosition then basePositionTask o else baseVelocityTask o
  | .bodyJerk => bodyJerkTask

/-- Tasks of the levels in the order in which they are processed. -/
def pepperTasks : List (List PepperTask) :=
  [[.acceleration, .cop, .body, .velocity], [.copCentering, .baseJerk, .reference, .bodyJerk]]

/-- The task makes its own guesses. -/
def PepperTask.isBounds : PepperTask → Bool
  | .acceleration | .cop | .body | .velocity => true
  | _ => false

/-- `t` is a task of the given kind, with additional conditions `Q`. -/
structure TaskOf (o : ProblemSetup K) (z : ZeroVariables K) (Q : PepperTask → Task (ProblemEnv K) K → Prop) (t : Task (ProblemEnv K) K)
    (k : PepperTask) : Prop where
  formFn : t.formFn = (k.make o).formFn
  guessFn : t.guessFn = (k.make o).guessFn
  ctype : t.ctr.ctype = (k.make o).ctr.ctype
  zero : k = .bodyJerk → ZeroReady o.bodyJerkGain z t.ctr.data
  kept : Q k t

/-- What the constraints of a task mean. -/
def TaskMeans (o : ProblemSetup K) (ivs : List (Interval K)) (x0 : Vec K) (c : Ctr K) : PepperTask → Prop
  | .acceleration => RestrictsMotion ivs x0 c accelerationQuantity Interval.nominal_base_acceleration_bounds
  | .cop => RestrictsMotion ivs x0 c copQuantity Interval.cop_bounds
  | .body => RestrictsMotion ivs x0 c bodyQuantity Interval.body_bounds
  | .velocity => RestrictsMotion ivs x0 c velocityQuantity Interval.nominal_base_velocity_bounds
  | .copCentering => MinimisesMotion ivs x0 c o.copGain copQuantity
  | .baseJerk => MinimisesMotion ivs x0 c o.baseJerkGain baseJerkQuantity
  | .reference => if o.mode = .maintainPosition then MinimisesMotion ivs x0 c o.positionGain positionErrorQuantity
      else MinimisesMotion ivs x0 c o.velocityGain velocityErrorQuantity
  | .bodyJerk => MinimisesMotion ivs x0 c o.bodyJerkGain bodyJerkQuantity

/-- What is needed of a controller. -/
structure PepperReady (mpc : Mpc K) (x0 : Vec K) : Prop where
  consistent : Consistent mpc x0
  sane : SaneIntervals mpc.intervals
  symmetric : SymmetricBodyBounds mpc.intervals

section
variable {mpc : Mpc K} {x0 : Vec K} {o : ProblemSetup K} {Q : PepperTask → Task (ProblemEnv K) K → Prop} {z : ZeroVariables K}
  {t : Task (ProblemEnv K) K} {k : PepperTask}

/-- The virtual function `form` of the tasks. -/
theorem task_forms (h : PepperReady mpc x0) (hk : TaskOf o z Q t k) (junk : ℕ → ℕ → ℕ → K) (junkI : ℕ → ℕ → ℕ) :
    ∃ d u, t.formFn ⟨TaskEnv.of mpc, z, junk, junkI⟩ ⟨t.ctr.ctype, (TaskEnv.of mpc).structure_.nvars, t.ctr.data⟩ = .ok (d, u) ∧
      MotionTask mpc.intervals.length t.ctr.ctype (formedCtr mpc t.ctr.ctype d) ∧
      TaskMeans o mpc.intervals x0 (formedCtr mpc t.ctr.ctype d) k ∧
      (k = .bodyJerk → ZeroReady o.bodyJerkGain (z.form (TaskEnv.of mpc).structure_ noData).1 d) ∧
      (u = true → k = .bodyJerk) := by
  obtain ⟨hc, hs, hsym⟩ := h
  rw [hk.formFn, hk.ctype]
  cases k with
  | acceleration =>
    obtain ⟨d, e, h1, h2⟩ := C85_accelerationBounds hc hs.nonempty (junk 3) t.ctr.data
    refine ⟨d, false, ?_, h1, h2, fun e => (by cases e), fun e => (by cases e)⟩
    show accelerationBoundsForm _ _ _ >>= _ = _
    rw [e]
    rfl
  | cop =>
    obtain ⟨d, e, h1, h2⟩ := C85_copBounds hc hs (junk 2) t.ctr.data
    refine ⟨d, false, ?_, h1, h2, fun e => (by cases e), fun e => (by cases e)⟩
    show copBoundsForm _ _ _ >>= _ = _
    rw [e]
    rfl
  | body =>
    obtain ⟨d, e, h1, h2⟩ := C85_bodyBounds_partial hc hs.nonempty hsym (junk 1) t.ctr.data
    refine ⟨d, false, ?_, h1, h2, fun e => (by cases e), fun e => (by cases e)⟩
    show bodyBoundsForm _ _ _ >>= _ = _
    rw [e]
    rfl
  | velocity =>
    obtain ⟨d, e, h1, h2⟩ := C85_velocityBounds hc (junk 0) (junkI 0) t.ctr.data
    refine ⟨d, false, ?_, h1, h2, fun e => (by cases e), fun e => (by cases e)⟩
    show velocityBoundsForm _ _ _ _ >>= _ = _
    rw [e]
    rfl
  | copCentering =>
    obtain ⟨d, e, h1, h2⟩ := C85_copCentering hc hs o.copGain t.ctr.data
    refine ⟨d, false, ?_, h1, h2, fun e => (by cases e), fun e => (by cases e)⟩
    show copCenteringForm _ _ _ >>= _ = _
    rw [e]
    rfl
  | baseJerk =>
    obtain ⟨d, e, h1, h2⟩ := C85_baseJerk hc hs o.baseJerkGain t.ctr.data
    refine ⟨d, false, ?_, h1, h2, fun e => (by cases e), fun e => (by cases e)⟩
    show baseJerkForm _ _ _ >>= _ = _
    rw [e]
    rfl
  | reference =>
    unfold PepperTask.make TaskMeans
    simp only
    by_cases hm : o.mode = .maintainPosition
    · simp only [if_pos hm]
      obtain ⟨d, e, h1, h2⟩ := C85_basePosition hc hs.nonempty (junk 4 0) o.positionGain t.ctr.data
      refine ⟨d, false, ?_, h1, h2, fun e => (by cases e), fun e => (by cases e)⟩
      show basePositionForm _ _ _ _ >>= _ = _
      rw [e]
      rfl
    · simp only [if_neg hm]
      obtain ⟨d, e, h1, h2⟩ := C85_baseVelocity hc (junk 4 0) (junkI 1) o.velocityGain t.ctr.data
      refine ⟨d, false, ?_, h1, h2, fun e => (by cases e), fun e => (by cases e)⟩
      show baseVelocityForm _ _ _ _ _ >>= _ = _
      rw [e]
      rfl
  | bodyJerk =>
    have hz := zeroReady_form (hk.zero rfl) (TaskEnv.of mpc).structure_
    obtain ⟨h1, h2⟩ := bodyJerk_ready hc hs hz.1 hz.2
    refine ⟨_, _, rfl, h1, h2, fun _ => ?_, fun _ => rfl⟩
    rw [zero_form_members z _ noData t.ctr.data]
    exact hz.1

/-- The active set which the task has seen last fits the new problem. -/
def ActualFits (mpc : Mpc K) (a : ActiveSetC) (k : PepperTask) : Prop :=
  a.length = 0 ∨ (a.length = 2 * mpc.intervals.length ∧
    (k.isBounds = true → 1 < mpc.intervals.length ∨ mpc.parameters.subsampling_time_ms < mpc.parameters.sampling_time_ms))

/-- The condition under which the guess of the task fits the new problem. -/
def GuessFits (mpc : Mpc K) (guessing : Bool) (k : PepperTask) (t : Task (ProblemEnv K) K) : Prop :=
  if guessing then ActualFits mpc t.actual k else t.guess = []

theorem boundsGuess_length {a : ActiveSetC} {k : PepperTask} (hk : k.isBounds = true) (ha : ActualFits mpc a k) {c : Ctr K}
    (hc : rows c = 2 * mpc.intervals.length) : ∃ g, boundsGuess (TaskEnv.of mpc) c a = .ok g ∧ g.length = 2 * mpc.intervals.length := by
  by_cases hT : mpc.parameters.subsampling_time_ms < mpc.parameters.sampling_time_ms
  · exact ⟨_, C85_guess_reset mpc hT c a, by rw [List.length_replicate, hc]⟩
  · rcases ha with ha | ⟨ha, hN⟩
    · rw [boundsGuess_shift (by omega), if_pos ha]
      exact ⟨_, rfl, by simp [ActiveSetC.initWith, Nat.mul_comm]⟩
    · obtain ⟨g, h1, h2, -⟩ := C85_guess mpc (by omega) ((hN hk).resolve_right hT) c a (.inr ha)
      exact ⟨g, h1, h2⟩

/-- The task after the virtual function `form`. -/
structure AfterForm (o : ProblemSetup K) (mpc : Mpc K) (x0 : Vec K) (z : ZeroVariables K) (t t1 : Task (ProblemEnv K) K) (k : PepperTask) :
    Prop where
  formFn : t1.formFn = t.formFn
  guessFn : t1.guessFn = t.guessFn
  guess : t1.guess = t.guess
  actual : t1.actual = t.actual
  modified : k ≠ .bodyJerk → t1.modified = true
  motion : MotionTask mpc.intervals.length t.ctr.ctype t1.ctr
  means : TaskMeans o mpc.intervals x0 t1.ctr k
  zero : k = .bodyJerk → ZeroReady o.bodyJerkGain (z.form (TaskEnv.of mpc).structure_ noData).1 t1.ctr.data

theorem task_form (h : PepperReady mpc x0) (hk : TaskOf o z Q t k) (junk : ℕ → ℕ → ℕ → K) (junkI : ℕ → ℕ → ℕ) :
    ∃ t1, (t.preForm (TaskEnv.of mpc).structure_.nvars).form ⟨TaskEnv.of mpc, z, junk, junkI⟩ = .ok t1 ∧ AfterForm o mpc x0 z t t1 k := by
  obtain ⟨d, u, e, h1, h2, h3, h4⟩ := task_forms h hk junk junkI
  refine ⟨{ t with ctr := formedCtr mpc t.ctr.ctype d, modified := if u then false else true }, ?_, rfl, rfl, rfl, rfl,
    fun hne => ?_, h1, h2, h3⟩
  · unfold Task.form
    show t.formFn _ ⟨t.ctr.ctype, (TaskEnv.of mpc).structure_.nvars, t.ctr.data⟩ >>= _ = _
    rw [e]
    rfl
  · cases u with
    | false => rfl
    | true => exact absurd (h4 rfl) hne

/-- What is known about a formed task. -/
structure FormedPepperTask (o : ProblemSetup K) (mpc : Mpc K) (x0 : Vec K) (guessing : Bool) (old t : Task (ProblemEnv K) K)
    (k : PepperTask) : Prop where
  motion : MotionTask mpc.intervals.length (k.make o).ctr.ctype t.ctr
  means : TaskMeans o mpc.intervals x0 t.ctr k
  guess : guessing = false → t.guess = old.guess
  actual : t.actual = old.actual

/-- Whatever the guesses are, a task which was formed has its meaning. -/
theorem task_formed (h : PepperReady mpc x0) (hk : TaskOf o z Q t k) {junk : ℕ → ℕ → ℕ → K} {junkI : ℕ → ℕ → ℕ} {guessing : Bool}
    {t' : Task (ProblemEnv K) K} (e : t.formAll (TaskEnv.of mpc).structure_.nvars ⟨TaskEnv.of mpc, z, junk, junkI⟩ guessing = .ok t') :
    TaskOf o (z.form (TaskEnv.of mpc).structure_ noData).1
      (fun k t' => ∃ t, Q k t ∧ FormedPepperTask o mpc x0 guessing t t' k) t' k := by
  obtain ⟨t1, et, hf⟩ := task_form h hk junk junkI
  unfold Task.formAll at e
  rw [et, ok_bind] at e
  obtain ⟨t2, e2, e⟩ := bind_eq_ok.1 e
  obtain ⟨_, _, e⟩ := bind_eq_ok.1 e
  cases e
  obtain ⟨⟨x, hx⟩, hx'⟩ := Wpg.guessIf_ok e2
  have hc : t'.ctr = t1.ctr := by rw [hx]
  refine ⟨?_, ?_, ?_, ?_, t, hk.kept, ?_, ?_, fun e => ?_, ?_⟩
  · rw [hx]; exact hf.formFn.trans hk.formFn
  · rw [hx]; exact hf.guessFn.trans hk.guessFn
  · rw [hx]; exact hf.motion.ctype.trans hk.ctype
  · rw [hc]; exact hf.zero
  · rw [hc, ← hk.ctype]; exact hf.motion
  · rw [hc]; exact hf.means
  · rw [hx' e]; exact hf.guess
  · rw [hx]; exact hf.actual

/-- The task can be formed if its guess fits. -/
theorem task_formAll (h : PepperReady mpc x0) (hk : TaskOf o z Q t k) (junk : ℕ → ℕ → ℕ → K) (junkI : ℕ → ℕ → ℕ) {guessing : Bool}
    (hg : GuessFits mpc guessing k t) :
    ∃ t', t.formAll (TaskEnv.of mpc).structure_.nvars ⟨TaskEnv.of mpc, z, junk, junkI⟩ guessing = .ok t' ∧
      (guessing = true → t'.guess.length = rows t'.ctr) := by
  obtain ⟨t1, et, hf⟩ := task_form h hk junk junkI
  have hr : rows t1.ctr = 2 * mpc.intervals.length := hf.motion.rows
  obtain ⟨g, eg, hgl⟩ : ∃ g : ActiveSetC, t1.guessIf ⟨TaskEnv.of mpc, z, junk, junkI⟩ guessing = .ok { t1 with guess := g } ∧
      if guessing then g.length = rows t1.ctr else g = [] := by
    cases guessing with
    | false => exact ⟨t1.guess, rfl, by rw [if_neg (by decide), hf.guess]; exact hg⟩
    | true =>
      have hg : ActualFits mpc t.actual k := hg
      show ∃ g : ActiveSetC, t1.guessActiveSet _ = _ ∧ g.length = rows t1.ctr
      by_cases hb : k.isBounds = true
      · obtain ⟨g, e, hl⟩ := boundsGuess_length hb hg hr
        have hfn : (k.make o).guessFn = some fun e c a => boundsGuess e.task c a := by
          cases k <;> first | rfl | cases hb
        refine ⟨g, Wpg.guessActiveSet_some ((hf.guessFn.trans hk.guessFn).trans hfn) (by rw [hf.actual]; exact e), hl.trans hr.symm⟩
      · have hfn : (k.make o).guessFn = none := by
          cases k with
          | reference =>
            show (if o.mode = .maintainPosition then basePositionTask o else baseVelocityTask o).guessFn = none
            split <;> rfl
          | copCentering => rfl
          | baseJerk => rfl
          | bodyJerk => rfl
          | acceleration => exact absurd rfl hb
          | cop => exact absurd rfl hb
          | body => exact absurd rfl hb
          | velocity => exact absurd rfl hb
        rw [Wpg.guessActiveSet_none ((hf.guessFn.trans hk.guessFn).trans hfn), hr]
        have hd : t1.actual.length = 0 ∨ t1.actual.length = rows t1.ctr := by
          rw [hf.actual, hr]
          exact hg.imp id fun h => h.1
        unfold Task.guessDefault
        by_cases hm : t1.modified = true ∨ t1.actual.length = 0
        · rw [if_pos hm, numRows_eq, hr]
          split
          · exact ⟨_, rfl, List.length_replicate⟩
          · exact ⟨_, rfl, List.length_replicate⟩
        · rw [if_neg hm]
          have e : t1.actual.length = rows t1.ctr := hd.resolve_left fun a => hm (.inr a)
          rw [numRows_eq, assertThat_true e.symm]
          exact ⟨t1.actual, rfl, e.trans hr⟩
  refine ⟨{ t1 with guess := g }, ?_, fun e => by rw [if_pos e] at hgl; exact hgl⟩
  unfold Task.formAll
  rw [et, ok_bind, eg, ok_bind]
  unfold Task.postForm
  rw [checkConsistency_of_wellFormed _ (show WellFormed t1.ctr from hf.motion.wellFormed), ok_bind, numRows_eq]
  show (assertThat (g.length = 0 ∨ g.length = rows t1.ctr) >>= _) = _
  rw [assertThat_true ?_, ok_bind]
  · rfl
  · cases guessing with
    | false => exact Or.inl (by rw [show g = [] from hgl]; rfl)
    | true => exact Or.inr hgl

/-- With a horizon of one interval a bounds task which has an active set cannot be formed with a guess. -/
theorem bounds_throws (h : PepperReady mpc x0) (hk : TaskOf o z Q t k) (junk : ℕ → ℕ → ℕ → K) (junkI : ℕ → ℕ → ℕ)
    (hb : k.isBounds = true) (ha : t.actual.length ≠ 0) (hN : mpc.intervals.length = 1)
    (hT : mpc.parameters.sampling_time_ms ≤ mpc.parameters.subsampling_time_ms) :
    t.formAll (TaskEnv.of mpc).structure_.nvars ⟨TaskEnv.of mpc, z, junk, junkI⟩ true = .error .thrown := by
  obtain ⟨t1, et, hf⟩ := task_form h hk junk junkI
  have hfn : t1.guessFn = some fun e c a => boundsGuess e.task c a := by
    rw [hf.guessFn, hk.guessFn]
    cases k <;> first | rfl | cases hb
  unfold Task.formAll
  rw [et, ok_bind]
  have e : t1.guessIf ⟨TaskEnv.of mpc, z, junk, junkI⟩ true = .error .thrown := by
    show t1.guessActiveSet _ = _
    unfold Task.guessActiveSet
    split
    · next hn => rw [hfn] at hn; cases hn
    · next f hs =>
      rw [hfn] at hs
      cases hs
      show boundsGuess (TaskEnv.of mpc) t1.ctr t1.actual >>= _ = _
      rw [C85_guess_throws mpc hT hN _ _ (by rw [hf.actual]; exact ha)]
      rfl
  rw [e]
  rfl

end

/-! ### The problem -/

/-- A problem with the expected tasks. -/
def PepperShaped (o : ProblemSetup K) (Q : PepperTask → Task (ProblemEnv K) K → Prop) (p : Problem K) : Prop :=
  Shaped (TaskOf o p.zero Q) p.hierarchy pepperTasks

theorem PepperShaped.mono {o : ProblemSetup K} {Q Q' : PepperTask → Task (ProblemEnv K) K → Prop} {p : Problem K}
    (h : ∀ k t, Q k t → Q' k t) (hp : PepperShaped o Q p) : PepperShaped o Q' p :=
  Shaped.mono (fun _ _ h' => ⟨h'.formFn, h'.guessFn, h'.ctype, h'.zero, h _ _ h'.kept⟩) hp

section
variable {mpc : Mpc K} {x0 : Vec K} {o : ProblemSetup K} {Q : PepperTask → Task (ProblemEnv K) K → Prop} {p p' : Problem K}

theorem pepper_formed (h : PepperReady mpc x0) (hp : PepperShaped o Q p) {junk : ℕ → ℕ → ℕ → K} {junkI : ℕ → ℕ → ℕ} {guessing : Bool}
    (e : p.form junk junkI guessing mpc = .ok p') :
    PepperShaped o (fun k t' => ∃ t, Q k t ∧ FormedPepperTask o mpc x0 guessing t t' k) p' ∧
    p.hierarchy.form (TaskEnv.of mpc).structure_.nvars ⟨TaskEnv.of mpc, p.zero, junk, junkI⟩ guessing = .ok p'.hierarchy := by
  unfold Problem.form at e
  obtain ⟨P, e1, e⟩ := bind_eq_ok.1 e
  cases e
  exact ⟨shaped_formed hp (fun t k t' hk e => task_formed h hk e) e1, e1⟩

theorem pepper_form (h : PepperReady mpc x0) (hp : PepperShaped o Q p) (junk : ℕ → ℕ → ℕ → K) (junkI : ℕ → ℕ → ℕ) {guessing : Bool}
    (hg : ∀ k t, Q k t → GuessFits mpc guessing k t) : ∃ p', p.form junk junkI guessing mpc = .ok p' := by
  have hpos : ∀ (k : PepperTask) (t t' : Task (ProblemEnv K) K), TaskOf o p.zero Q t k →
      t.formAll (TaskEnv.of mpc).structure_.nvars ⟨TaskEnv.of mpc, p.zero, junk, junkI⟩ guessing = .ok t' → 0 < rows t'.ctr := by
    intro k t t' hk e
    obtain ⟨_, -, hF⟩ := (task_formed h hk e).kept
    rw [hF.motion.rows]
    have := h.sane.nonempty
    omega
  obtain ⟨P', e⟩ := shaped_form (nv := (TaskEnv.of mpc).structure_.nvars) (env := ⟨TaskEnv.of mpc, p.zero, junk, junkI⟩) (g := guessing) hp
    (by simp [pepperTasks]) (fun t k hk => (task_formAll h hk junk junkI (hg k t hk.kept)).imp fun _ h => h.1) (by
      intro ks hks
      simp only [pepperTasks, List.mem_cons, List.not_mem_nil, or_false] at hks
      rcases hks with rfl | rfl
      · exact ⟨_, List.mem_cons_self .., hpos _⟩
      · exact ⟨_, List.mem_cons_self .., hpos _⟩)
  refine ⟨⟨P', (p.zero.form (TaskEnv.of mpc).structure_ noData).1⟩, ?_⟩
  unfold Problem.form
  simp only
  rw [e]
  rfl

theorem pepper_throws (h : PepperReady mpc x0) (hp : PepperShaped o Q p) (junk : ℕ → ℕ → ℕ → K) (junkI : ℕ → ℕ → ℕ)
    (ha : ∀ t, Q .acceleration t → t.actual.length ≠ 0) (hN : mpc.intervals.length = 1)
    (hT : mpc.parameters.sampling_time_ms ≤ mpc.parameters.subsampling_time_ms) : p.form junk junkI true mpc = .error .thrown := by
  unfold Problem.form
  simp only
  rw [shaped_throws hp fun t ht => bounds_throws h ht junk junkI rfl (ha t ht.kept) hN hT]
  rfl

theorem pepper_process (hp : PepperShaped o Q p) {s : ActiveSetH} (e : p.processActiveSet s = .ok p') :
    PepperShaped o (fun k t' => ∃ t : Task (ProblemEnv K) K, Q k t ∧ (∃ x, t' = { t with actual := x }) ∧
      ((∀ L ∈ p.hierarchy.levels, ∀ ti ∈ L.tasks, ti.loc.length = rows ti.task.ctr) → t'.actual.length = rows t'.ctr) ∧
      ∀ c ∈ t'.actual, ∃ cc ∈ s, c ∈ cc) p' := by
  unfold Problem.processActiveSet at e
  obtain ⟨P, e1, e⟩ := bind_eq_ok.1 e
  cases e
  refine (shaped_process hp e1).mono fun t' k ⟨t, ht, ⟨x, hx⟩, hl⟩ => ⟨?_, ?_, ?_, ?_, t, ht.kept, ⟨x, hx⟩, hl⟩
  · rw [hx]; exact ht.formFn
  · rw [hx]; exact ht.guessFn
  · rw [hx]; exact ht.ctype
  · rw [hx]; exact ht.zero

/-- A new problem. -/
theorem pepper_setup (o : ProblemSetup K) (hm : o.mode ≠ .undefined) (P : Hierarchy (ProblemEnv K) K) :
    ∃ p, setupHierarchy o P = .ok p ∧ PepperShaped o (fun _ t => t.guess = [] ∧ t.actual = []) p := by
  have hnew : ∀ k : PepperTask, TaskOf o (ZeroVariables.make o.bodyJerkGain bodyJerkId) (fun _ t => t.guess = [] ∧ t.actual = [])
      (k.make o) k := by
    intro k
    refine ⟨rfl, rfl, rfl, fun e => ?_, ?_⟩
    · cases e
      exact zeroReady_make _ ⟨rfl, rfl⟩
    · cases k with
      | reference =>
        show (if o.mode = .maintainPosition then basePositionTask o else baseVelocityTask o).guess = [] ∧
          (if o.mode = .maintainPosition then basePositionTask o else baseVelocityTask o).actual = []
        split <;> exact ⟨rfl, rfl⟩
      | _ => exact ⟨rfl, rfl⟩
  have hr := hnew .reference
  cases ho : o.mode with
  | undefined => exact absurd ho hm
  | maintainPosition =>
    have hmk : PepperTask.reference.make o = basePositionTask o := if_pos ho
    rw [hmk] at hr
    refine ⟨⟨⟨[(((Level.empty.pushTask velocityBoundsTask).pushTask bodyBoundsTask).pushTask copBoundsTask).pushTask accelerationBoundsTask,
      (((Level.empty.pushTask (basePositionTask o)).pushTask (baseJerkTask o)).pushTask bodyJerkTask).pushTask (copCenteringTask o)],
      (P.reset 2).counts⟩, ZeroVariables.make o.bodyJerkGain bodyJerkId⟩, ?_, ?_⟩
    · unfold setupHierarchy referenceTask
      rw [ho]
      rfl
    · refine ⟨fun L hL => ?_, ?_⟩
      · rcases List.mem_cons.1 hL with rfl | hL
        · exact .push _ (.push _ (.push _ (.push _ .empty)))
        · cases List.mem_singleton.1 hL
          exact .push _ (.push _ (.push _ (.push _ .empty)))
      · exact .cons (.cons (hnew .acceleration) (.cons (hnew .cop) (.cons (hnew .body) (.cons (hnew .velocity) .nil))))
          (.cons (.cons (hnew .copCentering) (.cons (hnew .baseJerk) (.cons hr (.cons (hnew .bodyJerk) .nil)))) .nil)
  | maintainVelocity =>
    have hmk : PepperTask.reference.make o = baseVelocityTask o := if_neg (by rw [ho]; decide)
    rw [hmk] at hr
    refine ⟨⟨⟨[(((Level.empty.pushTask velocityBoundsTask).pushTask bodyBoundsTask).pushTask copBoundsTask).pushTask accelerationBoundsTask,
      (((Level.empty.pushTask (baseVelocityTask o)).pushTask (baseJerkTask o)).pushTask bodyJerkTask).pushTask (copCenteringTask o)],
      (P.reset 2).counts⟩, ZeroVariables.make o.bodyJerkGain bodyJerkId⟩, ?_, ?_⟩
    · unfold setupHierarchy referenceTask
      rw [ho]
      rfl
    · refine ⟨fun L hL => ?_, ?_⟩
      · rcases List.mem_cons.1 hL with rfl | hL
        · exact .push _ (.push _ (.push _ (.push _ .empty)))
        · cases List.mem_singleton.1 hL
          exact .push _ (.push _ (.push _ (.push _ .empty)))
      · exact .cons (.cons (hnew .acceleration) (.cons (hnew .cop) (.cons (hnew .body) (.cons (hnew .velocity) .nil))))
          (.cons (.cons (hnew .copCentering) (.cons (hnew .baseJerk) (.cons hr (.cons (hnew .bodyJerk) .nil)))) .nil)

/-- Without a mode there is no problem. -/
theorem pepper_undefined (hm : o.mode = .undefined) (P : Hierarchy (ProblemEnv K) K) : setupHierarchy o P = .error .thrown := by
  unfold setupHierarchy referenceTask
  rw [hm]
  rfl

end

end Humoto.Pepper
