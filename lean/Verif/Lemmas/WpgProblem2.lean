import Verif.Lemmas.WpgProblem

/-!
# Walking pattern generator: levels of the optimization problem
-/

namespace Humoto

open Spec

section
variable {E K : Type}

theorem formLoop_ok {nv : ℕ} {env : E} {g : Bool} {ts : List (TaskInfo E K)} (h : ∀ ti ∈ ts, ∃ t', ti.task.formAll nv env g = .ok t') :
    ∀ L : Level E K, ∃ L', Level.formLoop nv env g L ts = .ok L' := by
  induction ts with
  | nil => exact fun L => ⟨L, rfl⟩
  | cons ti ts ih =>
    intro L
    obtain ⟨t', e⟩ := h ti (by simp)
    unfold Level.formLoop
    rw [e, ok_bind]
    exact ih (fun a ha => h a (by simp [ha])) _

variable [Field K]

/-- A level can be formed if its tasks can, and one of them has rows. -/
theorem level_form_ok {nv : ℕ} {env : E} {g : Bool} {L : Level E K} (h : ∀ ti ∈ L.tasks, ∃ t', ti.task.formAll nv env g = .ok t')
    (hp : ∃ ti ∈ L.tasks, ∀ t', ti.task.formAll nv env g = .ok t' → 0 < rows t'.ctr) : ∃ L', L.form nv env g = .ok L' := by
  obtain ⟨ti, hti, hrow⟩ := hp
  obtain ⟨L', e⟩ := formLoop_ok h ⟨[], 0, 0, 0, 0⟩
  refine ⟨L', ?_⟩
  unfold Level.form
  rw [assertThat_true (List.length_pos_of_mem hti), ok_bind, e, ok_bind]
  obtain ⟨ts, e1, -, -, -, k1, k2, -⟩ := formLoop_facts e
  obtain ⟨ts', e2, hf⟩ := formLoop_forall2 e
  rw [e1] at e2
  simp only [List.nil_append] at e2
  subst e2
  have hn : L'.nConstraints = totalRows ts := by
    rw [← rowsIf_not CtrType.isSimple, Level.nConstraints, k1, k2]
    simp only [Nat.zero_add]
  obtain ⟨i, hi, hget⟩ := List.getElem_of_mem hti
  have hi' : i < ts.length := hf.length_eq ▸ hi
  have hfi := hf.get (i := i) hi hi'
  rw [List.get_eq_getElem, List.get_eq_getElem, hget] at hfi
  have hpos := hrow _ hfi
  have hle : rows ts[i].task.ctr ≤ totalRows ts :=
    List.single_le_sum (fun _ _ => Nat.zero_le _) _ (List.mem_map.2 ⟨_, List.getElem_mem hi', rfl⟩)
  rw [assertThat_true (show 0 < L'.nConstraints by rw [hn]; exact lt_of_lt_of_le hpos hle), ok_bind]
  rfl

/-- What processing of an active set does with the tasks. -/
theorem process_level {L L' : Level E K} {s : ActiveSetC} (h : L.processActiveSet s = .ok L') :
    List.Forall₂ (fun a b : TaskInfo E K => b.loc = a.loc ∧ (∃ x, b.task = { a.task with actual := x }) ∧
      b.task.actual.length = a.loc.length ∧ ∀ c ∈ b.task.actual, c ∈ s) L.tasks L'.tasks := by
  unfold Level.processActiveSet at h
  obtain ⟨ts, e, h⟩ := bind_eq_ok.1 h
  cases h
  refine (mapM_ok e).imp fun a b hab => ?_
  obtain ⟨x, hx, hab⟩ := bind_eq_ok.1 hab
  cases hab
  refine ⟨rfl, ⟨x, rfl⟩, ?_⟩
  show x.length = _ ∧ ∀ c ∈ x, c ∈ s
  by_cases hc : a.loc.offset + a.loc.length ≤ s.length
  · rw [C03_initFrom _ _ _ hc] at hx
    cases hx
    refine ⟨?_, fun c hc => List.mem_of_mem_drop (List.mem_of_mem_take hc)⟩
    rw [List.length_take, List.length_drop]
    omega
  · unfold ActiveSetC.initFrom at hx
    obtain ⟨_, hx, -⟩ := bind_eq_ok.1 hx
    exact absurd ((Location.checkLength_iff _ _).1 (assertThat_eq_ok hx)) hc

end

namespace Wpg

open Spec.Wpg

/-- What is known about the tasks of a level. -/
def LevelOf (P : TaskInfo ProblemEnv ℝ → WalkTask → Prop) (L : Level ProblemEnv ℝ) (ks : List WalkTask) : Prop :=
  List.Forall₂ P L.tasks ks

theorem forall2_split {α β : Type} {R : α → β → Prop} {l : List α} {a b : β} (h : List.Forall₂ R l [a, b]) :
    ∃ x y, l = [x, y] ∧ R x a ∧ R y b := by
  cases h with
  | cons h1 h => cases h with
    | cons h2 h => cases h; exact ⟨_, _, rfl, h1, h2⟩

section
variable {model : Model} {mpc : Mpc} {o : ProblemSetup} {Q : WalkTask → Task ProblemEnv ℝ → Prop}

theorem walkTasks_pos (o : ProblemSetup) {ks : List WalkTask} (h : ks ∈ walkTasks o) : .cop ∈ ks ∨ .copPosition ∈ ks := by
  unfold walkTasks at h
  rcases List.mem_cons.1 h with rfl | h
  · left; split <;> simp
  · right
    cases List.mem_singleton.1 h
    simp

/-- A formed level. -/
theorem walk_level_formed (h : Ready model mpc) {z : ZeroVariables ℝ} {junk : ℕ → ℕ → ℕ → ℝ} {junkI : ℕ → ℕ → ℕ} {guessing : Bool}
    {L L' : Level ProblemEnv ℝ} {ks : List WalkTask} (hL : LevelOf (fun ti k => TaskOf o z Q ti.task k) L ks)
    (e : L.form (problemSize mpc) ⟨TaskEnv.of model mpc, z, junk, junkI⟩ guessing = .ok L') :
    LevelOf (fun ti k => TaskOf o (z.form (TaskEnv.of model mpc).structure_ noData).1
      (fun k t' => ∃ t, Q k t ∧ FormedWalkTask o model mpc guessing t t' k) ti.task k) L' ks := by
  have hall := form_forall2 e
  clear e
  unfold LevelOf at hL ⊢
  generalize L.tasks = l at *
  generalize L'.tasks = l' at *
  induction hL generalizing l' with
  | nil => cases hall; exact .nil
  | @cons a k l ks ha hl ih =>
    cases hall with
    | cons e hrest => exact .cons (task_formed h ha e) (ih _ hrest)

/-- Levels are formed. -/
theorem walk_level_form (h : Ready model mpc) {z : ZeroVariables ℝ} (junk : ℕ → ℕ → ℕ → ℝ) (junkI : ℕ → ℕ → ℕ) {guessing : Bool}
    {L : Level ProblemEnv ℝ} {ks : List WalkTask} (hk : .cop ∈ ks ∨ .copPosition ∈ ks)
    (hL : LevelOf (fun ti k => TaskOf o z Q ti.task k) L ks)
    (hQ : ∀ k t, Q k t → GuessFits o mpc.horizon guessing k t) :
    ∃ L', L.form (problemSize mpc) ⟨TaskEnv.of model mpc, z, junk, junkI⟩ guessing = .ok L' := by
  have hN := h.consistent.size.2
  refine level_form_ok (fun ti hti => ?_) ?_
  · obtain ⟨i, hi, rfl⟩ := List.getElem_of_mem hti
    have hT := List.Forall₂.get hL hi (hL.length_eq ▸ hi)
    exact (task_formAll h hT junk junkI (hQ _ _ hT.kept)).imp fun _ h => h.1
  · have : ∃ k ∈ ks, k = .cop ∨ k = .copPosition := by
      rcases hk with hk | hk
      · exact ⟨_, hk, .inl rfl⟩
      · exact ⟨_, hk, .inr rfl⟩
    obtain ⟨k, hk, hkk⟩ := this
    obtain ⟨i, hi, hik⟩ := List.getElem_of_mem hk
    have hi' : i < L.tasks.length := hL.length_eq ▸ hi
    refine ⟨_, List.getElem_mem hi', fun t' e => ?_⟩
    have hT := List.Forall₂.get hL hi' hi
    rw [List.get_eq_getElem, List.get_eq_getElem, hik] at hT
    obtain ⟨_, -, hF⟩ := (task_formed h hT e).kept
    rw [taskMeans_rows hF.means]
    rcases hkk with rfl | rfl <;> show 0 < 2 * _ <;> omega

/-- A formed problem. -/
theorem walk_formed (h : Ready model mpc) {p p' : Problem} (hp : WalkProblem o Q p) {junk : ℕ → ℕ → ℕ → ℝ} {junkI : ℕ → ℕ → ℕ} {guessing : Bool}
    (e : p.form junk junkI guessing model mpc = .ok p') :
    WalkProblem o (fun k t' => ∃ t, Q k t ∧ FormedWalkTask o model mpc guessing t t' k) p' ∧
      p.hierarchy.form (problemSize mpc) ⟨TaskEnv.of model mpc, p.zero, junk, junkI⟩ guessing = .ok p'.hierarchy := by
  obtain ⟨A, B, hAB, hA, hB⟩ := forall2_split hp.shape
  unfold Problem.form at e
  simp only at e
  rw [h.nvars] at e
  obtain ⟨P, eP, e⟩ := bind_eq_ok.1 e
  cases e
  refine ⟨?_, eP⟩
  have hf := hierarchy_forms eP
  rw [hAB] at hf
  have hr := hp.reach
  rw [hAB] at hr
  obtain ⟨Ls, cs⟩ := P
  simp only at hf
  cases hf with
  | @cons _ A' _ _ eA hf => cases hf with
    | @cons _ B' _ _ eB hf =>
      cases hf
      refine ⟨fun L hL => ?_, .cons (walk_level_formed h hA eA) (.cons (walk_level_formed h hB eB) .nil)⟩
      rcases List.mem_cons.1 hL with rfl | hL
      · exact .form (hr A (by simp)) eA
      · cases List.mem_singleton.1 hL
        exact .form (hr B (by simp)) eB

/-- The problem can be formed. -/
theorem walk_form (h : Ready model mpc) {p : Problem} (hp : WalkProblem o Q p) (junk : ℕ → ℕ → ℕ → ℝ) (junkI : ℕ → ℕ → ℕ) {guessing : Bool}
    (hQ : ∀ k t, Q k t → GuessFits o mpc.horizon guessing k t) : ∃ p', p.form junk junkI guessing model mpc = .ok p' := by
  obtain ⟨A, B, hAB, hA, hB⟩ := forall2_split hp.shape
  obtain ⟨A', eA⟩ := walk_level_form h junk junkI (walkTasks_pos o (by simp [walkTasks])) hA hQ
  obtain ⟨B', eB⟩ := walk_level_form h junk junkI (walkTasks_pos o (by simp [walkTasks])) hB hQ
  have e : p.hierarchy.form (problemSize mpc) ⟨TaskEnv.of model mpc, p.zero, junk, junkI⟩ guessing =
      .ok ⟨[A', B'], [A', B'].map Level.nConstraints⟩ := by
    unfold Hierarchy.form
    rw [hAB, assertThat_true (show 0 < [A, B].length from Nat.zero_lt_succ 1), ok_bind, List.mapM_cons, eA, ok_bind, List.mapM_cons, eB,
      ok_bind]
    rfl
  refine ⟨⟨⟨[A', B'], [A', B'].map Level.nConstraints⟩, (p.zero.form (TaskEnv.of model mpc).structure_ noData).1⟩, ?_⟩
  unfold Problem.form
  simp only
  rw [h.nvars, e, ok_bind]
  rfl

/-- The problem cannot be formed when the number of steps has decreased by more than one. -/
theorem walk_throws (h : Ready model mpc) {p : Problem} (hp : WalkProblem o Q p) (junk : ℕ → ℕ → ℕ → ℝ) (junkI : ℕ → ℕ → ℕ)
    (hfix : o.fixed = false) {n : ℕ} (hn : mpc.horizon.variable_steps.length + 1 < n)
    (hQ : ∀ t, Q .footsteps t → t.actual.length = 2 * n) : p.form junk junkI true model mpc = .error .thrown := by
  obtain ⟨A, B, hAB, hA, hB⟩ := forall2_split hp.shape
  have eA : A.form (problemSize mpc) ⟨TaskEnv.of model mpc, p.zero, junk, junkI⟩ true = .error .thrown := by
    unfold Level.form
    cases ht : o.terminal with
    | false =>
      rw [ht] at hA
      obtain ⟨L, a, b, c, d⟩ := A
      simp only at hA ⊢
      cases hA with
      | @cons t _ _ _ h1 _ =>
        rw [assertThat_true (List.length_pos_of_mem (List.mem_cons_self)), ok_bind]
        unfold Level.formLoop
        rw [footsteps_throws h h1 junk junkI hfix (hQ _ h1.kept) hn]
        rfl
    | true =>
      rw [ht] at hA
      obtain ⟨L, a, b, c, d⟩ := A
      simp only at hA ⊢
      cases hA with
      | @cons t0 _ _ _ h0 hA => cases hA with
        | @cons t _ _ _ h1 _ =>
          rw [assertThat_true (List.length_pos_of_mem (List.mem_cons_self)), ok_bind]
          obtain ⟨t', e0, -⟩ := task_formAll (guessing := true) h h0 junk junkI (show ActualFits o mpc.horizon t0.task.actual .terminal from trivial)
          unfold Level.formLoop
          rw [e0, ok_bind]
          simp only
          unfold Level.formLoop
          rw [footsteps_throws h h1 junk junkI hfix (hQ _ h1.kept) hn]
          rfl
  unfold Problem.form
  simp only
  rw [h.nvars]
  unfold Hierarchy.form
  rw [hAB, assertThat_true (show 0 < [A, B].length from Nat.zero_lt_succ 1), ok_bind, List.mapM_cons, eA]
  rfl

/-- Processing of an active set changes only the actual active sets of the tasks: they have the sizes of the locations of the tasks. -/
theorem walk_process {p p' : Problem} (hp : WalkProblem o Q p) {s : ActiveSetH} (h : p.processActiveSet s = .ok p') :
    WalkProblem o (fun k t' => ∃ t : Task ProblemEnv ℝ, Q k t ∧ (∃ x, t' = { t with actual := x }) ∧
      ((∀ L ∈ p.hierarchy.levels, ∀ ti ∈ L.tasks, ti.loc.length = rows ti.task.ctr) → t'.actual.length = rows t'.ctr) ∧
      ∀ a ∈ t'.actual, ∃ c ∈ s, a ∈ c) p' := by
  unfold Problem.processActiveSet at h
  obtain ⟨P, hP, h⟩ := bind_eq_ok.1 h
  cases h
  unfold Hierarchy.processActiveSet at hP
  obtain ⟨_, ha, hP⟩ := bind_eq_ok.1 hP
  obtain ⟨Ls, hLs, hP⟩ := bind_eq_ok.1 hP
  cases hP
  have hl := assertThat_eq_ok ha
  obtain ⟨A, B, hAB, hA, hB⟩ := forall2_split hp.shape
  rw [hAB] at hl hLs
  obtain ⟨sA, sB, rfl⟩ : ∃ a b, s = [a, b] := by
    match s, hl with
    | [a, b], _ => exact ⟨a, b, rfl⟩
  rw [List.zip_cons_cons, List.zip_cons_cons, List.zip_nil_left, List.mapM_cons] at hLs
  obtain ⟨A', eA, hLs⟩ := bind_eq_ok.1 hLs
  obtain ⟨l, hl', hLs⟩ := bind_eq_ok.1 hLs
  rw [List.mapM_cons] at hl'
  obtain ⟨B', eB, hl'⟩ := bind_eq_ok.1 hl'
  cases hl'
  cases hLs
  have key : ∀ (L L' : Level ProblemEnv ℝ) (s : ActiveSetC) (ks : List WalkTask), s ∈ [sA, sB] → L ∈ p.hierarchy.levels →
      L.processActiveSet s = .ok L' →
      LevelOf (fun ti k => TaskOf o p.zero Q ti.task k) L ks →
      Reachable L' ∧ LevelOf (fun ti k => TaskOf o p.zero (fun k t' => ∃ t : Task ProblemEnv ℝ, Q k t ∧ (∃ x, t' = { t with actual := x }) ∧
        ((∀ L ∈ p.hierarchy.levels, ∀ ti ∈ L.tasks, ti.loc.length = rows ti.task.ctr) → t'.actual.length = rows t'.ctr) ∧
        ∀ a ∈ t'.actual, ∃ c ∈ [sA, sB], a ∈ c) ti.task k) L' ks := by
    intro L L' s ks hs hL e hks
    have hf := process_level e
    refine ⟨.change (hp.reach L hL) ?_, ?_⟩
    · clear hks
      generalize L.tasks = l at hf
      generalize L'.tasks = l' at hf
      induction hf with
      | nil => rfl
      | cons hab _ ih =>
        obtain ⟨-, ⟨x, hx⟩, -⟩ := hab
        rw [List.map_cons, List.map_cons, ih, hx]
    · have hmem : ∀ ti ∈ L.tasks, (∀ L ∈ p.hierarchy.levels, ∀ ti ∈ L.tasks, ti.loc.length = rows ti.task.ctr) →
          ti.loc.length = rows ti.task.ctr := fun ti hti hh => hh L hL ti hti
      unfold LevelOf at hks ⊢
      generalize L.tasks = l at hf hks hmem
      generalize L'.tasks = l' at hf
      induction hks generalizing l' with
      | nil => cases hf; exact .nil
      | @cons a k l ks ha hl ih =>
        cases hf with
        | @cons _ b _ l' hab hrest =>
          obtain ⟨-, ⟨x, hx⟩, hlen, hin⟩ := hab
          refine .cons ?_ (ih (fun ti hti => hmem ti (by simp [hti])) _ hrest)
          refine ⟨by rw [hx]; exact ha.formFn, by rw [hx]; exact ha.guessFn, by rw [hx]; exact ha.ctype, by rw [hx]; exact ha.zero,
            a.task, ha.kept, ⟨x, hx⟩, fun hh => ?_, fun c hc => ⟨s, hs, hin c hc⟩⟩
          rw [hlen, hmem a (by simp) hh, hx]
  obtain ⟨rA, hA'⟩ := key A A' sA _ (by simp) (by rw [hAB]; simp) eA hA
  obtain ⟨rB, hB'⟩ := key B B' sB _ (by simp) (by rw [hAB]; simp) eB hB
  refine ⟨fun L hL => ?_, .cons hA' (.cons hB' .nil)⟩
  rcases List.mem_cons.1 hL with rfl | hL
  · exact rA
  · cases List.mem_singleton.1 hL
    exact rB

/-- Locations after forming. -/
theorem walk_locations {p p' : Problem} (hr : ∀ L ∈ p.hierarchy.levels, Reachable L) {nv : ℕ} {env : ProblemEnv} {g : Bool}
    (h : p.hierarchy.form nv env g = .ok p'.hierarchy) : ∀ L ∈ p'.hierarchy.levels, ∀ ti ∈ L.tasks, ti.loc.length = rows ti.task.ctr := by
  have hf := hierarchy_forms h
  intro L hL ti hti
  obtain ⟨i, hi, rfl⟩ := List.getElem_of_mem hL
  have hi' : i < p.hierarchy.levels.length := hf.length_eq ▸ hi
  have e := hf.get hi' hi
  rw [List.get_eq_getElem, List.get_eq_getElem] at e
  obtain ⟨hc, -⟩ := form_consecutive (hr _ (List.getElem_mem hi')) e
  have key : ∀ (l : List (TaskInfo ProblemEnv ℝ)) (n : ℕ), Consecutive n l → ∀ ti ∈ l, ti.loc.length = rows ti.task.ctr := by
    intro l
    induction l with
    | nil => intro _ _ ti hti; cases hti
    | cons a l ih =>
      intro n hn ti hti
      rcases List.mem_cons.1 hti with rfl | hti
      · rw [hn.1]
      · exact ih _ hn.2 ti hti
  exact key _ _ hc ti hti

/-- Weakening of the additional conditions. -/
theorem TaskOf.mono {z : ZeroVariables ℝ} {Q' : WalkTask → Task ProblemEnv ℝ → Prop} (hQ : ∀ k t, Q k t → Q' k t) {t : Task ProblemEnv ℝ} {k : WalkTask}
    (h : TaskOf o z Q t k) : TaskOf o z Q' t k := ⟨h.formFn, h.guessFn, h.ctype, h.zero, hQ _ _ h.kept⟩

theorem WalkProblem.mono {Q' : WalkTask → Task ProblemEnv ℝ → Prop} (hQ : ∀ k t, Q k t → Q' k t) {p : Problem} (h : WalkProblem o Q p) :
    WalkProblem o Q' p := ⟨h.reach, h.shape.imp fun _ _ h' => h'.imp fun _ _ h'' => h''.mono hQ⟩

/-- The problem after `setupHierarchy`. -/
theorem walk_setup (o : ProblemSetup) (P : Hierarchy ProblemEnv ℝ) :
    ∃ p, setupHierarchy o P = .ok p ∧ WalkProblem o (fun _ t => t.guess = [] ∧ t.actual = []) p := by
  have hnew : ∀ (k : WalkTask) , TaskOf o (ZeroVariables.make o.copPositionGain copId) (fun _ t => t.guess = [] ∧ t.actual = []) (k.make o) k := by
    intro k
    refine ⟨rfl, rfl, rfl, fun e => ⟨[], ?_⟩, ?_⟩
    · cases e; rfl
    · cases k <;> exact ⟨rfl, rfl⟩
  cases ht : o.terminal with
  | false =>
    refine ⟨⟨⟨[(Level.empty.pushTask (footstepsTask o)).pushTask copTask,
      ((Level.empty.pushTask (comVelocityTask o)).pushTask (copVelocityTask o)).pushTask copPositionTask], (P.reset 2).counts⟩,
      ZeroVariables.make o.copPositionGain copId⟩, ?_, ?_⟩
    · unfold setupHierarchy
      rw [ht]
      rfl
    · refine ⟨fun L hL => ?_, ?_⟩
      · rcases List.mem_cons.1 hL with rfl | hL
        · exact .push _ (.push _ .empty)
        · cases List.mem_singleton.1 hL
          exact .push _ (.push _ (.push _ .empty))
      · unfold walkTasks
        rw [ht]
        exact .cons (.cons (hnew .footsteps) (.cons (hnew .cop) .nil)) (.cons (.cons (hnew .copVelocity)
          (.cons (hnew .comVelocity) (.cons (hnew .copPosition) .nil))) .nil)
  | true =>
    refine ⟨⟨⟨[((Level.empty.pushTask (footstepsTask o)).pushTask copTask).pushTask (terminalTask o),
      ((Level.empty.pushTask (comVelocityTask o)).pushTask (copVelocityTask o)).pushTask copPositionTask], (P.reset 2).counts⟩,
      ZeroVariables.make o.copPositionGain copId⟩, ?_, ?_⟩
    · unfold setupHierarchy
      rw [ht]
      rfl
    · refine ⟨fun L hL => ?_, ?_⟩
      · rcases List.mem_cons.1 hL with rfl | hL
        · exact .push _ (.push _ (.push _ .empty))
        · cases List.mem_singleton.1 hL
          exact .push _ (.push _ (.push _ .empty))
      · unfold walkTasks
        rw [ht]
        exact .cons (.cons (hnew .terminal) (.cons (hnew .footsteps) (.cons (hnew .cop) .nil))) (.cons (.cons (hnew .copVelocity)
          (.cons (hnew .comVelocity) (.cons (hnew .copPosition) .nil))) .nil)

end

end Wpg

end Humoto
