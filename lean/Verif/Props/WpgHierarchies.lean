import Verif.Spec.WpgHierarchies
import Verif.Props.WpgProblem
import Verif.Props.QpoasesSolver
import Verif.Props.WpgProgram

/-!
# Walking pattern generator: hierarchies which cannot be solved (C115)
-/

namespace Humoto.Wpg

open Spec Spec.Wpg Bridge

/-- The constraints of the infeasible task. -/
structure Impossible (nv : ℕ) (c : Ctr ℝ) : Prop where
  ctype : c.ctype = .alu
  nvars : c.nvars = nv
  pos : 0 < nv
  A : c.data.A = ⟨1, nv, fun _ _ => 1⟩
  lb : c.data.lb = ⟨1, fun _ => 1⟩
  ub : c.data.ub = ⟨1, fun _ => -1⟩

theorem Impossible.rows {nv : ℕ} {c : Ctr ℝ} (h : Impossible nv c) : rows c = 1 := by
  obtain ⟨t, n, d⟩ := c
  cases h.ctype
  show d.A.rows = 1
  rw [h.A]

theorem Impossible.wf {nv : ℕ} {c : Ctr ℝ} (h : Impossible nv c) : WellFormed c := by
  have hr := h.rows
  obtain ⟨t, n, d⟩ := c
  cases h.ctype
  refine ⟨⟨?_, ?_⟩, ?_⟩
  · rw [hr]; show d.lb.n = 1; rw [h.lb]
  · rw [hr]; show d.ub.n = 1; rw [h.ub]
  · have hn : n = nv := h.nvars
    have hA : d.A = ⟨1, nv, fun _ _ => 1⟩ := h.A
    simp [BodyFits, hA, hn, h.pos]

theorem Impossible.not {nv : ℕ} {c : Ctr ℝ} (h : Impossible nv c) (x : ℕ → ℝ) : ¬ Satisfied c x := by
  intro hs
  have h0 := hs 0 (by rw [h.rows]; exact one_pos)
  obtain ⟨t, n, d⟩ := c
  cases h.ctype
  obtain ⟨h1, h2⟩ := h0
  have h1 := h1 (d.lb.e 0) rfl
  have h2 := h2 (d.ub.e 0) rfl
  rw [h.lb] at h1
  rw [h.ub] at h2
  have := h1.trans h2
  norm_num at this

/-- An infeasible task in the hands of a program. -/
structure InfeasibleOf (guessing : Bool) (t : Task ProblemEnv ℝ) : Prop where
  formFn : t.formFn = infeasibleTask.formFn
  guessFn : t.guessFn = none
  ctype : t.ctr.ctype = .alu
  data : t.ctr.data.A.cols = 0 ∨ ∃ nv, t.ctr.data.A = ⟨1, nv, fun _ _ => 1⟩ ∧ t.ctr.data.lb = ⟨1, fun _ => 1⟩ ∧ t.ctr.data.ub = ⟨1, fun _ => -1⟩
  actual : t.actual = []
  guess : guessing = false → t.guess = []

section
variable {model : Model} {mpc : Mpc} {o : ProblemSetup} {z : ZeroVariables ℝ} {t : Task ProblemEnv ℝ} {guessing : Bool}

theorem infeasible_formAll (h : Ready model mpc) (ht : InfeasibleOf guessing t) (junk : ℕ → ℕ → ℕ → ℝ) (junkI : ℕ → ℕ → ℕ) :
    ∃ t', t.formAll (problemSize mpc) ⟨TaskEnv.of model mpc, z, junk, junkI⟩ guessing = .ok t' ∧ InfeasibleOf guessing t' ∧
      Impossible (problemSize mpc) t'.ctr ∧ (guessing = true → t'.guess.length = 1 ∧ Decided t'.guess) := by
  have hpos : 0 < problemSize mpc := by
    have := h.consistent.size.2
    unfold problemSize
    omega
  obtain ⟨d, u, e, hd⟩ : ∃ d u, (infeasibleForm t.ctr.data.A.cols (TaskEnv.of model mpc).structure_ t.ctr.data).2 = (d, u) ∧
      d.A = ⟨1, problemSize mpc, fun _ _ => 1⟩ ∧ d.lb = ⟨1, fun _ => 1⟩ ∧ d.ub = ⟨1, fun _ => -1⟩ := by
    refine ⟨_, _, rfl, ?_⟩
    unfold infeasibleForm
    rw [h.nvars]
    by_cases hc : t.ctr.data.A.cols = problemSize mpc
    · rw [if_neg (by simpa using hc)]
      rcases ht.data with h0 | ⟨nv, h1, h2, h3⟩
      · omega
      · rw [h1] at hc
        cases hc
        exact ⟨h1, h2, h3⟩
    · rw [if_pos hc]
      exact ⟨rfl, rfl, rfl⟩
  have hform : ∃ m, (t.preForm (problemSize mpc)).form ⟨TaskEnv.of model mpc, z, junk, junkI⟩ =
      .ok { t with ctr := ⟨t.ctr.ctype, problemSize mpc, d⟩, modified := m } := by
    refine ⟨if u then false else true, ?_⟩
    have e' : t.formFn ⟨TaskEnv.of model mpc, z, junk, junkI⟩ ⟨t.ctr.ctype, problemSize mpc, t.ctr.data⟩ = .ok (d, u) := by
      rw [ht.formFn]
      show (pure (infeasibleForm t.ctr.data.A.cols (TaskEnv.of model mpc).structure_ t.ctr.data).2 : Res _) = _
      rw [e]
      rfl
    unfold Task.form
    show t.formFn _ ⟨t.ctr.ctype, problemSize mpc, t.ctr.data⟩ >>= _ = _
    rw [e']
    rfl
  obtain ⟨m, hform⟩ := hform
  have hI : Impossible (problemSize mpc) ⟨t.ctr.ctype, problemSize mpc, d⟩ := ⟨ht.ctype, rfl, hpos, hd.1, hd.2.1, hd.2.2⟩
  obtain ⟨g, eg, hg⟩ : ∃ g : ActiveSetC, ({ t with ctr := ⟨t.ctr.ctype, problemSize mpc, d⟩, modified := m } : Task ProblemEnv ℝ).guessIf
      ⟨TaskEnv.of model mpc, z, junk, junkI⟩ guessing = .ok { t with ctr := ⟨t.ctr.ctype, problemSize mpc, d⟩, modified := m, guess := g } ∧
      if guessing then g.length = 1 ∧ Decided g else g = [] := by
    cases hgg : guessing with
    | false => exact ⟨t.guess, rfl, ht.guess hgg⟩
    | true =>
      show ∃ g : ActiveSetC, Task.guessActiveSet _ _ = _ ∧ g.length = 1 ∧ Decided g
      have hgd := guessActiveSet_none (t := ({ t with ctr := ⟨t.ctr.ctype, problemSize mpc, d⟩, modified := m } : Task ProblemEnv ℝ))
        ht.guessFn ⟨TaskEnv.of model mpc, z, junk, junkI⟩
      rw [hgd]
      unfold Task.guessDefault
      rw [if_pos (Or.inr (by show t.actual.length = 0; rw [ht.actual]; rfl))]
      rw [if_neg (by show ¬ t.ctr.ctype.isEquality = true; rw [ht.ctype]; decide)]
      refine ⟨_, rfl, ?_, decided_initWith (by decide)⟩
      rw [ActiveSetC.initWith, List.length_replicate, numRows_eq]
      exact hI.rows
  refine ⟨{ t with ctr := ⟨t.ctr.ctype, problemSize mpc, d⟩, modified := m, guess := g }, ?_,
    ⟨ht.formFn, ht.guessFn, ht.ctype, .inr ⟨_, hd⟩, ht.actual, fun e => ?_⟩, hI, fun e => ?_⟩
  rotate_left
  · rw [e, if_neg (by decide)] at hg
    exact hg
  · rw [e, if_pos rfl] at hg
    exact hg
  · unfold Task.formAll
    rw [hform, ok_bind, eg, ok_bind]
    unfold Task.postForm
    rw [checkConsistency_of_wellFormed _ (show WellFormed (⟨t.ctr.ctype, problemSize mpc, d⟩ : Ctr ℝ) from hI.wf), ok_bind, numRows_eq]
    show (assertThat (g.length = 0 ∨ g.length = rows (⟨t.ctr.ctype, problemSize mpc, d⟩ : Ctr ℝ)) >>= _) = _
    rw [assertThat_true ?_, ok_bind]
    · rfl
    · cases hgg : guessing with
      | false =>
        rw [hgg, if_neg (by decide)] at hg
        exact .inl (by rw [hg]; rfl)
      | true =>
        rw [hgg, if_pos rfl] at hg
        exact .inr (hg.1.trans hI.rows.symm)

/-- Nothing is known to the tasks about active sets. -/
def NoSets (guessing : Bool) (_ : WalkTask) (t : Task ProblemEnv ℝ) : Prop := t.actual = [] ∧ (guessing = false → t.guess = [])

theorem noSets_fit (k : WalkTask) (h : NoSets guessing k t) : GuessFits o mpc.horizon guessing k t := by
  unfold GuessFits
  split
  · rw [h.1]
    cases k <;> first | trivial | exact .inr ⟨0, rfl, Nat.zero_le _⟩ | exact .inl rfl
  · next hg => exact h.2 (by simpa using hg)

/-- A task of the given kind, `none` is the infeasible one. -/
def TaskIs (o : ProblemSetup) (z : ZeroVariables ℝ) (guessing : Bool) (t : Task ProblemEnv ℝ) : Option WalkTask → Prop
  | some k => TaskOf o z (NoSets guessing) t k
  | none => InfeasibleOf guessing t

/-- The same after forming. -/
def FormedIs (o : ProblemSetup) (model : Model) (mpc : Mpc) (z : ZeroVariables ℝ) (guessing : Bool) (t' : Task ProblemEnv ℝ) : Option WalkTask → Prop
  | some k => TaskOf o z (fun k t' => ∃ t, NoSets guessing k t ∧ FormedWalkTask o model mpc guessing t t' k) t' k
  | none => InfeasibleOf guessing t' ∧ Impossible (problemSize mpc) t'.ctr

theorem FormedIs.is {t' : Task ProblemEnv ℝ} {k : Option WalkTask} (h : FormedIs o model mpc z guessing t' k) : TaskIs o z guessing t' k := by
  cases k with
  | none => exact h.1
  | some k => exact TaskOf.mono (fun _ _ ⟨_, h1, h2⟩ => ⟨h2.actual.trans h1.1, fun e => (h2.guess e).trans (h1.2 e)⟩) h

theorem FormedIs.wf {t' : Task ProblemEnv ℝ} {k : Option WalkTask} (h : FormedIs o model mpc z guessing t' k) : WellFormed t'.ctr := by
  cases k with
  | none => exact h.2.wf
  | some k =>
    obtain ⟨_, -, h⟩ := TaskOf.kept h
    exact h.wf

theorem is_formed (h : Ready model mpc) {k : Option WalkTask} (hk : TaskIs o z guessing t k) {junk : ℕ → ℕ → ℕ → ℝ} {junkI : ℕ → ℕ → ℕ}
    {t' : Task ProblemEnv ℝ} (e : t.formAll (problemSize mpc) ⟨TaskEnv.of model mpc, z, junk, junkI⟩ guessing = .ok t') :
    FormedIs o model mpc (z.form (TaskEnv.of model mpc).structure_ noData).1 guessing t' k := by
  cases k with
  | some k => exact task_formed h hk e
  | none =>
    obtain ⟨t2, e2, h1⟩ := infeasible_formAll (z := z) h hk junk junkI
    cases e.symm.trans e2
    exact ⟨h1.1, h1.2.1⟩

theorem is_formAll (h : Ready model mpc) {k : Option WalkTask} (hk : TaskIs o z guessing t k) (junk : ℕ → ℕ → ℕ → ℝ) (junkI : ℕ → ℕ → ℕ) :
    ∃ t', t.formAll (problemSize mpc) ⟨TaskEnv.of model mpc, z, junk, junkI⟩ guessing = .ok t' := by
  cases k with
  | some k => exact (task_formAll h hk junk junkI (noSets_fit k (TaskOf.kept hk))).imp fun _ h => h.1
  | none => exact (infeasible_formAll h hk junk junkI).imp fun _ h => h.1

/-- A problem with the given tasks. -/
structure Shaped (o : ProblemSetup) (guessing : Bool) (kss : List (List (Option WalkTask))) (p : Problem) : Prop where
  reach : ∀ L ∈ p.hierarchy.levels, Reachable L
  shape : List.Forall₂ (fun (L : Level ProblemEnv ℝ) ks => List.Forall₂ (fun (ti : TaskInfo ProblemEnv ℝ) k =>
    TaskIs o p.zero guessing ti.task k) L.tasks ks) p.hierarchy.levels kss

/-- Kinds of tasks which always have rows. -/
def HasRows : Option WalkTask → Prop
  | none | some .cop | some .copPosition | some .terminal => True
  | _ => False

theorem shaped_formed (h : Ready model mpc) {kss : List (List (Option WalkTask))} {p p' : Problem} (hp : Shaped o guessing kss p)
    {junk : ℕ → ℕ → ℕ → ℝ} {junkI : ℕ → ℕ → ℕ} (e : p.form junk junkI guessing model mpc = .ok p') :
    Shaped o guessing kss p' ∧ p.hierarchy.form (problemSize mpc) ⟨TaskEnv.of model mpc, p.zero, junk, junkI⟩ guessing = .ok p'.hierarchy ∧
      List.Forall₂ (fun (L : Level ProblemEnv ℝ) ks => List.Forall₂ (fun (ti : TaskInfo ProblemEnv ℝ) k =>
        FormedIs o model mpc p'.zero guessing ti.task k) L.tasks ks) p'.hierarchy.levels kss := by
  unfold Problem.form at e
  simp only at e
  rw [h.nvars] at e
  obtain ⟨P, eP, e⟩ := bind_eq_ok.1 e
  cases e
  have hf := hierarchy_forms eP
  have key : List.Forall₂ (fun (L : Level ProblemEnv ℝ) ks => List.Forall₂ (fun (ti : TaskInfo ProblemEnv ℝ) k =>
        FormedIs o model mpc (p.zero.form (TaskEnv.of model mpc).structure_ noData).1 guessing ti.task k) L.tasks ks) P.levels kss := by
    have hs := hp.shape
    clear hp eP
    generalize p.hierarchy.levels = Ls at hf hs
    generalize P.levels = Ls' at hf
    induction hf generalizing kss with
    | nil => cases hs; exact .nil
    | @cons L L' Ls Ls' hL _ ih =>
      cases hs with
      | @cons _ ks _ kss hk hs =>
        refine .cons ?_ (ih hs)
        have hall := form_forall2 hL
        clear hL ih hs
        generalize L.tasks = l at hall hk
        generalize L'.tasks = l' at hall
        induction hall generalizing ks with
        | nil => cases hk; exact .nil
        | @cons a b l l' hab _ ih2 =>
          cases hk with
          | cons h1 h2 => exact .cons (is_formed h h1 hab) (ih2 h2)
  refine ⟨⟨fun L hL => ?_, key.imp fun _ _ h' => h'.imp fun _ _ h'' => h''.is⟩, eP, key⟩
  obtain ⟨i, hi, rfl⟩ := List.getElem_of_mem hL
  have hi' : i < p.hierarchy.levels.length := hf.length_eq ▸ hi
  have e := hf.get hi' hi
  rw [List.get_eq_getElem, List.get_eq_getElem] at e
  exact .form (hp.reach _ (List.getElem_mem hi')) e

theorem shaped_form (h : Ready model mpc) {kss : List (List (Option WalkTask))} (h0 : kss ≠ []) (hks : ∀ ks ∈ kss, ∃ k ∈ ks, HasRows k)
    {p : Problem} (hp : Shaped o guessing kss p) (junk : ℕ → ℕ → ℕ → ℝ) (junkI : ℕ → ℕ → ℕ) :
    ∃ p', p.form junk junkI guessing model mpc = .ok p' := by
  have hN := h.consistent.size.2
  have hm : ∃ Ls, p.hierarchy.levels.mapM (fun L => L.form (problemSize mpc) ⟨TaskEnv.of model mpc, p.zero, junk, junkI⟩ guessing) = .ok Ls := by
    have hs := hp.shape
    clear h0 hp
    generalize p.hierarchy.levels = Ls at hs
    induction hs with
    | nil => exact ⟨[], rfl⟩
    | @cons L ks Ls kss hL _ ih =>
      obtain ⟨Ls', e⟩ := ih fun ks hk => hks ks (by simp [hk])
      obtain ⟨L', eL⟩ : ∃ L', L.form (problemSize mpc) ⟨TaskEnv.of model mpc, p.zero, junk, junkI⟩ guessing = .ok L' := by
        refine level_form_ok (fun ti hti => ?_) ?_
        · obtain ⟨i, hi, rfl⟩ := List.getElem_of_mem hti
          exact is_formAll h (List.Forall₂.get hL hi (hL.length_eq ▸ hi)) junk junkI
        · obtain ⟨k, hk, hr⟩ := hks ks (by simp)
          obtain ⟨i, hi, hik⟩ := List.getElem_of_mem hk
          have hi' : i < L.tasks.length := hL.length_eq ▸ hi
          refine ⟨_, List.getElem_mem hi', fun t' e => ?_⟩
          have hT := List.Forall₂.get hL hi' hi
          rw [List.get_eq_getElem, List.get_eq_getElem, hik] at hT
          have hF := is_formed h hT e
          cases k with
          | none => rw [hF.2.rows]; exact one_pos
          | some k =>
            obtain ⟨_, -, hF⟩ := TaskOf.kept hF
            rw [taskMeans_rows hF.means]
            cases k <;> first | exact hr.elim | exact two_pos | (show 0 < 2 * _; omega)
      exact ⟨L' :: Ls', by rw [List.mapM_cons, eL, ok_bind, e]; rfl⟩
  obtain ⟨Ls, e⟩ := hm
  have hl : 0 < p.hierarchy.levels.length := by
    rw [hp.shape.length_eq]
    exact List.length_pos_of_ne_nil h0
  refine ⟨⟨⟨Ls, Ls.map Level.nConstraints⟩, (p.zero.form (TaskEnv.of model mpc).structure_ noData).1⟩, ?_⟩
  unfold Problem.form
  simp only
  rw [h.nvars]
  unfold Hierarchy.form
  rw [assertThat_true hl, ok_bind, e]
  rfl

/-- The guess of the problem. -/
theorem shaped_guess (h : Ready model mpc) {kss : List (List (Option WalkTask))} {p p' : Problem} (hp : Shaped o true kss p)
    {junk : ℕ → ℕ → ℕ → ℝ} {junkI : ℕ → ℕ → ℕ} (e : p.form junk junkI true model mpc = .ok p') :
    ∃ a, p'.hierarchy.guessActiveSet = .ok a ∧ a.map List.length = p'.hierarchy.levels.map Level.nConstraints ∧ ∀ c ∈ a, Decided c := by
  obtain ⟨-, ef, -⟩ := shaped_formed h hp e
  refine decided_hierarchy ef hp.reach fun L hL ti hti => ?_
  obtain ⟨i, hi, rfl⟩ := List.getElem_of_mem hL
  have hf := hierarchy_forms ef
  have hi' : i < p.hierarchy.levels.length := hf.length_eq ▸ hi
  have eL := hf.get hi' hi
  have hT := List.Forall₂.get hp.shape hi' (hp.shape.length_eq ▸ hi')
  rw [List.get_eq_getElem, List.get_eq_getElem] at eL
  rw [List.get_eq_getElem, List.get_eq_getElem] at hT
  have hall := form_forall2 eL
  obtain ⟨j, hj, rfl⟩ := List.getElem_of_mem hti
  have hj' : j < (p.hierarchy.levels[i]).tasks.length := hall.length_eq ▸ hj
  have ej := hall.get hj' hj
  have hTj := hT.get hj' (hT.length_eq ▸ hj')
  rw [List.get_eq_getElem, List.get_eq_getElem] at ej hTj
  obtain ⟨k, hTj⟩ : ∃ k, TaskIs o p.zero true ((p.hierarchy.levels[i]).tasks[j]).task k := ⟨_, hTj⟩
  cases k with
  | none =>
    obtain ⟨t', e', -, h1, h2⟩ := infeasible_formAll (z := p.zero) h hTj junk junkI
    cases e'.symm.trans ej
    rw [h1.rows]
    exact h2 rfl
  | some k =>
    have hn := TaskOf.kept hTj
    obtain ⟨t', e', hl⟩ := task_formAll h hTj junk junkI (noSets_fit k hn)
    cases e'.symm.trans ej
    refine ⟨hl rfl, decided_task h hTj ?_ e'⟩
    rw [hn.1]
    exact fun a ha => by cases ha

end

/-! ### The hierarchies -/

/-- Three levels. -/
def kinds3 : List (List (Option WalkTask)) :=
  [[some .footsteps, some .cop], [some .terminal], [some .copVelocity, some .comVelocity, some .copPosition]]

/-- The infeasible task on the first level. -/
def kinds4 : List (List (Option WalkTask)) :=
  [[none, some .footsteps, some .cop], [some .copVelocity, some .comVelocity, some .copPosition]]

theorem new_task (o : ProblemSetup) (guessing : Bool) (k : WalkTask) :
    TaskIs o (ZeroVariables.make o.copPositionGain copId) guessing (k.make o) (some k) := by
  refine ⟨rfl, rfl, rfl, fun e => ⟨[], ?_⟩, ?_⟩
  · cases e; rfl
  · cases k <;> exact ⟨rfl, fun _ => rfl⟩

theorem shaped3 (o : ProblemSetup) (P : Hierarchy ProblemEnv ℝ) (guessing : Bool) : ∃ p, setupHierarchy3 o P = .ok p ∧ Shaped o guessing kinds3 p := by
  refine ⟨⟨⟨[(Level.empty.pushTask (footstepsTask o)).pushTask copTask, Level.empty.pushTask (terminalTask o),
      ((Level.empty.pushTask (comVelocityTask o)).pushTask (copVelocityTask o)).pushTask copPositionTask], (P.reset 3).counts⟩,
      ZeroVariables.make o.copPositionGain copId⟩, rfl, fun L hL => ?_, ?_⟩
  · simp only [List.mem_cons, List.not_mem_nil, or_false] at hL
    rcases hL with rfl | rfl | rfl
    · exact .push _ (.push _ .empty)
    · exact .push _ .empty
    · exact .push _ (.push _ (.push _ .empty))
  · have hn := new_task o guessing
    exact .cons (.cons (hn .footsteps) (.cons (hn .cop) .nil)) (.cons (.cons (hn .terminal) .nil) (.cons (.cons (hn .copVelocity)
      (.cons (hn .comVelocity) (.cons (hn .copPosition) .nil))) .nil))

theorem shaped4 (o : ProblemSetup) (P : Hierarchy ProblemEnv ℝ) (guessing : Bool) : ∃ p, setupHierarchy4 o P = .ok p ∧ Shaped o guessing kinds4 p := by
  refine ⟨⟨⟨[((Level.empty.pushTask (footstepsTask o)).pushTask copTask).pushTask infeasibleTask,
      ((Level.empty.pushTask (comVelocityTask o)).pushTask (copVelocityTask o)).pushTask copPositionTask], (P.reset 2).counts⟩,
      ZeroVariables.make o.copPositionGain copId⟩, rfl, fun L hL => ?_, ?_⟩
  · simp only [List.mem_cons, List.not_mem_nil, or_false] at hL
    rcases hL with rfl | rfl
    · exact .push _ (.push _ (.push _ .empty))
    · exact .push _ (.push _ (.push _ .empty))
  · have hn := new_task o guessing
    have hi : TaskIs o (ZeroVariables.make o.copPositionGain copId) guessing infeasibleTask none :=
      ⟨rfl, rfl, rfl, .inl rfl, rfl, fun _ => rfl⟩
    exact .cons (.cons hi (.cons (hn .footsteps) (.cons (hn .cop) .nil))) (.cons (.cons (hn .copVelocity)
      (.cons (hn .comVelocity) (.cons (hn .copPosition) .nil))) .nil)

theorem shaped_after {o : ProblemSetup} {guessing : Bool} {kss : List (List (Option WalkTask))} {p0 p : Problem} (h0 : Shaped o guessing kss p0)
    (h : UnsolvedAfter guessing p0 p) : Shaped o guessing kss p := by
  induction h with
  | setup => exact h0
  | form _ hu e ih => exact (shaped_formed (updated_ready hu) ih e).1

theorem kinds3_rows : ∀ ks ∈ kinds3, ∃ k ∈ ks, HasRows k := by
  intro ks hk
  simp only [kinds3, List.mem_cons, List.not_mem_nil, or_false] at hk
  rcases hk with rfl | rfl | rfl
  · exact ⟨some .cop, by simp, trivial⟩
  · exact ⟨some .terminal, by simp, trivial⟩
  · exact ⟨some .copPosition, by simp, trivial⟩

theorem kinds4_rows : ∀ ks ∈ kinds4, ∃ k ∈ ks, HasRows k := by
  intro ks hk
  simp only [kinds4, List.mem_cons, List.not_mem_nil, or_false] at hk
  rcases hk with rfl | rfl
  · exact ⟨none, by simp, trivial⟩
  · exact ⟨some .copPosition, by simp, trivial⟩

section
variable {model : Model} {mpc : Mpc} {o : ProblemSetup} {P : Hierarchy ProblemEnv ℝ} {guessing : Bool} {p0 p p' : Problem}

/-- **C115.** Both hierarchies are set up and, after any history without a solution, formed without a failure, with guesses of the active
set and without them. -/
theorem C115_formed (h : setupHierarchy3 o P = .ok p0 ∨ setupHierarchy4 o P = .ok p0) (hp : UnsolvedAfter guessing p0 p)
    (hu : Updated model mpc) (junk : ℕ → ℕ → ℕ → ℝ) (junkI : ℕ → ℕ → ℕ) : ∃ p', p.form junk junkI guessing model mpc = .ok p' := by
  rcases h with h | h
  · obtain ⟨p1, e, hs⟩ := shaped3 o P guessing
    cases h.symm.trans e
    exact shaped_form (updated_ready hu) (by simp [kinds3]) kinds3_rows (shaped_after hs hp) junk junkI
  · obtain ⟨p1, e, hs⟩ := shaped4 o P guessing
    cases h.symm.trans e
    exact shaped_form (updated_ready hu) (by simp [kinds4]) kinds4_rows (shaped_after hs hp) junk junkI

theorem check_fails {ext : Qpoases ℝ} {p : Problem} {sol : Solution ℝ} {e : Entry ActiveSetH ℝ} {s : SolverState (QpoasesMem ℝ)}
    (hc : qpCheckInputs (Entry.parameters s.params e) p.hierarchy = .error .thrown) : SolvingThrows ext p sol e s := by
  intro z zc
  have h1 : (qpoasesBackend ext z zc).checkInputs p.hierarchy ⟨Entry.parameters s.params e, s.mem⟩ =
      (.error .thrown, ⟨Entry.parameters s.params e, s.mem⟩) := by
    simp [qpoasesBackend, hc]
  generalize qpoasesBackend ext z zc = B at *
  obtain ⟨q, m⟩ := s
  cases e <;> simp only [Entry.parameters] at * <;> simp [Backend.solve, SM.bind_apply, Backend.setParams, h1]

/-- **C115.** A hierarchy of three levels is not solved as a quadratic program: there is an exception for each entry point of the solver,
for all its parameters, and it does not depend on qpOASES. -/
theorem C115_levels (h : setupHierarchy3 o P = .ok p0) (hp : UnsolvedAfter guessing p0 p) (hu : Updated model mpc)
    {junk : ℕ → ℕ → ℕ → ℝ} {junkI : ℕ → ℕ → ℕ} (hf : p.form junk junkI guessing model mpc = .ok p') (ext : Qpoases ℝ) (sol : Solution ℝ)
    (e : Entry ActiveSetH ℝ) (s : SolverState (QpoasesMem ℝ)) : SolvingThrows ext p' sol e s := by
  obtain ⟨p1, e1, hs⟩ := shaped3 o P guessing
  cases h.symm.trans e1
  have hs := shaped_after hs hp
  obtain ⟨-, h2, h3⟩ := shaped_formed (updated_ready hu) hs hf
  have hl : p'.hierarchy.levels.length = 3 := h3.length_eq
  obtain ⟨c1, c2⟩ := C18_checkInputs h2 hs.reach (Entry.parameters s.params e)
  refine check_fails (c2.resolve_left fun hc => ?_)
  obtain ⟨-, hn, -⟩ := c1.1 hc
  omega

/-- **C115.** No motion satisfies the hierarchy with an infeasible task. -/
theorem C115_unsatisfiable (h : setupHierarchy4 o P = .ok p0) (hp : UnsolvedAfter guessing p0 p) (hu : Updated model mpc)
    {junk : ℕ → ℕ → ℕ → ℝ} {junkI : ℕ → ℕ → ℕ} (hf : p.form junk junkI guessing model mpc = .ok p') :
    ∃ L0 L1, p'.hierarchy.levels = [L0, L1] ∧ ∀ x, ¬ LevelSatisfied L0 x := by
  obtain ⟨p1, e1, hs⟩ := shaped4 o P guessing
  cases h.symm.trans e1
  obtain ⟨-, -, h3⟩ := shaped_formed (updated_ready hu) (shaped_after hs hp) hf
  obtain ⟨L0, L1, hL, h0, -⟩ := forall2_split h3
  refine ⟨L0, L1, hL, fun x hx => ?_⟩
  unfold LevelSatisfied at hx
  generalize L0.tasks = l at h0 hx
  cases h0 with
  | @cons a _ _ _ ha _ => exact ha.2.not x (hx a (by simp))

/-- **C115.** The hierarchy with an infeasible task is never solved: whatever qpOASES does, if it returns only solutions, there is an
exception for each entry point of the solver. -/
theorem C115_infeasible (h : setupHierarchy4 o P = .ok p0) (hp : UnsolvedAfter guessing p0 p) (hu : Updated model mpc)
    {junk : ℕ → ℕ → ℕ → ℝ} {junkI : ℕ → ℕ → ℕ} (hf : p.form junk junkI guessing model mpc = .ok p') {ext : Qpoases ℝ}
    (hext : TrustedSolver ext) {sol : Solution ℝ} (hsol : SolutionSized mpc sol) {e : Entry ActiveSetH ℝ} {s : SolverState (QpoasesMem ℝ)}
    (he : ∀ L0 ∈ p'.hierarchy.levels[0]?, GuessesFit L0 sol.structure_.nvars e)
    (hs : Entry.parameters s.params e = SolverParameters.default) : SolvingThrows ext p' sol e s := by
  obtain ⟨L0, L1, hL, hno⟩ := C115_unsatisfiable h hp hu hf
  obtain ⟨p1, e1, hs'⟩ := shaped4 o P guessing
  cases h.symm.trans e1
  have hsh := shaped_after hs' hp
  obtain ⟨-, h2, h3⟩ := shaped_formed (updated_ready hu) hsh hf
  have hnv : sol.structure_.nvars = problemSize mpc := hsol.1
  have hall : ∀ L ∈ p'.hierarchy.levels, ∀ ti ∈ L.tasks, InRange ti.task.ctr := by
    intro L hL ti hti
    obtain ⟨i, hi, rfl⟩ := List.getElem_of_mem hL
    have hT := List.Forall₂.get h3 hi (h3.length_eq ▸ hi)
    rw [List.get_eq_getElem] at hT
    obtain ⟨j, hj, rfl⟩ := List.getElem_of_mem hti
    exact inRange_of (List.Forall₂.get hT hj (hT.length_eq ▸ hj)).wf
  obtain ⟨A, B, hAB, hA, hB⟩ := forall2_split h3
  cases hL.symm.trans hAB
  have hm : ∀ ti ∈ L1.tasks, CanMinimise ti.task.ctr := by
    generalize L1.tasks = l at hB
    cases hB with
    | cons a hB => cases hB with
      | cons b hB => cases hB with
        | cons c hB =>
          cases hB
          intro ti hti
          simp only [List.mem_cons, List.not_mem_nil, or_false] at hti
          unfold CanMinimise
          rcases hti with rfl | rfl | rfl
          · rw [TaskOf.ctype a]; exact ⟨rfl, (show CtrType.ab ≠ .ib by decide)⟩
          · rw [TaskOf.ctype b]; exact ⟨rfl, (show CtrType.ab ≠ .ib by decide)⟩
          · rw [TaskOf.ctype c]; exact ⟨rfl, (show CtrType.gib0 ≠ .ib by decide)⟩
  have hI : ∀ ti ∈ L0.tasks, ti.task.ctr.ctype.isSimple = true → ti.task.ctr.ctype.hasILUCopy = true := by
    generalize L0.tasks = l at hA
    cases hA with
    | cons a hA => cases hA with
      | cons b hA => cases hA with
        | cons c hA =>
          cases hA
          intro ti hti hsimple
          simp only [List.mem_cons, List.not_mem_nil, or_false] at hti
          rcases hti with rfl | rfl | rfl
          · rw [a.2.ctype] at hsimple
            cases hsimple
          · rw [TaskOf.ctype b]; rfl
          · rw [TaskOf.ctype c]; rfl
  intro z zc
  rcases C83_solve h2 hsh.reach hL hall hm hI hext z zc hnv (hsol.2.trans hnv) (hnv ▸ he L0 (by rw [hL]; rfl)) hs with
    ⟨sol', a, s', -, -, ha⟩ | ⟨s', e', -⟩
  · exact absurd ha.optimal.1 (hno _)
  · exact ⟨s', e'⟩

end

/-! ### The program -/

section
variable {p : FSMParams} {N T : ℕ} {q : MPCParameters} {o : ProblemSetup} {nan : ℝ} {ext : Qpoases ℝ} {s : Program}

theorem unsolvable_step (hp : LoopParameters p N T) (hq : MPCParameters.make N T T T = .ok q) (hext : TrustedSolver ext)
    (h0 : UnsolvableStart p q o s) (hl : N * T ≤ walkMs p) (u : Memory) (w : WalkParameters) :
    ∃ fuel, s.iterate ext fuel nan T u w = some (.error .thrown) := by
  obtain ⟨side, hI⟩ := loop_start hp h0.loop
  obtain ⟨U1, -⟩ := loop_update hp hq hI nan u.horizon u.matrices u.indices w
  rw [hI.over hp] at U1
  obtain ⟨mpc, hu⟩ := U1 (by omega)
  obtain ⟨hU, -⟩ := loop_updated hp hq hI hu
  have hU : Updated s.model mpc := hU
  have hR : Ready s.model mpc := updated_ready hU
  have hst : mpc.matrices.solution = solutionStructure mpc.horizon.intervals.n mpc.horizon.variable_steps.length := hR.structure_
  have hnv : mpc.matrices.solution.nvars = problemSize mpc := hR.nvars
  obtain ⟨sol, e1, hsol⟩ : ∃ sol, initSolutionStructure mpc.matrices.solution s.solution u.solution = .ok sol ∧ SolutionFor mpc.horizon sol := by
    refine ⟨s.solution.resize mpc.matrices.solution u.solution, ?_, hst, ?_⟩
    · unfold initSolutionStructure
      rw [assertThat_true (by rw [hst]; rfl)]
      rfl
    · show (if _ then _ else _ : List ℝ).length = problemSize mpc
      split
      · rename_i h; rw [h, hnv]
      · rw [List.length_map, List.length_range, hnv]
  obtain ⟨P, hP⟩ := h0.problem
  obtain ⟨p1, e2⟩ := C115_formed (guessing := true) hP .setup hU u.tasks u.taskIndices
  obtain ⟨g, e3, hgs, -⟩ := C78_first (H := mpc.horizon) hst s.solutionGuess h0.old
  obtain ⟨a, e4, ha, hda⟩ : ∃ a, p1.hierarchy.guessActiveSet = .ok a ∧ a.map List.length = p1.hierarchy.levels.map Level.nConstraints ∧
      ∀ c ∈ a, Decided c := by
    rcases hP with h | h
    · obtain ⟨p2, e, hs⟩ := shaped3 o P true
      cases h.symm.trans e
      exact shaped_guess hR hs e2
    · obtain ⟨p2, e, hs⟩ := shaped4 o P true
      cases h.symm.trans e
      exact shaped_guess hR hs e2
  have hthrow : SolvingThrows ext p1 sol (.guessActiveSetInOut g a) s.solver := by
    rcases hP with h | h
    · exact C115_levels h .setup hU e2 ext sol _ _
    · have hn : sol.structure_.nvars = problemSize mpc := by rw [hsol.structure_, ← hst, hnv]
      refine C115_infeasible h .setup hU e2 hext ⟨hn, hsol.size.trans hn.symm⟩ (fun L0 hL0 => ?_) h0.solver
      rw [hn]
      refine ⟨fun g' hg' => ?_, fun a' ha' => ?_⟩
      · cases hg'
        exact hgs.size.ge
      · cases ha'
        obtain ⟨L1, Ls, hL⟩ : ∃ L1 Ls, p1.hierarchy.levels = L1 :: Ls := by
          cases hl : p1.hierarchy.levels with
          | nil => rw [hl] at hL0; cases hL0
          | cons L1 Ls => exact ⟨L1, Ls, rfl⟩
        rw [hL] at ha hL0
        cases hL0
        rw [List.map_cons] at ha
        obtain ⟨c, t, rfl, hc, -⟩ := List.map_eq_cons_iff.1 ha
        exact ⟨c, rfl, hc, hda c (by simp)⟩
  obtain ⟨sv, hsv⟩ := hthrow u.objective u.constraints
  obtain ⟨f1, hu1⟩ := hu
  have hu1 : s.mpc.update f1 nan u.horizon u.matrices u.indices s.model s.fsm w = some (.ok (mpc, .ok)) := hu1
  refine ⟨f1, ?_⟩
  have es : s.solveProblem ext u mpc = .error .thrown := by
    unfold Program.solveProblem Problem.formWithGuesses
    rw [e1, ok_bind, e2, ok_bind, e3, ok_bind, e4, ok_bind, pure_eq_ok, ok_bind]
    simp only [hsv]
  unfold Program.iterate
  rw [hu1]
  simp only [es]

/-- **C115.** A walking program with one of these hierarchies throws in its first iteration, for all walks, parameters of the robot and of
the problem, with guesses of the solution and of the active set: no command is ever computed. -/
theorem C115_program (hp : LoopParameters p N T) (hq : MPCParameters.make N T T T = .ok q) (hext : TrustedSolver ext)
    (h0 : UnsolvableStart p q o s) (hl : N * T ≤ walkMs p) (u : ℕ → Memory) (w : WalkParameters) :
    IterationReturns ext nan T (u 0) w s (.error .thrown) ∧ ProgramReturns ext nan T u w s (.error .thrown) := by
  obtain ⟨fuel, e⟩ := unsolvable_step (nan := nan) hp hq hext h0 hl (u 0) w
  refine ⟨⟨fuel, e⟩, fuel, 1, ?_⟩
  unfold Program.run
  rw [e]

end

/-- The default walk with each of the two hierarchies: the first update returns, both hierarchies are formed, and the program throws. -/
example (nan : ℝ) (u : ℕ → Memory) (w : WalkParameters) (fixed three : Bool) : ∃ ext q s p0 model mpc p', TrustedSolver ext ∧
    MPCParameters.make 16 100 100 100 = .ok q ∧ UnsolvableStart FSMParams.default q (defaultSetup fixed false) s ∧
    (if three then setupHierarchy3 (defaultSetup fixed false) ⟨[], []⟩ else setupHierarchy4 (defaultSetup fixed false) ⟨[], []⟩) = .ok p0 ∧
    Updated model mpc ∧ p0.form (u 0).tasks (u 0).taskIndices false model mpc = .ok p' ∧
    ProgramReturns ext nan 100 u w s (.error .thrown) := by
  obtain ⟨ext, h1, -⟩ := exists_solver
  obtain ⟨q, hq⟩ : ∃ q, MPCParameters.make 16 100 100 100 = .ok q := ⟨_, rfl⟩
  obtain ⟨s0, h0, hm⟩ := default_program nan (q := q) fixed false
  obtain ⟨model, mpc, hU, -⟩ := updated_default nan (u 0).horizon (u 0).matrices (u 0).indices w
  obtain ⟨p0, e0, e0'⟩ : ∃ p0, (if three then setupHierarchy3 (defaultSetup fixed false) ⟨[], []⟩
      else setupHierarchy4 (defaultSetup fixed false) ⟨[], []⟩) = .ok p0 ∧ (setupHierarchy3 (defaultSetup fixed false) ⟨[], []⟩ = .ok p0 ∨
        setupHierarchy4 (defaultSetup fixed false) ⟨[], []⟩ = .ok p0) := by
    cases three
    · obtain ⟨p0, e, -⟩ := shaped4 (defaultSetup fixed false) ⟨[], []⟩ true
      exact ⟨p0, e, .inr e⟩
    · obtain ⟨p0, e, -⟩ := shaped3 (defaultSetup fixed false) ⟨[], []⟩ true
      exact ⟨p0, e, .inl e⟩
  obtain ⟨p', e'⟩ := C115_formed (guessing := false) e0' .setup hU (u 0).tasks (u 0).taskIndices
  have hs : UnsolvableStart FSMParams.default q (defaultSetup fixed false) { s0 with problem := p0 } :=
    ⟨h0.loop, ⟨_, e0'⟩, h0.solver, h0.old⟩
  exact ⟨ext, q, _, p0, model, mpc, p', h1, hq, hs, e0, hU, e', (C115_program default_loop hq h1 hs (by decide) u w).2⟩

end Humoto.Wpg
