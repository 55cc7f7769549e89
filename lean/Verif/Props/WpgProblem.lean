import Verif.Lemmas.WpgProblem3
import Verif.Props.BridgesSolve

/-!
# Walking pattern generator: what the optimization problem means (C82)
-/

namespace Humoto.Wpg

open Spec Spec.Wpg Bridge

theorem updated_ready {model : Model} {mpc : Mpc} (h : Updated model mpc) : Ready model mpc := by
  obtain ⟨c, p, f, old, nan, junkH, junk, junkI, w, h1, h2, h3, h4, h5, h6, h7⟩ := h
  exact C81_ready h1 h2 h3 h4 h5 h6 h7

/-- The invariant of problems which are formed without guesses. -/
theorem problem_after {o : ProblemSetup} {p : Problem} (h : ProblemAfter o false p) : WalkProblem o (fun _ t => t.guess = []) p := by
  induction h with
  | @setup P p h =>
    obtain ⟨p', e, h'⟩ := walk_setup o P
    cases h.symm.trans e
    exact h'.mono fun _ _ h => h.1
  | @form p p' junk junkI model mpc _ hu h ih =>
    exact (walk_formed (updated_ready hu) ih h).1.mono fun _ _ ⟨_, h1, h2⟩ => (h2.guess rfl).trans h1
  | process _ h ih =>
    refine (walk_process ih h).mono fun _ _ ⟨t, h, ⟨x, hx⟩, _, _⟩ => ?_
    rw [hx]
    exact h

/-- The active sets have sizes of the problem which was formed last. -/
def LastSizes (h : Option Horizon) (k : WalkTask) (t : Task ProblemEnv ℝ) : Prop :=
  match h with
  | none => t.actual = []
  | some H => t.actual.length = taskRows H k

theorem fits_of_sizes {o : ProblemSetup} {H : Horizon} {h : Option Horizon} (hs : SizesFit H h) (k : WalkTask)
    (t : Task ProblemEnv ℝ) (ht : LastSizes h k t) : GuessFits o H true k t := by
  unfold GuessFits
  rw [if_pos rfl]
  cases h with
  | none =>
    have ht : t.actual = [] := ht
    cases k <;> first | trivial | (rw [ht]; exact .inr ⟨0, rfl, Nat.zero_le _⟩) | (rw [ht]; exact .inl rfl)
  | some H' =>
    obtain ⟨h1, h2, h3⟩ := hs H' rfl
    have ht : t.actual.length = taskRows H' k := ht
    cases k with
    | footsteps => exact .inr ⟨_, ht, h1⟩
    | cop => exact .inr ⟨by rw [ht]; show 2 * _ = _; rw [h2], h3⟩
    | copPosition => exact .inr (by rw [ht]; show 2 * _ = _; rw [h2])
    | _ => trivial

/-- The invariant of problems of a loop. -/
theorem solved_after {o : ProblemSetup} {h : Option Horizon} {p : Problem} (hp : SolvedAfter o h p) : WalkProblem o (LastSizes h) p := by
  induction hp with
  | @setup P p h =>
    obtain ⟨p', e, h'⟩ := walk_setup o P
    cases h.symm.trans e
    exact h'.mono fun _ _ h => h.2
  | @cycle h p p' p'' junk junkI model mpc s _ hu hf hs ih =>
    obtain ⟨h1, h2⟩ := walk_formed (updated_ready hu) ih hf
    have hl := walk_locations ih.reach h2
    refine (walk_process h1 hs).mono fun k t ⟨t1, ⟨_, _, hF⟩, ⟨x, hx⟩, ht, _⟩ => ?_
    show t.actual.length = taskRows mpc.horizon k
    rw [ht hl, hx]
    exact taskMeans_rows hF.means

/-- What the theorems on solvers need besides the meaning of the levels. -/
structure WalkSolvable (o : ProblemSetup) (mpc : Mpc) (L0 L1 : Level ProblemEnv ℝ) : Prop where
  inRange : ∀ L ∈ [L0, L1], ∀ ti ∈ L.tasks, InRange ti.task.ctr
  minimise : ∀ ti ∈ L1.tasks, CanMinimise ti.task.ctr
  simple : ∀ ti ∈ L0.tasks, ti.task.ctr.ctype.isSimple = true → ti.task.ctr.ctype.hasILUCopy = true
  determined : o.copPositionGain ≠ 0 → o.copVelocityGain ≠ 0 → Determined L1.tasks (problemSize mpc)
  within : ∀ ti ∈ L0.tasks, ∀ x, WithinInfinity ti.task.ctr x
  bounds : BoundsVariables L0

theorem inRange_of {c : Ctr ℝ} (h : WellFormed c) : InRange c := by
  obtain ⟨-, h⟩ := h
  obtain ⟨t, nv, d⟩ := c
  cases t <;> first | trivial | exact h | exact h.2 | exact h.2.1

theorem within_ilu {c : Ctr ℝ} (h : c.ctype = .ilu) (x : ℕ → ℝ) : WithinInfinity c x := by
  obtain ⟨t, nv, d⟩ := c
  cases h
  exact fun i _ => ⟨fun e => (by cases e), fun e => (by cases e)⟩

theorem within_ab {c : Ctr ℝ} (h : c.ctype = .ab) (x : ℕ → ℝ) : WithinInfinity c x := by
  obtain ⟨t, nv, d⟩ := c
  cases h
  exact fun i _ => ⟨fun e => (by cases e), fun e => (by cases e)⟩

/-- The meaning of a formed problem. -/
theorem formed_means {o : ProblemSetup} {model : Model} {mpc : Mpc} (h : Ready model mpc) {Q : WalkTask → Task ProblemEnv ℝ → Prop}
    {guessing : Bool} {p : Problem} (hp : WalkProblem o (fun k t' => ∃ t, Q k t ∧ FormedWalkTask o model mpc guessing t t' k) p)
    (hg : o.terminal = true → o.terminalGain ≠ 0) :
    ∃ L0 L1, p.hierarchy.levels = [L0, L1] ∧ WalkLevels o mpc.horizon model L0 L1 ∧ WalkSolvable o mpc L0 L1 := by
  obtain ⟨L0, L1, hL, h0, h1⟩ := forall2_split hp.shape
  obtain ⟨v, m, q, e1, hv, hm, hq⟩ : ∃ v m q, L1.tasks = [v, m, q] ∧ TaskOf o p.zero (fun k t' => ∃ t, Q k t ∧
      FormedWalkTask o model mpc guessing t t' k) v.task .copVelocity ∧ TaskOf o p.zero (fun k t' => ∃ t, Q k t ∧
      FormedWalkTask o model mpc guessing t t' k) m.task .comVelocity ∧ TaskOf o p.zero (fun k t' => ∃ t, Q k t ∧
      FormedWalkTask o model mpc guessing t t' k) q.task .copPosition := by
    generalize L1.tasks = l at h1
    cases h1 with
    | cons a h1 => cases h1 with
      | cons b h1 => cases h1 with
        | cons c h1 => cases h1; exact ⟨_, _, _, rfl, a, b, c⟩
  obtain ⟨_, -, hv'⟩ := hv.kept
  obtain ⟨_, -, hm'⟩ := hm.kept
  obtain ⟨_, -, hq'⟩ := hq.kept
  have hls : ∀ x, leastSquares L1.tasks x = residualSq v.task.ctr x + (residualSq m.task.ctr x + residualSq q.task.ctr x) := by
    intro x
    unfold leastSquares
    rw [e1]
    simp
  obtain ⟨ts, s, f, hts, e0, hs, hf⟩ : ∃ ts s f, (o.terminal = false ∧ ts = [] ∨ ∃ t, o.terminal = true ∧ ts = [t] ∧
      TaskOf o p.zero (fun k t' => ∃ t, Q k t ∧ FormedWalkTask o model mpc guessing t t' k) t.task .terminal) ∧ L0.tasks = ts ++ [s, f] ∧
      TaskOf o p.zero (fun k t' => ∃ t, Q k t ∧ FormedWalkTask o model mpc guessing t t' k) s.task .footsteps ∧
      TaskOf o p.zero (fun k t' => ∃ t, Q k t ∧ FormedWalkTask o model mpc guessing t t' k) f.task .cop := by
    cases ht : o.terminal with
    | false =>
      rw [ht] at h0
      obtain ⟨s, f, e, hs, hf⟩ := forall2_split h0
      exact ⟨[], s, f, .inl ⟨rfl, rfl⟩, e, hs, hf⟩
    | true =>
      rw [ht] at h0
      generalize L0.tasks = l at h0
      cases h0 with
      | @cons t _ _ _ a h0 =>
        obtain ⟨s, f, e, hs, hf⟩ := forall2_split h0
        exact ⟨[t], s, f, .inr ⟨t, rfl, rfl, a⟩, by rw [e]; rfl, hs, hf⟩
  obtain ⟨_, -, hs'⟩ := hs.kept
  obtain ⟨_, -, hf'⟩ := hf.kept
  refine ⟨L0, L1, hL, ⟨fun x => ?_, fun x c => ?_⟩, ⟨?_, ?_, ?_, ?_, ?_, ?_⟩⟩
  · have hLs : LevelSatisfied L0 x ↔ (∀ ti ∈ ts, Satisfied ti.task.ctr x) ∧ Satisfied s.task.ctr x ∧ Satisfied f.task.ctr x := by
      unfold LevelSatisfied
      rw [e0]
      simp only [List.mem_append, List.mem_cons, List.not_mem_nil, or_false]
      constructor
      · exact fun h => ⟨fun ti hti => h ti (.inl hti), h s (.inr (.inl rfl)), h f (.inr (.inr rfl))⟩
      · rintro ⟨h1, h2, h3⟩ ti (h | rfl | rfl)
        · exact h1 ti h
        · exact h2
        · exact h3
    have hterm : (∀ ti ∈ ts, Satisfied ti.task.ctr x) ↔ (o.terminal = true → Capturable mpc.horizon model x) := by
      rcases hts with ⟨ht, rfl⟩ | ⟨t, ht, rfl, hT⟩
      · rw [ht]
        exact ⟨fun _ e => (by cases e), fun _ ti hti => (by cases hti)⟩
      · obtain ⟨_, -, hT'⟩ := hT.kept
        rw [List.forall_mem_singleton, walk_capturable h (hg ht) hT'.means hT.ctype]
        exact ⟨fun h _ => h, fun h => h ht⟩
    rw [hLs, hterm, hs'.means.2 x, hf'.means.2 x]
    exact ⟨fun ⟨a, b, c⟩ => ⟨b, c, a⟩, fun ⟨b, c, a⟩ => ⟨a, b, c⟩⟩
  · rw [hls]
    exact walk_cost h hv'.means hm'.means hq'.means x c
  · have hall : ∀ L ∈ p.hierarchy.levels, ∀ ti ∈ L.tasks, WellFormed ti.task.ctr := by
      intro L hL ti hti
      obtain ⟨i, hi, rfl⟩ := List.getElem_of_mem hL
      have hT := List.Forall₂.get hp.shape hi (hp.shape.length_eq ▸ hi)
      rw [List.get_eq_getElem] at hT
      obtain ⟨j, hj, rfl⟩ := List.getElem_of_mem hti
      obtain ⟨_, -, hF⟩ := (List.Forall₂.get hT hj (hT.length_eq ▸ hj)).kept
      exact hF.wf
    rw [hL] at hall
    exact fun L hL ti hti => inRange_of (hall L hL ti hti)
  · intro ti hti
    rw [e1] at hti
    simp only [List.mem_cons, List.not_mem_nil, or_false] at hti
    unfold CanMinimise
    rcases hti with rfl | rfl | rfl
    · rw [hv.ctype]; exact ⟨rfl, (show CtrType.ab ≠ .ib by decide)⟩
    · rw [hm.ctype]; exact ⟨rfl, (show CtrType.ab ≠ .ib by decide)⟩
    · rw [hq.ctype]; exact ⟨rfl, (show CtrType.gib0 ≠ .ib by decide)⟩
  · intro ti hti hsimple
    rw [e0] at hti
    rcases List.mem_append.1 hti with hti | hti
    · rcases hts with ⟨-, rfl⟩ | ⟨t, -, rfl, hT⟩
      · cases hti
      · cases List.mem_singleton.1 hti
        rw [hT.ctype] at hsimple
        cases hsimple
    · simp only [List.mem_cons, List.not_mem_nil, or_false] at hti
      rcases hti with rfl | rfl
      · rw [hs.ctype]; rfl
      · rw [hf.ctype]; rfl
  · intro hgp hgv x hx
    refine walk_determined h hq'.means hq.ctype hv'.means hv.ctype hgp hgv (hx q ?_) (hx v ?_) <;> rw [e1] <;> simp
  · intro ti hti x
    rw [e0] at hti
    rcases List.mem_append.1 hti with hti | hti
    · rcases hts with ⟨-, rfl⟩ | ⟨t, -, rfl, hT⟩
      · cases hti
      · cases List.mem_singleton.1 hti
        exact within_ab hT.ctype x
    · simp only [List.mem_cons, List.not_mem_nil, or_false] at hti
      rcases hti with rfl | rfl
      · exact within_ilu hs.ctype x
      · exact within_ilu hf.ctype x
  · refine ⟨f, by rw [e0]; simp, by rw [hf.ctype]; rfl, ?_⟩
    rw [taskMeans_rows hf'.means]
    have := h.consistent.size.2
    show 2 * mpc.horizon.intervals.n ≠ 0
    omega

section
variable {o : ProblemSetup} {model : Model} {mpc : Mpc} {p p' : Problem}

/-- **C82.** The hierarchy is set up without failure, from whatever was there before. -/
theorem C82_setup (o : ProblemSetup) (P : Hierarchy ProblemEnv ℝ) : ∃ p, setupHierarchy o P = .ok p := by
  obtain ⟨p, e, -⟩ := walk_setup o P
  exact ⟨p, e⟩

/-- **C82.** After any history of forming and processing of active sets, without guesses, the problem can be formed after each successful
update; its first level allows exactly the allowed motions, and the objective of its second level is the cost of the motion. -/
theorem C82_form (hg : o.terminal = true → o.terminalGain ≠ 0) (hp : ProblemAfter o false p) (hu : Updated model mpc)
    (junk : ℕ → ℕ → ℕ → ℝ) (junkI : ℕ → ℕ → ℕ) :
    ∃ p' L0 L1, p.form junk junkI false model mpc = .ok p' ∧ p'.hierarchy.levels = [L0, L1] ∧ WalkLevels o mpc.horizon model L0 L1 := by
  have hw := problem_after hp
  obtain ⟨p', e⟩ := walk_form (guessing := false) (updated_ready hu) hw junk junkI fun _ _ h => h
  obtain ⟨L0, L1, h1, h2, -⟩ := formed_means (updated_ready hu) (walk_formed (updated_ready hu) hw e).1 hg
  exact ⟨p', L0, L1, e, h1, h2⟩

/-- **C82.** In a loop with guesses of the active set the problem can be formed after each successful update, provided that the number
of steps is at most one less than it was in the preceding iteration, and the horizon has the same number of intervals, at least two; the
problem has the same meaning. -/
theorem C82_guess (hg : o.terminal = true → o.terminalGain ≠ 0) {h : Option Horizon} (hp : SolvedAfter o h p) (hu : Updated model mpc)
    (hs : SizesFit mpc.horizon h) (junk : ℕ → ℕ → ℕ → ℝ) (junkI : ℕ → ℕ → ℕ) :
    ∃ p' L0 L1, p.form junk junkI true model mpc = .ok p' ∧ p'.hierarchy.levels = [L0, L1] ∧ WalkLevels o mpc.horizon model L0 L1 := by
  have hw := solved_after hp
  obtain ⟨p', e⟩ := walk_form (guessing := true) (updated_ready hu) hw junk junkI (fits_of_sizes hs)
  obtain ⟨L0, L1, h1, h2, -⟩ := formed_means (updated_ready hu) (walk_formed (updated_ready hu) hw e).1 hg
  exact ⟨p', L0, L1, e, h1, h2⟩

/-- **C82.** Otherwise forming fails: with the number of steps less by two or more an exception is thrown, unless the footsteps are
fixed. -/
theorem C82_guess_throws {H : Horizon} (hp : SolvedAfter o (some H) p) (hu : Updated model mpc) (hf : o.fixed = false)
    (hs : mpc.horizon.variable_steps.length + 1 < H.variable_steps.length) (junk : ℕ → ℕ → ℕ → ℝ) (junkI : ℕ → ℕ → ℕ) :
    p.form junk junkI true model mpc = .error .thrown :=
  walk_throws (updated_ready hu) (solved_after hp) junk junkI hf hs fun _ h => h

/-- **C82.** An active set of the size of the problem is accepted. -/
theorem C82_process (hu : Updated model mpc) (hp : FormedProblem o model mpc p) {s : ActiveSetH} (hs : ActiveSetFor p s) :
    ∃ p', p.processActiveSet s = .ok p' := by
  have key : ∀ {Q : WalkTask → Task ProblemEnv ℝ → Prop} {p1 : Problem} {junk : ℕ → ℕ → ℕ → ℝ} {junkI : ℕ → ℕ → ℕ} {g : Bool},
      WalkProblem o Q p1 → p1.form junk junkI g model mpc = .ok p → ∃ p', p.processActiveSet s = .ok p' := by
    intro Q p1 junk junkI g hw e
    obtain ⟨-, h2⟩ := walk_formed (updated_ready hu) hw e
    have hf := hierarchy_forms h2
    have hl : s.length = p.hierarchy.levels.length := by simpa using congrArg List.length hs
    have hm : ∀ (A : List (Level ProblemEnv ℝ)), (∀ L ∈ A, Reachable L) → ∀ (B : List (Level ProblemEnv ℝ)) (s : ActiveSetH),
        List.Forall₂ (fun L L' : Level ProblemEnv ℝ => L.form (problemSize mpc) ⟨TaskEnv.of model mpc, p1.zero, junk, junkI⟩ g = .ok L') A B →
        s.map (·.length) = B.map (·.nConstraints) →
        ∃ C, ((s.zip B).mapM fun (s, L) => L.processActiveSet s) = .ok C := by
      intro A hA B s h
      induction h generalizing s with
      | nil => intro _; exact ⟨[], by rw [List.zip_nil_right]; rfl⟩
      | @cons L L' A B hL _ ih =>
        intro hs
        match s, hs with
        | a :: s, hs =>
          rw [List.map_cons, List.map_cons, List.cons.injEq] at hs
          obtain ⟨C, hC⟩ := ih (fun L hL => hA L (List.mem_cons_of_mem _ hL)) s hs.2
          obtain ⟨L'', hL'', -⟩ := C13_distribute (hA L (List.mem_cons_self ..)) hL hs.1
          refine ⟨L'' :: C, ?_⟩
          rw [List.zip_cons_cons, List.mapM_cons, hC]
          simp only [hL'', ok_bind]
          rfl
    obtain ⟨C, hC⟩ := hm _ hw.reach _ _ hf hs
    refine ⟨{ p with hierarchy := { p.hierarchy with levels := C } }, ?_⟩
    unfold Problem.processActiveSet Hierarchy.processActiveSet
    rw [assertThat_true hl, ok_bind, hC]
    rfl
  obtain ⟨p1, junk, junkI, g, ⟨h, hs⟩ | hs, e⟩ := hp
  · exact key (solved_after hs) e
  · exact key (problem_after hs) e

/-- Optimality in terms of the motion. -/
theorem best_of_optimal {L0 L1 : Level ProblemEnv ℝ} (hW : WalkLevels o mpc.horizon model L0 L1) {reg : ℝ} {S T : (ℕ → ℝ) → Prop}
    {x : ℕ → ℝ} (h : Optimal L0 L1.tasks (problemSize mpc) reg S x) (hST : ∀ y, T y → S y) : BestMotion o mpc.horizon model reg T x := by
  refine ⟨(hW.allowed x).1 h.1, fun c y d hc hy hT hd => ?_⟩
  rw [(hW.cost x c).1 hc, (hW.cost y d).1 hd]
  exact h.2 y ((hW.allowed y).2 hy) (hST y hT)

theorem formed_solvable (hg : o.terminal = true → o.terminalGain ≠ 0) (hu : Updated model mpc) (hp : FormedProblem o model mpc p') :
    ∃ (P : Hierarchy ProblemEnv ℝ) (env : ProblemEnv) (g : Bool) (L0 L1 : Level ProblemEnv ℝ), P.form (problemSize mpc) env g = .ok p'.hierarchy ∧
      (∀ L ∈ P.levels, Reachable L) ∧ p'.hierarchy.levels = [L0, L1] ∧ WalkLevels o mpc.horizon model L0 L1 ∧ WalkSolvable o mpc L0 L1 := by
  have key : ∀ {Q : WalkTask → Task ProblemEnv ℝ → Prop} {p : Problem} {junk : ℕ → ℕ → ℕ → ℝ} {junkI : ℕ → ℕ → ℕ} {g : Bool},
      WalkProblem o Q p → p.form junk junkI g model mpc = .ok p' → ∃ (P : Hierarchy ProblemEnv ℝ) (env : ProblemEnv) (g : Bool)
      (L0 L1 : Level ProblemEnv ℝ), P.form (problemSize mpc) env g = .ok p'.hierarchy ∧
      (∀ L ∈ P.levels, Reachable L) ∧ p'.hierarchy.levels = [L0, L1] ∧ WalkLevels o mpc.horizon model L0 L1 ∧ WalkSolvable o mpc L0 L1 := by
    intro Q p junk junkI g hw e
    obtain ⟨h1, h2⟩ := walk_formed (updated_ready hu) hw e
    obtain ⟨L0, L1, h3, h4, h5⟩ := formed_means (updated_ready hu) h1 hg
    exact ⟨_, _, _, L0, L1, h2, hw.reach, h3, h4, h5⟩
  obtain ⟨p, junk, junkI, g, ⟨h, hs⟩ | hs, e⟩ := hp
  · exact key (solved_after hs) e
  · exact key (problem_after hs) e

/-- **C82.** With QuadProg++: an accepted answer has the structure of the problem, is allowed, and no allowed solution has a smaller
cost. -/
theorem C82_quadprog (hg : o.terminal = true → o.terminalGain ≠ 0) (hu : Updated model mpc) (hp : FormedProblem o model mpc p')
    (z : ℕ → ℕ → ℝ) (zc : Junk ℝ) (old : QPObjective ℝ × QPConstraintsABAL ℝ) {reg : ℝ} (hreg : 0 ≤ reg)
    (hpos : 0 < reg ∨ o.copPositionGain ≠ 0 ∧ o.copVelocityGain ≠ 0) {ext : QuadProgArgs ℝ → QuadProgStatus × List ℝ}
    (hext : TrustedQuadProg ext) {sol : Solution ℝ} (hs : SolutionFor mpc.horizon sol) :
    ∃ q sol', quadprogInitialize z zc old p'.hierarchy (problemSize mpc) = .ok q ∧ quadprogSolve ext reg q sol = .ok sol' ∧
      (sol'.status = .ok → SolutionFor mpc.horizon sol' ∧ BestMotion o mpc.horizon model reg (fun _ => True) (entries sol')) := by
  obtain ⟨P, env, g, L0, L1, h1, h2, h3, h4, h5⟩ := formed_solvable hg hu hp
  obtain ⟨q, sol', k1, k2, k3, -, k4⟩ := C67_quadprog h1 h2 h3 (by rw [h3]; exact h5.inRange) h5.minimise z zc old hreg
    (hpos.imp id fun h => h5.determined h.1 h.2) hext sol
  refine ⟨q, sol', k1, k2, fun hok => ?_⟩
  obtain ⟨k5, k6⟩ := k4 hok
  exact ⟨⟨k3.trans hs.structure_, k5⟩, best_of_optimal h4 k6 fun _ h => h⟩

/-- **C82.** With qpmad: either the answer is as for QuadProg++, among solutions below the library infinity, or an exception tells that
no such solution is allowed. -/
theorem C82_qpmad (hg : o.terminal = true → o.terminalGain ≠ 0) (hu : Updated model mpc) (hp : FormedProblem o model mpc p')
    (z : ℕ → ℕ → ℝ) (zc : Junk ℝ) (old : QPObjective ℝ × QPConstraintsILUALU ℝ) {reg : ℝ} (hreg : 0 ≤ reg)
    (hpos : 0 < reg ∨ o.copPositionGain ≠ 0 ∧ o.copVelocityGain ≠ 0) {ext : QpmadArgs ℝ → QpmadStatus × List ℝ}
    (hext : TrustedQpmad ext) {sol : Solution ℝ} (hs : SolutionFor mpc.horizon sol) :
    (∃ q sol', qpmadInitialize z zc old p'.hierarchy (problemSize mpc) = .ok q ∧ qpmadSolve ext reg q sol = .ok sol' ∧
      (sol'.status = .ok → SolutionFor mpc.horizon sol' ∧
        BestMotion o mpc.horizon model reg (ModerateSolution mpc.horizon) (entries sol'))) ∨
    (qpmadInitialize z zc old p'.hierarchy (problemSize mpc) = .error .thrown ∧
      ∀ x, ModerateSolution mpc.horizon x → ¬ AllowedMotion o mpc.horizon model x) := by
  obtain ⟨P, env, g, L0, L1, h1, h2, h3, h4, h5⟩ := formed_solvable hg hu hp
  rcases C67_qpmad h1 h2 h3 (by rw [h3]; exact h5.inRange) h5.minimise h5.simple z zc old hreg
    (hpos.imp id fun h => h5.determined h.1 h.2) hext sol with ⟨q, sol', k1, k2, k3, k4⟩ | ⟨k1, k2⟩
  · refine .inl ⟨q, sol', k1, k2, fun hok => ?_⟩
    obtain ⟨k5, k6⟩ := k4 hok
    exact ⟨⟨k3.trans hs.structure_, k5⟩, best_of_optimal h4 k6 fun y hy => ⟨fun ti hti => h5.within ti hti y, hy⟩⟩
  · exact .inr ⟨k1, fun x hx ha => k2 x hx ((h4.allowed x).2 ha)⟩

/-- **C82.** With qpOASES. -/
theorem C82_qpoases (hg : o.terminal = true → o.terminalGain ≠ 0) (hu : Updated model mpc) (hp : FormedProblem o model mpc p')
    (z : ℕ → ℕ → ℝ) (zc : Junk ℝ) (old : QPObjective ℝ × QPConstraintsILUALU ℝ)
    {ext : QpoasesArgs ℝ → QpoasesStatus × (ℕ → ℝ)} (hext : TrustedQpoases ext) {sol : Solution ℝ} (hs : SolutionFor mpc.horizon sol) :
    (∃ q sol', qpoasesInitialize z zc old p'.hierarchy (problemSize mpc) = .ok q ∧ qpoasesSolve ext q sol = .ok sol' ∧
      SolutionFor mpc.horizon sol' ∧
      (sol'.status = .ok → BestMotion o mpc.horizon model 0 (ModerateSolution mpc.horizon) (entries sol'))) ∨
    (qpoasesInitialize z zc old p'.hierarchy (problemSize mpc) = .error .thrown ∧
      ∀ x, ModerateSolution mpc.horizon x → ¬ AllowedMotion o mpc.horizon model x) := by
  obtain ⟨P, env, g, L0, L1, h1, h2, h3, h4, h5⟩ := formed_solvable hg hu hp
  rcases C67_qpoases h1 h2 h3 (by rw [h3]; exact h5.inRange) h5.minimise h5.simple z zc old hext sol
    (by rw [hs.structure_, ← (updated_ready hu).structure_, (updated_ready hu).nvars]) hs.size with ⟨q, sol', k1, k2, k3, k4, k5⟩ | ⟨k1, k2⟩
  · refine .inl ⟨q, sol', k1, k2, ⟨k3.trans hs.structure_, k4⟩, fun hok => ?_⟩
    exact best_of_optimal h4 (k5 hok) fun y hy => ⟨fun ti hti => h5.within ti hti y, hy⟩
  · exact .inr ⟨k1, fun x hx ha => k2 x hx ((h4.allowed x).2 ha)⟩

end

/-- The first update of the default walk, with two steps in the horizon. -/
theorem updated_default (nan : ℝ) (junkH : ℕ → Interval) (junk : ℕ → ℕ → ℕ → ℕ → ℝ) (junkI : ℕ → ℕ → ℕ) (w : WalkParameters) :
    ∃ model mpc, Updated model mpc ∧ mpc.horizon.intervals.n = 16 ∧ 2 ≤ mpc.horizon.variable_steps.length := by
  obtain ⟨q, hq⟩ : ∃ q, MPCParameters.make 16 100 100 100 = .ok q := ⟨_, rfl⟩
  obtain ⟨s0, h0⟩ := default_start nan (q := q)
  obtain ⟨mpc, hu, hn, -⟩ := C79_continues default_loop hq h0 (.start (nan := nan)) (by decide) junkH junk junkI w
  obtain ⟨side, k, hI⟩ := loop_after default_loop hq h0 (.start (nan := nan))
  obtain ⟨e1, e2, -, e3, -⟩ := C55_derived hq
  have hpar := hI.parameters
  have hN : s0.mpc.parameters.preview_horizon_length < 2 ^ 63 := by rw [hpar, e1]; decide
  have hT : 0 < s0.mpc.parameters.tds_sampling_time_ms := by rw [hpar, e3]; decide
  obtain ⟨-, -, -, l, hl, hW⟩ := C75_matrices hI.machine.reach default_loop.proper hI.machine.inside hN hT hI.height hu
  refine ⟨s0.model, mpc, ⟨_, _, _, _, _, _, _, _, _, hI.machine.reach, default_loop.proper, hI.machine.inside, hN, hT, hI.height, hu⟩,
    hn, ?_⟩
  rw [hpar, e1, e2] at hl hW
  have hm : PreviewReturns s0.fsm (16 * 100) (.ok [⟨.ds, .lss, .undefined, .first, 300, 300⟩, ⟨.tds, .lss, .ds, .intermediate, 100, 100⟩,
      ⟨.rss, .lss, .ds, .intermediate, 700, 700⟩, ⟨.tds, .rss, .rss, .intermediate, 100, 100⟩,
      ⟨.lss, .rss, .rss, .intermediate, 400, 700⟩]) := by
    obtain ⟨f, e, hf⟩ : ∃ f, FSM.construct FSMParams.default = .ok f ∧ PreviewReturns f (16 * 100) (.ok
        [⟨.ds, .lss, .undefined, .first, 300, 300⟩, ⟨.tds, .lss, .ds, .intermediate, 100, 100⟩,
        ⟨.rss, .lss, .ds, .intermediate, 700, 700⟩, ⟨.tds, .rss, .rss, .intermediate, 100, 100⟩,
        ⟨.lss, .rss, .rss, .intermediate, 400, 700⟩]) := ⟨_, rfl, 10, rfl⟩
    cases e.symm.trans h0.machine
    exact hf
  cases preview_unique hl hm
  have := hW.allSteps 1 (by decide)
  omega

/-- The robot stands: a walk without steps. -/
theorem updated_standing (nan : ℝ) (junkH : ℕ → Interval) (junk : ℕ → ℕ → ℕ → ℕ → ℝ) (junkI : ℕ → ℕ → ℕ) (w : WalkParameters) :
    ∃ model mpc, Updated model mpc ∧ mpc.horizon.intervals.n = 16 ∧ mpc.horizon.variable_steps = [] := by
  have hp : LoopParameters { FSMParams.default with firstMs := 1600, numSteps := 0 } 16 100 :=
    ⟨fun _ h => absurd h (by decide), by decide, rfl, ⟨by decide, by decide⟩, ⟨by decide, by decide⟩, ⟨by decide, by decide⟩, by decide, by decide⟩
  obtain ⟨q, hq⟩ : ∃ q, MPCParameters.make 16 100 100 100 = .ok q := ⟨_, rfl⟩
  obtain ⟨s0, h0⟩ : ∃ s, LoopStart { FSMParams.default with firstMs := 1600, numSteps := 0 } q s :=
    ⟨⟨standing20 nan .ds, _, Mpc.make q⟩, rfl, rfl, rfl, one_pos⟩
  obtain ⟨mpc, hu, hn, -⟩ := C79_continues hp hq h0 (.start (nan := nan)) (by decide) junkH junk junkI w
  obtain ⟨side, k, hI⟩ := loop_after hp hq h0 (.start (nan := nan))
  obtain ⟨e1, e2, -, e3, -⟩ := C55_derived hq
  have hpar := hI.parameters
  have hN : s0.mpc.parameters.preview_horizon_length < 2 ^ 63 := by rw [hpar, e1]; decide
  have hT : 0 < s0.mpc.parameters.tds_sampling_time_ms := by rw [hpar, e3]; decide
  obtain ⟨-, -, -, l, hl, hW⟩ := C75_matrices hI.machine.reach hp.proper hI.machine.inside hN hT hI.height hu
  refine ⟨s0.model, mpc, ⟨_, _, _, _, _, _, _, _, _, hI.machine.reach, hp.proper, hI.machine.inside, hN, hT, hI.height, hu⟩,
    hn, ?_⟩
  rw [hpar, e1, e2] at hl hW
  have hm : PreviewReturns s0.fsm (16 * 100) (.ok [⟨.ds, .lss, .undefined, .first, 1600, 1600⟩]) := by
    obtain ⟨f, e, hf⟩ : ∃ f, FSM.construct { FSMParams.default with firstMs := 1600, numSteps := 0 } = .ok f ∧
        PreviewReturns f (16 * 100) (.ok [⟨.ds, .lss, .undefined, .first, 1600, 1600⟩]) := ⟨_, rfl, 10, rfl⟩
    cases e.symm.trans h0.machine
    exact hf
  cases preview_unique hl hm
  by_contra hne
  have hpos := List.length_pos_iff.2 hne
  have c := hW.steps 0 _ (List.getElem?_eq_getElem hpos)
  have c' : mpc.horizon.variable_steps[0] = 16 := c
  have d := (hW.range _ (List.getElem_mem hpos)).2
  omega

/-- Gains of the default hierarchy. -/
noncomputable def defaultSetup (fixed terminal : Bool) : ProblemSetup := ⟨fixed, terminal, 0.707106781186548, 0.223606797749979, 12.2474487139159, 1⟩

/-- Such problems exist: the default hierarchy is formed for the first update of the default walk, the second iteration can be made. The
numbers of the steps fit. The hypotheses on the gains are met. -/
example (nan : ℝ) (junkH : ℕ → Interval) (junk : ℕ → ℕ → ℕ → ℕ → ℝ) (junkI : ℕ → ℕ → ℕ) (w : WalkParameters) (fixed terminal : Bool)
    (P : Hierarchy ProblemEnv ℝ) : ∃ model mpc p p' p'' s, Updated model mpc ∧ 2 ≤ mpc.horizon.variable_steps.length ∧
      setupHierarchy (defaultSetup fixed terminal) P = .ok p ∧ p.form (junk 0) junkI true model mpc = .ok p' ∧
      FormedProblem (defaultSetup fixed terminal) model mpc p' ∧ ActiveSetFor p' s ∧ p'.processActiveSet s = .ok p'' ∧
      SolvedAfter (defaultSetup fixed terminal) (some mpc.horizon) p'' ∧ SizesFit mpc.horizon (some mpc.horizon) ∧
      (defaultSetup fixed terminal).terminalGain ≠ 0 ∧ (defaultSetup fixed terminal).copPositionGain ≠ 0 ∧
      (defaultSetup fixed terminal).copVelocityGain ≠ 0 := by
  obtain ⟨model, mpc, hu, hn, hs⟩ := updated_default nan junkH junk junkI w
  obtain ⟨p, hp⟩ := C82_setup (defaultSetup fixed terminal) P
  have hg : (defaultSetup fixed terminal).terminalGain ≠ 0 := by norm_num [defaultSetup]
  obtain ⟨p', L0, L1, hf, -⟩ := C82_guess (fun _ => hg) (.setup hp) hu (fun _ h => by cases h) (junk 0) junkI
  have hF : FormedProblem (defaultSetup fixed terminal) model mpc p' := ⟨p, _, _, _, .inl ⟨_, .setup hp⟩, hf⟩
  have ha : ActiveSetFor p' (p'.hierarchy.levels.map fun L => List.replicate L.nConstraints .inactive) := by
    unfold ActiveSetFor
    rw [List.map_map]
    exact List.map_congr_left fun L _ => List.length_replicate ..
  obtain ⟨p'', h''⟩ := C82_process hu hF ha
  refine ⟨model, mpc, p, p', p'', _, hu, hs, hp, hf, hF, ha, h'', .cycle (.setup hp) hu hf h'', ?_, hg, by norm_num [defaultSetup],
    by norm_num [defaultSetup]⟩
  intro H' hH
  cases hH
  omega

/-- The case in which forming throws exists: the robot was walking, and now it is told to stand. -/
example (nan : ℝ) (junkH : ℕ → Interval) (junk : ℕ → ℕ → ℕ → ℕ → ℝ) (junkI : ℕ → ℕ → ℕ) (w : WalkParameters)
    (P : Hierarchy ProblemEnv ℝ) : ∃ H p model mpc, SolvedAfter (defaultSetup false false) (some H) p ∧ Updated model mpc ∧
      mpc.horizon.variable_steps.length + 1 < H.variable_steps.length ∧ p.form (junk 0) junkI true model mpc = .error .thrown := by
  obtain ⟨model, mpc, hu, hn, hs⟩ := updated_default nan junkH junk junkI w
  obtain ⟨model', mpc', hu', hn', hs'⟩ := updated_standing nan junkH junk junkI w
  obtain ⟨p, hp⟩ := C82_setup (defaultSetup false false) P
  obtain ⟨p', L0, L1, hf, -⟩ := C82_guess (fun h => by cases h) (.setup hp) hu (fun _ h => by cases h) (junk 0) junkI
  obtain ⟨p'', h''⟩ := C82_process hu ⟨p, _, _, _, .inl ⟨_, .setup hp⟩, hf⟩
    (s := p'.hierarchy.levels.map fun L => List.replicate L.nConstraints .inactive) (by
      unfold ActiveSetFor
      rw [List.map_map]
      exact List.map_congr_left fun L _ => List.length_replicate ..)
  have hS : SolvedAfter (defaultSetup false false) (some mpc.horizon) p'' := .cycle (.setup hp) hu hf h''
  have hlt : mpc'.horizon.variable_steps.length + 1 < mpc.horizon.variable_steps.length := by rw [hs']; exact hs
  exact ⟨_, p'', model', mpc', hS, hu', hlt, C82_guess_throws hS hu' rfl hlt (junk 0) junkI⟩

end Humoto.Wpg
