import Verif.Lemmas.WpgHotstart

/-!
# C106: hot starting, the solver and the contents of the memory do not change the walk
-/

namespace Humoto.Wpg

open Spec Spec.Wpg Bridge

section
variable {v v' : Hotstart} {p : FSMParams} {N T : ℕ} {q : MPCParameters} {o : ProblemSetup} {nan : ℝ} {ext ext' : Qpoases ℝ} {n : ℕ}
  {s s' a a' : Program} {side side' : StanceType} {k k' : ℕ} {h h' : Option Horizon} {u u' : Memory} {w : WalkParameters} {mpc mpc' : Mpc}
  {st st' : ModelState}

/-! ## Two iterations -/

/-- Updates in the same situation give the same horizons. -/
theorem same_update (hpar : s'.mpc.parameters = s.mpc.parameters) (hs : SameWalk s s')
    (hu : UpdateReturns nan u.horizon u.matrices u.indices s.model s.fsm w s.mpc (.ok (mpc, .ok)))
    (hu' : UpdateReturns nan u'.horizon u'.matrices u'.indices s'.model s'.fsm w s'.mpc (.ok (mpc', .ok))) :
    SameHorizon mpc.horizon mpc'.horizon ∧ mpc'.parameters = mpc.parameters := by
  obtain ⟨H, m, h1, -, e⟩ := update_ok hu
  obtain ⟨H', m', h1', -, e'⟩ := update_ok hu'
  rw [hs.model, hs.machine, hpar] at h1'
  rw [e, e']
  exact ⟨form_same h1 h1', hpar⟩

/-- Good iterations in the same situation end in the same state, with the same solutions. -/
theorem good_same (hp : LoopParameters p N T) (hq : MPCParameters.make N T T T = .ok q) (ho : OneMinimum o)
    (hI : LoopInv p N T q n (loopOf s) side k) (hI' : LoopInv p N T q n (loopOf s') side' k') (hf : SaneFeet s.model.params)
    (hb : FeetBelowInfinity s.model.params) (hs : SameWalk s s') (hG : GoodIteration o nan T u w s mpc st a)
    (hG' : GoodIteration o nan T u' w s' mpc' st' a') : SameWalk a a' ∧ a'.solution.x = a.solution.x := by
  obtain ⟨hH, hpar⟩ := same_update (hI'.parameters.trans hI.parameters.symm) hs hG.update hG'.update
  have hR : Ready s.model mpc := updated_ready (loop_updated hp hq hI hG.update).1
  have hR' : Ready s'.model mpc' := updated_ready (loop_updated hp hq hI' hG'.update).1
  have hN := (loop_updated hp hq hI hG.update).2
  have hb' := hG'.best
  rw [hs.model] at hb'
  have hx := best_unique hR ho.1 ho.2 (fun x hx => allowed_moderate hp hq hI hG.update hf hb hx) hG.best (hH.symm.best hb')
  have hl : a'.solution.x.length = a.solution.x.length := by
    rw [hG'.solution.size, hG.solution.size, hH.size, hH.steps]
  have hsol : a'.solution.x = a.solution.x := by
    refine List.ext_getElem hl fun i h1 h2 => ?_
    have := hx i (by rw [← hG.solution.size]; exact h2)
    unfold Spec.Wpg.entries at this
    rw [List.getD_eq_getElem?_getD, List.getD_eq_getElem?_getD, List.getElem?_eq_getElem h2, List.getElem?_eq_getElem h1] at this
    exact this.symm
  have hent : entries a'.solution = entries a.solution := by
    unfold Spec.Wpg.entries
    rw [hsol]
  obtain ⟨P, cop, X, hX, -⟩ := C75_motion hR.consistent (entries a.solution)
  have hX' : Prediction mpc'.horizon s'.model (entries a'.solution) P cop X := by
    rw [hent, hs.model]
    exact hH.prediction hX
  obtain ⟨c, p1, p2, -, p4, p5, -⟩ := C75_profiles hR.consistent hG.solution hX u.parsing
  obtain ⟨c', p1', p2', -, p4', p5', -⟩ := C75_profiles hR'.consistent hG'.solution hX' u'.parsing
  have hm : a'.fsm = a.fsm := by
    have h1 := hG.completes.shifted
    have h2 := hG'.completes.shifted
    have : (loopOf s').fsm = (loopOf s).fsm := hs.machine
    rw [this] at h2
    exact Except.ok.inj (returns_unique h2 h1)
  have hnext : c'.initializeNextModelState nan a'.fsm s'.model = c.initializeNextModelState nan a.fsm s.model := by
    rw [hm, hs.model]
    have h0 : 0 < c.horizon.intervals.n := by rw [p5, hN]; have := hp.horizon.1; omega
    refine next_same (by rw [p5, p5']; exact hH) (by rw [p4, p4', hpar]) h0 (fixedSegment_same ?_ fun i _ hi hn => ?_)
      (fixedSegment_same ?_ fun i _ hi hn => ?_)
    · rw [p2.sizes.2.1, p2'.sizes.2.1, hH.size]
    · rw [p5] at h0
      have e1 := p2.pressure 0 h0 ⟨i, by omega⟩
      have e2 := p2'.pressure 0 (by rw [hH.size]; exact h0) ⟨i, by omega⟩
      simp only [Nat.mul_zero, Nat.zero_add] at e1 e2
      rw [e1, e2]
    · rw [p2.sizes.2.2.2, p2'.sizes.2.2.2, hH.steps]
    · rw [p2.sizes.2.2.2] at hn
      have e1 := p2.supports 0 (by omega) ⟨i, by omega⟩
      have e2 := p2'.supports 0 (by rw [hH.steps]; omega) ⟨i, by omega⟩
      simp only [Nat.mul_zero, Nat.zero_add] at e1 e2
      rw [e1, e2]
  have e1 := hG.completes.next
  have e1' := hG'.completes.next
  unfold Mpc.parseAndGetNextModelState at e1 e1'
  simp only [bind_eq_ok] at e1 e1'
  obtain ⟨-, -, c1, f1, x1, f2, f3⟩ := e1
  obtain ⟨-, -, c1', f1', x1', f2', f3'⟩ := e1'
  rw [p1] at f1
  rw [p1'] at f1'
  cases f1
  cases f1'
  have f2 : c.initializeNextModelState nan a.fsm s.model = .ok x1 := f2
  have f2' : c'.initializeNextModelState nan a'.fsm s'.model = .ok x1' := f2'
  rw [hnext, f2] at f2'
  have hst : st' = st := by
    rw [← (Prod.mk.inj (Except.ok.inj f3)).2, ← (Prod.mk.inj (Except.ok.inj f3')).2]
    exact (Except.ok.inj f2').symm
  have g := hG.completes.updated
  have g' := hG'.completes.updated
  have hmod : (loopOf s').model = (loopOf s).model := hs.model
  rw [hmod, hst, g] at g'
  exact ⟨⟨(Except.ok.inj g').symm, hm⟩, hsol⟩

/-- If the solvers solve all feasible problems, then either both iterations are made or none of them. -/
theorem thrown_same (hcomplete : CompleteSolver ext) (hpar : s'.mpc.parameters = s.mpc.parameters) (hs : SameWalk s s')
    (hu : UpdateReturns nan u.horizon u.matrices u.indices s.model s.fsm w s.mpc (.ok (mpc, .ok)))
    (hno : (∀ x, ModerateSolution mpc.horizon x → ¬ AllowedMotion o mpc.horizon s.model x) ∨ SolverFails ext o mpc.horizon s.model)
    (hm : ∀ x, AllowedMotion o mpc.horizon s.model x → ModerateSolution mpc.horizon x)
    (hG' : GoodIteration o nan T u' w s' mpc' st' a') : False := by
  obtain ⟨hH, -⟩ := same_update hpar hs hu hG'.update
  have hal := hG'.best.allowed
  rw [hs.model] at hal
  have hal := hH.symm.allowed hal
  rcases hno with hno | ⟨a, g, gs, hd, hf⟩
  · exact hno _ (hm _ hal) hal
  · exact hf (hcomplete a g gs hd.accepted (hd.bounds trivial).1 (hd.bounds trivial).2 ⟨_, hd.complete _ hal (hm _ hal)⟩)

/-! ## Runs -/

theorem runAs_mono {a b : ℕ} (hab : a ≤ b) {w : WalkParameters} : ∀ {l l' : ℕ}, l ≤ l' → ∀ {u : ℕ → Memory} {clock : ℕ → Fin 3 → ℝ}
    {s : Program} {r : Res (Program × List (Fin 3 → ℝ))}, s.runAs v ext a nan T u w clock l = some r →
    s.runAs v ext b nan T u w clock l' = some r := by
  intro l
  induction l with
  | zero => intro l' _ u clock s r h; cases h
  | succ l ih =>
    intro l' hl u clock s r h
    obtain ⟨m, rfl⟩ : ∃ m, l' = m + 1 := ⟨l' - 1, by omega⟩
    unfold Program.runAs at h ⊢
    cases hi : s.iterateAs v ext a nan T (u 0) w with
    | none => rw [hi] at h; cases h
    | some r1 =>
      rw [hi] at h
      rw [step_mono hi hab]
      rcases r1 with e | _ | s'
      · exact h
      · exact h
      · simp only at h ⊢
        cases hr : s'.runAs v ext a nan T (fun i => u (i + 1)) w (fun i => clock (i + 1)) l with
        | none => rw [hr] at h; cases h
        | some r2 => rw [hr] at h; rw [ih (by omega) hr]; exact h

/-- The outcome of a run is unique. -/
theorem runAs_unique {u : ℕ → Memory} {clock : ℕ → Fin 3 → ℝ} {r r' : Res (Program × List (Fin 3 → ℝ))}
    (h : RunReturns v ext nan T u w clock s r) (h' : RunReturns v ext nan T u w clock s r') : r = r' := by
  obtain ⟨a, l, ha⟩ := h
  obtain ⟨b, l', hb⟩ := h'
  have h1 := runAs_mono (Nat.le_max_left a b) (Nat.le_max_left l l') ha
  have h2 := runAs_mono (Nat.le_max_right a b) (Nat.le_max_right l l') hb
  exact Option.some.inj (h1.symm.trans h2)

theorem runAs_left {u : ℕ → Memory} {clock : ℕ → Fin 3 → ℝ} (h : StepReturns v ext nan T (u 0) w s (.ok none)) :
    RunReturns v ext nan T u w clock s (.ok (s, [])) := by
  obtain ⟨fuel, h⟩ := h
  refine ⟨fuel, 1, ?_⟩
  unfold Program.runAs
  rw [h]

theorem runAs_error {u : ℕ → Memory} {clock : ℕ → Fin 3 → ℝ} {e : Fault} (h : StepReturns v ext nan T (u 0) w s (.error e)) :
    RunReturns v ext nan T u w clock s (.error e) := by
  obtain ⟨fuel, h⟩ := h
  refine ⟨fuel, 1, ?_⟩
  unfold Program.runAs
  rw [h]

theorem runAs_next {u : ℕ → Memory} {clock : ℕ → Fin 3 → ℝ} (h : StepReturns v ext nan T (u 0) w s (.ok (some s')))
    {r : Res (Program × List (Fin 3 → ℝ))} (hr : RunReturns v ext nan T (fun i => u (i + 1)) w (fun i => clock (i + 1)) s' r) :
    RunReturns v ext nan T u w clock s (r.map fun y => (y.1, clock 0 :: y.2)) := by
  obtain ⟨f1, h⟩ := h
  obtain ⟨f2, l, hr⟩ := hr
  refine ⟨max f1 f2, l + 1, ?_⟩
  unfold Program.runAs
  rw [step_mono h (le_max_left _ _)]
  simp only
  rw [runAs_mono (le_max_right f1 f2) (le_refl l) hr]
  rcases r with e | ⟨a, b⟩ <;> rfl

theorem runAfter_head {m : ℕ} (h : StepReturns v ext nan T u w s (.ok (some s'))) (h' : RunAfter v ext nan T (fun _ => w) s' m a) :
    RunAfter v ext nan T (fun _ => w) s (m + 1) a := by
  induction h' with
  | start => exact .step (w := fun _ => w) .start h
  | step _ hs ih => exact .step ih hs

theorem measures_succ (clock : ℕ → Fin 3 → ℝ) (m : ℕ) :
    clock 0 :: (List.range m).map (fun i => clock (i + 1)) = (List.range (m + 1)).map clock := by
  rw [List.range_succ_eq_map, List.map_cons, List.map_map]
  rfl

theorem runAs_outcome (hp : LoopParameters p N T) (hq : MPCParameters.make N T T T = .ok q) (hg : o.terminal = true → o.terminalGain ≠ 0)
    (hext : TrustedSolver ext) (w : WalkParameters) : ∀ m {n s k h} (u : ℕ → Memory) (clock : ℕ → Fin 3 → ℝ),
      HotInv v p N T q o nan n s side k h → n + m = iterations p N T ∨ iterations p N T < n ∧ m = 0 →
      (∃ s', RunReturns v ext nan T u w clock s (.ok (s', (List.range m).map clock)) ∧ RunAfter v ext nan T (fun _ => w) s m s') ∨
      (RunReturns v ext nan T u w clock s (.error .thrown) ∧ StoppedAs v ext o nan T w s u) := by
  intro m
  induction m with
  | zero =>
    intro n s k h u clock hI hm
    have hn : walkMs p < n * T + N * T := by
      by_contra hc
      have := (iterations_lt (p := p) (N := N) hp.sampling n).2 (by omega)
      omega
    exact .inl ⟨s, runAs_left ((hot_step hp hq hg hext hI (u 0) w).1 hn), .start⟩
  | succ m ih =>
    intro n s k h u clock hI hm
    have hn := (iterations_lt (p := p) (N := N) hp.sampling n).1 (by omega)
    rcases (hot_step hp hq hg hext hI (u 0) w).2 hn with ⟨s', mpc, st, k', hr, hG, hI'⟩ | ⟨hr, mpc, hu, hno⟩
    · rcases ih (fun i => u (i + 1)) (fun i => clock (i + 1)) hI' (by omega) with ⟨s'', h1, h2⟩ | ⟨h1, n', s'', mpc', h2, h3⟩
      · refine .inl ⟨s'', ?_, runAfter_head hr h2⟩
        rw [← measures_succ]
        exact runAs_next hr h1
      · exact .inr ⟨runAs_next hr h1, n' + 1, s'', mpc', runAfter_head hr h2, h3⟩
    · exact .inr ⟨runAs_error hr, 0, s, mpc, .start, hu, hno⟩

end

/-! ## C106 -/

section
variable {p : FSMParams} {N T : ℕ} {q : MPCParameters} {o : ProblemSetup} {nan : ℝ} {n : ℕ} {s0 s0' s s' : Program}

/-- **C106.** In each of the four ways to start the solver, after any number of iterations, whatever is in memory: as long as the rest of
the walk covers the horizon, an iteration either finds the best allowed motion and moves the robot along it, or it ends with an exception,
since no motion is allowed or since qpOASES has failed to find an existing one; afterwards the loop is left. There is no undefined
behaviour. -/
theorem C106_iteration (v : Hotstart) {ext : Qpoases ℝ} (hp : LoopParameters p N T) (hq : MPCParameters.make N T T T = .ok q)
    (hg : o.terminal = true → o.terminalGain ≠ 0) (hext : TrustedSolver ext) (h0 : ProgramStart p q o s0) {w : ℕ → WalkParameters}
    (h : RunAfter v ext nan T w s0 n s) (u : Memory) (w' : WalkParameters) :
    (walkMs p < n * T + N * T → StepReturns v ext nan T u w' s (.ok none)) ∧
    (n * T + N * T ≤ walkMs p →
      (∃ s' mpc st, StepReturns v ext nan T u w' s (.ok (some s')) ∧ GoodIteration o nan T u w' s mpc st s') ∨
      (StepReturns v ext nan T u w' s (.error .thrown) ∧
        ∃ mpc, UpdateReturns nan u.horizon u.matrices u.indices s.model s.fsm w' s.mpc (.ok (mpc, .ok)) ∧
        ((∀ x, ModerateSolution mpc.horizon x → ¬ AllowedMotion o mpc.horizon s.model x) ∨ SolverFails ext o mpc.horizon s.model))) := by
  obtain ⟨⟨side, k, h, hI⟩, -⟩ := hot_after hp hq hg hext h0 h
  obtain ⟨P1, P2⟩ := hot_step hp hq hg hext hI u w'
  refine ⟨P1, fun hn => ?_⟩
  rcases P2 hn with ⟨s', mpc, st, -, h1, h2, -⟩ | h'
  · exact .inl ⟨s', mpc, st, h1, h2⟩
  · exact .inr h'

/-- **C106.** In each of the four ways to start the solver, a run terminates for every contents of the memory, with a unique outcome: either
it has made all iterations, with one measure for each of them, or it is stopped by an exception for one of the two reasons. -/
theorem C106_run (v : Hotstart) {ext : Qpoases ℝ} (hp : LoopParameters p N T) (hq : MPCParameters.make N T T T = .ok q)
    (hg : o.terminal = true → o.terminalGain ≠ 0) (hext : TrustedSolver ext) (h0 : ProgramStart p q o s0) (u : ℕ → Memory)
    (w : WalkParameters) (clock : ℕ → Fin 3 → ℝ) :
    ∃ r, RunReturns v ext nan T u w clock s0 r ∧ (∀ r', RunReturns v ext nan T u w clock s0 r' → r' = r) ∧
      ((∃ s, r = .ok (s, (List.range (iterations p N T)).map clock) ∧ RunAfter v ext nan T (fun _ => w) s0 (iterations p N T) s) ∨
        (r = .error .thrown ∧ StoppedAs v ext o nan T w s0 u)) := by
  obtain ⟨side, hI⟩ := hot_start (v := v) (nan := nan) hp h0
  rcases runAs_outcome hp hq hg hext w (iterations p N T) u clock hI (.inl (by omega)) with ⟨s, h1, h2⟩ | ⟨h1, h2⟩
  · exact ⟨_, h1, fun r' h' => runAs_unique h' h1, .inl ⟨s, rfl, h2⟩⟩
  · exact ⟨_, h1, fun r' h' => runAs_unique h' h1, .inr ⟨rfl, h2⟩⟩

/-- **C106.** The best motion is unique at every iteration: all its variables, for every starting mode and memory. -/
theorem C106_unique (v : Hotstart) {ext : Qpoases ℝ} (hp : LoopParameters p N T) (hq : MPCParameters.make N T T T = .ok q)
    (hg : o.terminal = true → o.terminalGain ≠ 0) (ho : OneMinimum o) (hext : TrustedSolver ext) (h0 : ProgramStart p q o s0)
    (hf : SaneFeet s0.model.params) (hb : FeetBelowInfinity s0.model.params) {w : ℕ → WalkParameters} (h : RunAfter v ext nan T w s0 n s)
    {u : Memory} {w' : WalkParameters} {mpc : Mpc}
    (hu : UpdateReturns nan u.horizon u.matrices u.indices s.model s.fsm w' s.mpc (.ok (mpc, .ok))) {x y : ℕ → ℝ}
    (hx : BestMotion o mpc.horizon s.model 0 (ModerateSolution mpc.horizon) x)
    (hy : BestMotion o mpc.horizon s.model 0 (ModerateSolution mpc.horizon) y) :
    ∀ i < 2 * mpc.horizon.intervals.n + 2 * mpc.horizon.variable_steps.length, x i = y i := by
  obtain ⟨⟨side, k, h, hI⟩, hL⟩ := hot_after hp hq hg hext h0 h
  have hpar : (loopOf s).model.params = s0.model.params := loop_params hL
  exact best_unique (updated_ready (loop_updated hp hq hI.loop hu).1) ho.1 ho.2
    (fun x hx => allowed_moderate hp hq hI.loop hu (by rw [hpar]; exact hf) (by rw [hpar]; exact hb) hx) hx hy

/-- **C106.** Two programs begin in the same state of the robot, with the same parameters. They may start the solver differently, call
different solvers, and have anything in memory. After the same number of iterations with the same parameters of the walk the robot and the
machine are in the same state, and the last solutions are equal. -/
theorem C106_same (v v' : Hotstart) {ext ext' : Qpoases ℝ} (hp : LoopParameters p N T) (hq : MPCParameters.make N T T T = .ok q)
    (hg : o.terminal = true → o.terminalGain ≠ 0) (ho : OneMinimum o) (hext : TrustedSolver ext) (hext' : TrustedSolver ext')
    (h0 : ProgramStart p q o s0) (h0' : ProgramStart p q o s0') (hm : s0'.model = s0.model) (hf : SaneFeet s0.model.params)
    (hb : FeetBelowInfinity s0.model.params) {w : ℕ → WalkParameters} (h : RunAfter v ext nan T w s0 n s)
    (h' : RunAfter v' ext' nan T w s0' n s') : SameWalk s s' ∧ (0 < n → s'.solution.x = s.solution.x) := by
  induction n generalizing s s' with
  | zero =>
    cases h
    cases h'
    exact ⟨⟨hm, Except.ok.inj (h0'.loop.machine.symm.trans h0.loop.machine)⟩, fun e => absurd e (lt_irrefl _)⟩
  | succ n ih =>
    obtain _ | @⟨_, a, _, u, ha, hs⟩ := h
    obtain _ | @⟨_, a', _, u', ha', hs'⟩ := h'
    obtain ⟨hw, -⟩ := ih ha ha'
    obtain ⟨⟨side, k, hh, hI⟩, hL⟩ := hot_after hp hq hg hext h0 ha
    obtain ⟨⟨side', k', hh', hI'⟩, -⟩ := hot_after hp hq hg hext' h0' ha'
    have hpar : (loopOf a).model.params = s0.model.params := loop_params hL
    obtain ⟨P1, P2⟩ := hot_step hp hq hg hext hI u (w n)
    obtain ⟨P1', P2'⟩ := hot_step hp hq hg hext' hI' u' (w n)
    by_cases hn : n * T + N * T ≤ walkMs p
    · rcases P2 hn with ⟨b, mpc, st, -, hr, hG, -⟩ | ⟨hr, -⟩
      · rcases P2' hn with ⟨b', mpc', st', -, hr', hG', -⟩ | ⟨hr', -⟩
        · cases step_unique hs hr
          cases step_unique hs' hr'
          obtain ⟨h1, h2⟩ := good_same hp hq ho hI.loop hI'.loop (by rw [← hpar] at hf; exact hf) (by rw [← hpar] at hb; exact hb) hw hG hG'
          exact ⟨h1, fun _ => h2⟩
        · cases step_unique hs' hr'
      · cases step_unique hs hr
    · cases step_unique hs (P1 (by omega))

theorem both_outcome (v v' : Hotstart) {ext ext' : Qpoases ℝ} (hp : LoopParameters p N T) (hq : MPCParameters.make N T T T = .ok q)
    (hg : o.terminal = true → o.terminalGain ≠ 0) (ho : OneMinimum o) (hext : TrustedSolver ext) (hext' : TrustedSolver ext')
    (hc : CompleteSolver ext) (hc' : CompleteSolver ext') (w : WalkParameters) {side side' : StanceType} :
    ∀ m {n s s' k k' h h'} (u u' : ℕ → Memory) (clock clock' : ℕ → Fin 3 → ℝ), HotInv v p N T q o nan n s side k h →
      HotInv v' p N T q o nan n s' side' k' h' → SameWalk s s' → SaneFeet s.model.params → FeetBelowInfinity s.model.params →
      n + m = iterations p N T ∨ iterations p N T < n ∧ m = 0 →
      (∃ a a', RunReturns v ext nan T u w clock s (.ok (a, (List.range m).map clock)) ∧
        RunReturns v' ext' nan T u' w clock' s' (.ok (a', (List.range m).map clock')) ∧ SameWalk a a') ∨
      (RunReturns v ext nan T u w clock s (.error .thrown) ∧ RunReturns v' ext' nan T u' w clock' s' (.error .thrown)) := by
  intro m
  induction m with
  | zero =>
    intro n s s' k k' h h' u u' clock clock' hI hI' hs hf hb hm
    have hn : walkMs p < n * T + N * T := by
      by_contra hc
      have := (iterations_lt (p := p) (N := N) hp.sampling n).2 (by omega)
      omega
    exact .inl ⟨s, s', runAs_left ((hot_step hp hq hg hext hI (u 0) w).1 hn), runAs_left ((hot_step hp hq hg hext' hI' (u' 0) w).1 hn), hs⟩
  | succ m ih =>
    intro n s s' k k' h h' u u' clock clock' hI hI' hs hf hb hm
    have hn := (iterations_lt (p := p) (N := N) hp.sampling n).1 (by omega)
    have hpar : s'.mpc.parameters = s.mpc.parameters := hI'.loop.parameters.trans hI.loop.parameters.symm
    rcases (hot_step hp hq hg hext hI (u 0) w).2 hn with ⟨b, mpc, st, _, hr, hG, hJ⟩ | ⟨hr, mpc, hu, hno⟩
    · rcases (hot_step hp hq hg hext' hI' (u' 0) w).2 hn with ⟨b', mpc', st', _, hr', hG', hJ'⟩ | ⟨hr', mpc', hu', hno'⟩
      · obtain ⟨hw, -⟩ := good_same hp hq ho hI.loop hI'.loop hf hb hs hG hG'
        have hbp : b.model.params = s.model.params :=
          loop_params (s0 := loopOf s) (.step .start ⟨_, _, _, _, _, _, _, _, hG.update, hG.solution, hG.completes⟩)
        rcases ih (fun i => u (i + 1)) (fun i => u' (i + 1)) (fun i => clock (i + 1)) (fun i => clock' (i + 1)) hJ hJ' hw
          (by rw [hbp]; exact hf) (by rw [hbp]; exact hb) (by omega) with ⟨a, a', h1, h2, h3⟩ | ⟨h1, h2⟩
        · refine .inl ⟨a, a', ?_, ?_, h3⟩
          · rw [← measures_succ]
            exact runAs_next hr h1
          · rw [← measures_succ]
            exact runAs_next hr' h2
        · exact .inr ⟨runAs_next hr h1, runAs_next hr' h2⟩
      · refine (thrown_same hc' hpar.symm ⟨hs.model.symm, hs.machine.symm⟩ hu' hno' (fun x hx => ?_) hG).elim
        exact allowed_moderate hp hq hI'.loop hu' (by have := hs.model; rw [show (loopOf s').model = s.model from this]; exact hf)
          (by have := hs.model; rw [show (loopOf s').model = s.model from this]; exact hb) hx
    · rcases (hot_step hp hq hg hext' hI' (u' 0) w).2 hn with ⟨b', mpc', st', _, hr', hG', hJ'⟩ | ⟨hr', mpc', hu', hno'⟩
      · exact (thrown_same hc hpar hs hu hno (fun x hx => allowed_moderate hp hq hI.loop hu hf hb hx) hG').elim
      · exact .inr ⟨runAs_error hr, runAs_error hr'⟩

/-- **C106.** If both solvers solve all feasible problems, then the runs have the same outcome: either both make all iterations and the robot
ends in the same state, or both are stopped by an exception. -/
theorem C106_outcome (v v' : Hotstart) {ext ext' : Qpoases ℝ} (hp : LoopParameters p N T) (hq : MPCParameters.make N T T T = .ok q)
    (hg : o.terminal = true → o.terminalGain ≠ 0) (ho : OneMinimum o) (hext : TrustedSolver ext) (hext' : TrustedSolver ext')
    (hc : CompleteSolver ext) (hc' : CompleteSolver ext') (h0 : ProgramStart p q o s0) (h0' : ProgramStart p q o s0')
    (hm : s0'.model = s0.model) (hf : SaneFeet s0.model.params) (hb : FeetBelowInfinity s0.model.params) (u u' : ℕ → Memory)
    (w : WalkParameters) (clock clock' : ℕ → Fin 3 → ℝ) :
    (∃ s s', RunReturns v ext nan T u w clock s0 (.ok (s, (List.range (iterations p N T)).map clock)) ∧
      RunReturns v' ext' nan T u' w clock' s0' (.ok (s', (List.range (iterations p N T)).map clock')) ∧ SameWalk s s') ∨
    (RunReturns v ext nan T u w clock s0 (.error .thrown) ∧ RunReturns v' ext' nan T u' w clock' s0' (.error .thrown)) := by
  obtain ⟨side, hI⟩ := hot_start (v := v) (nan := nan) hp h0
  obtain ⟨side', hI'⟩ := hot_start (v := v') (nan := nan) hp h0'
  exact both_outcome v v' hp hq hg ho hext hext' hc hc' w _ u u' clock clock' hI hI'
    ⟨hm, Except.ok.inj (h0'.loop.machine.symm.trans h0.loop.machine)⟩ hf hb (.inl (by omega))

/-- **C106.** Without the terminal constraint, and with a solver which solves all feasible problems, runs of each of the four kinds make all
iterations. -/
theorem C106_completes (v : Hotstart) {ext : Qpoases ℝ} (hp : LoopParameters p N T) (hq : MPCParameters.make N T T T = .ok q)
    (ht : o.terminal = false) (hext : TrustedSolver ext) (hcomplete : CompleteSolver ext) (h0 : ProgramStart p q o s0)
    (hf : SaneFeet s0.model.params) (u : ℕ → Memory) (w : WalkParameters) (clock : ℕ → Fin 3 → ℝ) :
    ∃ s, RunReturns v ext nan T u w clock s0 (.ok (s, (List.range (iterations p N T)).map clock)) ∧
      RunAfter v ext nan T (fun _ => w) s0 (iterations p N T) s := by
  have hg : o.terminal = true → o.terminalGain ≠ 0 := fun e => by rw [ht] at e; cases e
  obtain ⟨r, h1, -, ⟨s, rfl, h3⟩ | ⟨rfl, n, s, mpc, h3, h4, h5⟩⟩ := C106_run (nan := nan) v hp hq hg hext h0 u w clock
  · exact ⟨s, h1, h3⟩
  · exfalso
    obtain ⟨⟨side, k, h, hI⟩, hL⟩ := hot_after hp hq hg hext h0 h3
    have hpar : (loopOf s).model.params = s0.model.params := loop_params hL
    obtain ⟨x, hx1, hx2⟩ := allowed_exists hp hq hI.loop h4 (by rw [hpar]; exact hf) ht
    rcases h5 with h5 | ⟨a, g, gs, hd, hs⟩
    · exact h5 x hx1 hx2
    · exact hs (hcomplete a g gs hd.accepted (hd.bounds trivial).1 (hd.bounds trivial).2 ⟨x, hd.complete x hx2 hx1⟩)

end

/-! ### Measures -/

theorem allMeasures_ok {run : ℕ → Option (Res (Program × List (Fin 3 → ℝ)))} {clock : ℕ → ℕ → Fin 3 → ℝ} {m : ℕ} : ∀ (n i : ℕ),
    (∀ k, i ≤ k → k < i + n → ∃ s, run k = some (.ok (s, (List.range m).map (clock k)))) →
    allMeasures run n i = some (.ok ((List.range n).map fun k => measureMatrix ((List.range m).map (clock (i + k))))) := by
  intro n
  induction n with
  | zero => intro i _; rfl
  | succ n ih =>
    intro i h
    obtain ⟨s, hs⟩ := h i (le_refl _) (by omega)
    unfold allMeasures
    rw [hs]
    simp only
    rw [ih (i + 1) fun k h1 h2 => h k (by omega) (by omega), List.range_succ_eq_map, List.map_cons, List.map_map]
    simp only [Nat.add_zero]
    congr 3
    refine List.map_congr_left fun k _ => ?_
    show _ = measureMatrix ((List.range m).map (clock (i + (k + 1))))
    rw [show i + 1 + k = i + (k + 1) by omega]

theorem sumMeasures_ok : ∀ (l : List (Mat ℝ)) (A : Mat ℝ), (∀ B ∈ l, B.rows = A.rows ∧ B.cols = A.cols) →
    l.foldlM addMeasures A = .ok ⟨A.rows, A.cols, fun r c => A.e r c + (l.map fun B => B.e r c).sum⟩ := by
  intro l
  induction l with
  | nil =>
    intro A _
    simp
    rfl
  | cons B l ih =>
    intro A h
    obtain ⟨h1, h2⟩ := h B (by simp)
    have e : addMeasures A B = .ok ⟨A.rows, A.cols, fun r c => A.e r c + B.e r c⟩ := by
      unfold addMeasures
      rw [h1, h2]
      simp [require]
    rw [List.foldlM_cons, e, ok_bind, ih ⟨A.rows, A.cols, fun r c => A.e r c + B.e r c⟩ fun C hC => h C (by simp [hC])]
    congr 2
    funext r c
    simp [add_assoc]

/-- The averages of simulations which have made the same number of iterations. -/
theorem multiRun_ok {run : ℕ → Option (Res (Program × List (Fin 3 → ℝ)))} {clock : ℕ → ℕ → Fin 3 → ℝ} {m n : ℕ} (hn : 0 < n)
    (h : ∀ k < n, ∃ s, run k = some (.ok (s, (List.range m).map (clock k)))) :
    ∃ A, multiRun run n = some (.ok A) ∧ Averages clock n m A := by
  obtain ⟨n, rfl⟩ : ∃ j, n = j + 1 := ⟨n - 1, by omega⟩
  have e := allMeasures_ok (clock := clock) (m := m) (n + 1) 0 fun k _ hk => h k (by omega)
  rw [List.range_succ_eq_map, List.map_cons, List.map_map] at e
  have e2 := sumMeasures_ok ((List.range n).map ((fun k => measureMatrix ((List.range m).map (clock (0 + k)))) ∘ Nat.succ))
    (measureMatrix ((List.range m).map (clock (0 + 0)))) (by
      intro B hB
      obtain ⟨k, -, rfl⟩ := List.mem_map.1 hB
      simp [measureMatrix])
  refine ⟨⟨3, m, fun r c => 1 / ((n + 1 : ℕ) : ℝ) * ((measureMatrix ((List.range m).map (clock (0 + 0)))).e r c +
      (((List.range n).map ((fun k => measureMatrix ((List.range m).map (clock (0 + k)))) ∘ Nat.succ)).map fun B => B.e r c).sum)⟩,
    ?_, ⟨rfl, rfl⟩, ?_⟩
  · unfold multiRun
    rw [e]
    simp only
    unfold averageMeasures
    simp only
    rw [e2, ok_bind]
    simp [measureMatrix]
    rfl
  · intro r i hi
    have key : ∀ k, (measureMatrix ((List.range m).map (clock k))).e r i = clock k i r := by
      intro k
      have hr := r.isLt
      simp only [measureMatrix, hr, dif_pos]
      simp [hi]
    have hpos : ((n + 1 : ℕ) : ℝ) ≠ 0 := by positivity
    simp only
    rw [key, List.map_map, ← mul_assoc, mul_one_div, div_self hpos, one_mul, Finset.sum_range_succ']
    rw [add_comm, Nat.add_zero]
    congr 1
    rw [show (Finset.range n).sum (fun k => clock (k + 1) i r) = ((List.range n).map fun k => clock (k + 1) i r).sum from rfl]
    congr 1
    refine List.map_congr_left fun k _ => ?_
    show (measureMatrix ((List.range m).map (clock (0 + (k + 1))))).e r i = _
    rw [Nat.zero_add, key]

section
variable {p : FSMParams} {N T : ℕ} {q : MPCParameters} {o : ProblemSetup} {nan : ℝ} {n : ℕ}

/-- **C106.** A positive number of simulations, in which the objects, the contents of the memory and the times may be different: all
simulations make the same number of iterations, and the averages of the measured times are computed for each of the iterations. -/
theorem C106_measures (v : Hotstart) {ext : Qpoases ℝ} (hp : LoopParameters p N T) (hq : MPCParameters.make N T T T = .ok q)
    (ht : o.terminal = false) (hext : TrustedSolver ext) (hcomplete : CompleteSolver ext) {s0 : ℕ → Program}
    (h0 : ∀ k, ProgramStart p q o (s0 k)) (hf : ∀ k, SaneFeet (s0 k).model.params) (u : ℕ → ℕ → Memory) (w : WalkParameters)
    (clock : ℕ → ℕ → Fin 3 → ℝ) (hn : 0 < n) :
    ∃ fuel left A, multiRun (fun k => (s0 k).runAs v ext fuel nan T (u k) w (clock k) left) n = some (.ok A) ∧
      Averages clock n (iterations p N T) A := by
  have hr : ∀ k, ∃ s f l, (s0 k).runAs v ext f nan T (u k) w (clock k) l = some (.ok (s, (List.range (iterations p N T)).map (clock k))) := by
    intro k
    obtain ⟨s, ⟨f, l, hs⟩, -⟩ := C106_completes (nan := nan) v hp hq ht hext hcomplete (h0 k) (hf k) (u k) w (clock k)
    exact ⟨s, f, l, hs⟩
  choose s f l hs using hr
  obtain ⟨F, hF⟩ : ∃ F, ∀ k < n, f k ≤ F := ⟨(Finset.range n).sup f, fun k hk => Finset.le_sup (Finset.mem_range.2 hk)⟩
  obtain ⟨L, hL⟩ : ∃ L, ∀ k < n, l k ≤ L := ⟨(Finset.range n).sup l, fun k hk => Finset.le_sup (Finset.mem_range.2 hk)⟩
  obtain ⟨A, hA, hA'⟩ := multiRun_ok (run := fun k => (s0 k).runAs v ext F nan T (u k) w (clock k) L) (clock := clock)
    (m := iterations p N T) hn fun k hk => ⟨s k, runAs_mono (hF k hk) (hL k hk) (hs k)⟩
  exact ⟨F, L, A, hA, hA'⟩

/-- Without simulations the behaviour is undefined; the main function of the test requires a positive number. -/
theorem no_simulations_undefined (run : ℕ → Option (Res (Program × List (Fin 3 → ℝ)))) : multiRun run 0 = some (.error .ub) := rfl

end

/-! ### The program of C84 -/

theorem sm_result {σ α β : Type} {P : β → Prop} {m : SM σ α} {f : α → SM σ β} (h : ∀ a s b t, f a s = (.ok b, t) → P b) :
    ∀ s b t, (m >>= f) s = (.ok b, t) → P b := by
  intro s b t e
  have e : m.andThen f s = (.ok b, t) := e
  unfold SM.andThen at e
  split at e
  · exact h _ _ _ _ e
  · cases e

theorem solve_returns (ext : Qpoases ℝ) (z : ℕ → ℕ → ℝ) (zc : Junk ℝ) (sol : Solution ℝ) (P : Hierarchy ProblemEnv ℝ) (g : Solution ℝ)
    (a : ActiveSetH) (s t : SolverState (QpoasesMem ℝ)) (sol' : Solution ℝ) :
    (qpoasesBackend ext z zc).solve sol P (.guessActiveSetInOut g a) s ≠ (.ok (sol', none), t) := by
  intro e
  have : (none : Option ActiveSetH).isSome = true := by
    refine sm_result (P := fun y : Solution ℝ × Option ActiveSetH => y.2.isSome = true) (fun _ => ?_) _ _ _ e
    refine sm_result fun _ => sm_result fun _ => sm_result fun _ => sm_result fun _ => sm_result fun _ => sm_result fun _ => ?_
    intro s b t e
    cases e
    rfl
  cases this

/-- **C106.** The program of C84 is the case with both guesses. -/
theorem C106_program (ext : Qpoases ℝ) (nan : ℝ) (T : ℕ) (u : Memory) (w : WalkParameters) (s : Program) (r : Res (Option Program)) :
    StepReturns ⟨true, true⟩ ext nan T u w s r ↔ IterationReturns ext nan T u w s r := by
  have h1 : ∀ mpc, s.solveAs ⟨true, true⟩ ext u mpc = s.solveProblem ext u mpc := by
    intro mpc
    unfold Program.solveAs Program.solveProblem
    refine bind_congr fun ⟨p, sol, g, a⟩ => ?_
    simp only
    have := solve_returns ext u.objective u.constraints sol p.hierarchy g a s.solver
    cases hc : (qpoasesBackend ext u.objective u.constraints).solve sol p.hierarchy (.guessActiveSetInOut g a) s.solver with
    | mk x y =>
      have hc' : (qpoasesBackend ext u.objective u.constraints).solve sol p.hierarchy (Hotstart.entry ⟨true, true⟩ g a) s.solver = (x, y) := hc
      rw [hc']
      rcases x with e | ⟨sol', _ | b⟩
      · rfl
      · exact absurd hc (this _ _)
      · rfl
  have h2 : ∀ fuel, s.iterateAs ⟨true, true⟩ ext fuel nan T u w = s.iterate ext fuel nan T u w := by
    intro fuel
    unfold Program.iterateAs Program.iterate
    cases s.mpc.update fuel nan u.horizon u.matrices u.indices s.model s.fsm w with
    | none => rfl
    | some y =>
      rcases y with e | ⟨mpc, x⟩
      · rfl
      · cases x with
        | ok =>
          simp only [h1]
          cases s.solveProblem ext u mpc with
          | error e => rfl
          | ok s1 =>
            simp only
            cases FSM.shiftTime fuel s1.fsm T with
            | none => rfl
            | some y => cases y <;> rfl
        | _ => rfl
  unfold StepReturns IterationReturns
  simp only [h2]

/-! ### The hypotheses are met -/

theorem default_one_minimum (fixed terminal : Bool) : OneMinimum (defaultSetup fixed terminal) := by
  constructor
  · norm_num [defaultSetup]
  · right
    norm_num [defaultSetup]

theorem feet20_below : FeetBelowInfinity feet20 := by
  constructor <;> norm_num [feet20]

/-- The default walk, without hot starting and with both guesses: 74 iterations each, with the same result. -/
example (nan : ℝ) (u u' : ℕ → Memory) (w : WalkParameters) (fixed : Bool) (clock : ℕ → Fin 3 → ℝ) : ∃ ext q s0, TrustedSolver ext ∧
    CompleteSolver ext ∧ MPCParameters.make 16 100 100 100 = .ok q ∧ ProgramStart FSMParams.default q (defaultSetup fixed false) s0 ∧
    ∃ s s' l, RunReturns ⟨false, false⟩ ext nan 100 u w clock s0 (.ok (s, l)) ∧ RunReturns ⟨true, true⟩ ext nan 100 u' w clock s0 (.ok (s', l)) ∧
      l.length = 74 ∧ SameWalk s s' := by
  obtain ⟨ext, h1, h2⟩ := exists_solver
  obtain ⟨q, hq⟩ : ∃ q, MPCParameters.make 16 100 100 100 = .ok q := ⟨_, rfl⟩
  obtain ⟨s0, h0, hm⟩ := default_program nan (q := q) fixed false
  have hf : SaneFeet s0.model.params := by rw [hm]; exact feet20_sane
  have hb : FeetBelowInfinity s0.model.params := by rw [hm]; exact feet20_below
  refine ⟨ext, q, s0, h1, h2, hq, h0, ?_⟩
  obtain ⟨s, e, e'⟩ := C106_completes (nan := nan) ⟨false, false⟩ default_loop hq rfl h1 h2 h0 hf u w clock
  obtain ⟨s', f, f'⟩ := C106_completes (nan := nan) ⟨true, true⟩ default_loop hq rfl h1 h2 h0 hf u' w clock
  exact ⟨s, s', _, e, f, by rw [List.length_map, List.length_range]; rfl,
    (C106_same ⟨false, false⟩ ⟨true, true⟩ default_loop hq (fun e => by cases e) (default_one_minimum fixed false) h1 h1 h0 h0 rfl hf hb e' f').1⟩

end Humoto.Wpg
