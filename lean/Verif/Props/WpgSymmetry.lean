import Verif.Lemmas.WpgSymmetry3
import Verif.Props.WpgHotstart

/-!
# C109: the walk does not depend on the place and the direction of the robot, a mirrored robot makes the mirrored walk
-/

namespace Humoto.Wpg

open Spec Spec.Wpg Bridge

section
variable {g : WalkMap} {v v' : Hotstart} {p : FSMParams} {N T : ℕ} {q : MPCParameters} {o : ProblemSetup} {nan : ℝ} {ext ext' : Qpoases ℝ}
  {n : ℕ} {s s' a a' : Program} {side side' : StanceType} {k k' : ℕ} {u u' : Memory} {w : WalkParameters} {mpc mpc' : Mpc} {st st' : ModelState}

theorem stanceType_undefined (g : WalkMap) (t : StanceType) : g.stanceType t = .undefined ↔ t = .undefined := by
  unfold WalkMap.stanceType
  cases t <;> cases g.mirror <;> simp

theorem parameters_moved (g : WalkMap) (hp : LoopParameters p N T) : LoopParameters (g.schedule p) N T :=
  ⟨fun h1 h2 => hp.proper ((g.stanceType_ds _).1 h1) ((stanceType_undefined g _).1 h2), hp.sampling, hp.transition, hp.single, hp.first,
    hp.last, hp.horizon⟩

theorem walkMs_moved (g : WalkMap) (p : FSMParams) : walkMs (g.schedule p) = walkMs p := by
  unfold walkMs
  have h : ((g.schedule p).firstStance = .ds ∧ (g.schedule p).numSteps = 0) ↔ (p.firstStance = .ds ∧ p.numSteps = 0) :=
    and_congr (g.stanceType_ds _) Iff.rfl
  rw [if_congr h rfl rfl]
  rfl

theorem iterations_moved (g : WalkMap) (p : FSMParams) (N T : ℕ) : iterations (g.schedule p) N T = iterations p N T := by
  unfold iterations
  rw [walkMs_moved]

/-! ## Two iterations -/

/-- Updates in situations one of which is the image of the other give images of horizons. -/
theorem moved_update (hp : LoopParameters p N T) (hq : MPCParameters.make N T T T = .ok q) (hI : LoopInv p N T q n (loopOf s) side k)
    (hI' : LoopInv (g.schedule p) N T q n (loopOf s') side' k') (hs : MovedWalk g s s')
    (hu : UpdateReturns nan u.horizon u.matrices u.indices s.model s.fsm w s.mpc (.ok (mpc, .ok)))
    (hu' : UpdateReturns nan u'.horizon u'.matrices u'.indices s'.model s'.fsm (g.walk w) s'.mpc (.ok (mpc', .ok))) :
    MovedHorizon g mpc.horizon mpc'.horizon ∧ mpc'.parameters = mpc.parameters := by
  have hpar : s'.mpc.parameters = s.mpc.parameters := hI'.parameters.trans hI.parameters.symm
  obtain ⟨H, m, h1, -, e⟩ := update_ok hu
  obtain ⟨H', m', h1', -, e'⟩ := update_ok hu'
  obtain ⟨e1, -⟩ := C55_derived hq
  have hN : s.mpc.parameters.preview_horizon_length < 2 ^ 63 := by
    have := hI.parameters
    rw [show s.mpc.parameters = q from this, e1]
    exact hp.horizon.2
  rw [hs.machine, hpar] at h1'
  have hr' := hI'.machine.reach
  rw [show (loopOf s').fsm = g.machine s.fsm from hs.machine] at hr'
  rw [e, e']
  exact ⟨form_moved hI.machine.reach hp.proper hr' (parameters_moved g hp).proper hI.machine.inside hN hs.model h1 h1', hpar⟩

theorem entries_zero (sol : Solution ℝ) {i : ℕ} (h : sol.x.length ≤ i) : Spec.Wpg.entries sol i = 0 := by
  unfold Spec.Wpg.entries
  rw [List.getD_eq_getElem?_getD, List.getElem?_eq_none h]
  rfl

theorem solution_entries {x x' : Solution ℝ} (hl : x'.x.length = x.x.length)
    (h : ∀ i < x.x.length, movedEntries g (Spec.Wpg.entries x) i = Spec.Wpg.entries x' i) :
    x'.x = g.solution x.x ∧ Spec.Wpg.entries x' = movedEntries g (Spec.Wpg.entries x) := by
  constructor
  · unfold WalkMap.solution
    refine List.ext_getElem (by rw [hl, List.length_mapIdx]) fun i h1 h2 => ?_
    rw [List.getElem_mapIdx]
    have hi : i < x.x.length := by rw [← hl]; exact h1
    have := h i hi
    have this : (if i % 2 = 1 then g.sign * x.x.getD i 0 else x.x.getD i 0) = x'.x.getD i 0 := this
    rw [List.getD_eq_getElem?_getD, List.getD_eq_getElem?_getD, List.getElem?_eq_getElem h1, List.getElem?_eq_getElem hi] at this
    exact this.symm
  · funext i
    by_cases hi : i < x.x.length
    · exact (h i hi).symm
    · rw [entries_zero x' (by omega)]
      unfold movedEntries
      rw [entries_zero x (by omega)]
      simp

/-- Good iterations in situations one of which is the image of the other end in such situations again. -/
theorem good_moved (hp : LoopParameters p N T) (hq : MPCParameters.make N T T T = .ok q) (ho : OneMinimum o)
    (hI : LoopInv p N T q n (loopOf s) side k) (hI' : LoopInv (g.schedule p) N T q n (loopOf s') side' k') (hf : SaneFeet s.model.params)
    (hb : FeetBelowInfinity s.model.params) (hs : MovedWalk g s s') (hG : GoodIteration o nan T u w s mpc st a)
    (hG' : GoodIteration o nan T u' (g.walk w) s' mpc' st' a') : MovedWalk g a a' ∧ a'.solution.x = g.solution a.solution.x := by
  have hp' := parameters_moved g hp
  obtain ⟨hH, hpar⟩ := moved_update hp hq hI hI' hs hG.update hG'.update
  have hP := place_moved hs.model
  have hR : Ready s.model mpc := updated_ready (loop_updated hp hq hI hG.update).1
  have hR' : Ready s'.model mpc' := updated_ready (loop_updated hp' hq hI' hG'.update).1
  have hN := (loop_updated hp hq hI hG.update).2
  have h0 : 0 < mpc.horizon.intervals.n := by rw [hN]; have := hp.horizon.1; omega
  have hx := best_unique hR' ho.1 ho.2 (fun x hx => allowed_moderate hp' hq hI' hG'.update
    (by rw [show (loopOf s').model.params = s.model.params from hs.model.params]; exact hf)
    (by rw [show (loopOf s').model.params = s.model.params from hs.model.params]; exact hb) hx)
    (best_moved hH hP hI.height hG.best) hG'.best
  have hl : a'.solution.x.length = a.solution.x.length := by
    rw [hG'.solution.size, hG.solution.size, hH.size, hH.steps]
  obtain ⟨hsol, hent⟩ := solution_entries (g := g) hl fun i hi => hx i (by rw [← hG'.solution.size, hl]; exact hi)
  obtain ⟨P, cop, X, hX, -⟩ := C75_motion hR.consistent (Spec.Wpg.entries a.solution)
  have hX' := prediction_moved hH hP hX
  rw [← hent] at hX'
  obtain ⟨c, p1, p2, -, p4, p5, -⟩ := C75_profiles hR.consistent hG.solution hX u.parsing
  obtain ⟨c', p1', p2', -, p4', p5', -⟩ := C75_profiles hR'.consistent hG'.solution hX' u'.parsing
  have hm : a'.fsm = g.machine a.fsm := by
    have h1 := returns_moved g hG.completes.shifted
    have h2 := hG'.completes.shifted
    rw [show (loopOf s').fsm = g.machine s.fsm from hs.machine] at h2
    exact Except.ok.inj (returns_unique h2 h1)
  have hz : fixedSegment c.cop_profile 0 2 = .ok (cop 0) := by
    rw [fixedSegment_ok (by rw [p2.sizes.2.1]; omega)]
    congr 1
    funext i
    have := p2.pressure 0 h0 i
    simpa using this
  have hz' : fixedSegment c'.cop_profile 0 2 = .ok (g.point (cop 0)) := by
    rw [fixedSegment_ok (by rw [p2'.sizes.2.1, hH.size]; omega)]
    congr 1
    funext i
    have := p2'.pressure 0 (by rw [hH.size]; exact h0) i
    simpa using this
  have hsteps : 0 < c.horizon.variable_steps.length → ∃ P, fixedSegment c.footpos_profile 0 2 = .ok P ∧
      fixedSegment c'.footpos_profile 0 2 = .ok (g.point P) := by
    intro hl
    rw [p5] at hl
    refine ⟨P 1, ?_, ?_⟩
    · rw [fixedSegment_ok (by rw [p2.sizes.2.2.2]; omega)]
      congr 1
      funext i
      have := p2.supports 0 hl i
      simpa using this
    · rw [fixedSegment_ok (by rw [p2'.sizes.2.2.2, hH.steps]; omega)]
      congr 1
      funext i
      have := p2'.supports 0 (by rw [hH.steps]; exact hl) i
      simpa using this
  have e1 := hG.completes.next
  have e1' := hG'.completes.next
  unfold Mpc.parseAndGetNextModelState at e1 e1'
  simp only [bind_eq_ok] at e1 e1'
  obtain ⟨-, -, c1, f1, x1, f2, f3⟩ := e1
  obtain ⟨-, -, c1', f1', x1', f2', f3'⟩ := e1'
  rw [p1] at f1
  rw [p1'] at f1'
  cases f1
  cases f1'
  have f2 : c.initializeNextModelState nan a.fsm s.model = .ok x1 := f2
  have f2' : c'.initializeNextModelState nan a'.fsm s'.model = .ok x1' := f2'
  rw [hm] at f2'
  have hst : st = x1 := (Prod.mk.inj (Except.ok.inj f3)).2.symm
  have hst' : st' = x1' := (Prod.mk.inj (Except.ok.inj f3')).2.symm
  have g1 : s.model.updateState st = .ok a.model := hG.completes.updated
  have g1' : s'.model.updateState st' = .ok a'.model := hG'.completes.updated
  rw [hst] at g1
  rw [hst'] at g1'
  have t1 := hR.consistent.times 0 h0
  have t1' := hR'.consistent.times 0 (by rw [hH.size]; exact h0)
  refine ⟨⟨model_moved (by rw [p5, p5']; exact hH) (by rw [p4, p4', hpar]) (by rw [p5]; exact h0) (by rw [p5]; exact t1.1.ne') hI.height
    (by rw [p5]; exact t1.2.2) (by rw [p5']; exact t1'.2.2) hs.model hz hz' hsteps f2 f2' g1 g1', hm⟩, hsol⟩

/-- If the solvers solve all feasible problems, then either both iterations are made or none of them. -/
theorem thrown_moved (hcomplete : CompleteSolver ext) (hH : MovedHorizon g mpc.horizon mpc'.horizon) (hs : MovedWalk g s s')
    (hh : 0 < s.model.getCoMHeight)
    (hno : (∀ x, ModerateSolution mpc.horizon x → ¬ AllowedMotion o mpc.horizon s.model x) ∨ SolverFails ext o mpc.horizon s.model)
    (hm : ∀ x, AllowedMotion o mpc.horizon s.model x → ModerateSolution mpc.horizon x) {x : ℕ → ℝ}
    (hx : AllowedMotion o mpc'.horizon s'.model x) : False := by
  have hP := place_moved hs.model
  have hal := allowed_moved hH.symm hP.symm (by rw [hP.height]; exact hh) hx
  rcases hno with hno | ⟨a, g, gs, hd, hf⟩
  · exact hno _ (hm _ hal) hal
  · exact hf (hcomplete a g gs hd.accepted (hd.bounds trivial).1 (hd.bounds trivial).2 ⟨_, hd.complete _ hal (hm _ hal)⟩)

theorem thrown_moved' (hcomplete : CompleteSolver ext') (hH : MovedHorizon g mpc.horizon mpc'.horizon) (hs : MovedWalk g s s')
    (hh : 0 < s.model.getCoMHeight)
    (hno : (∀ x, ModerateSolution mpc'.horizon x → ¬ AllowedMotion o mpc'.horizon s'.model x) ∨ SolverFails ext' o mpc'.horizon s'.model)
    (hm : ∀ x, AllowedMotion o mpc'.horizon s'.model x → ModerateSolution mpc'.horizon x) {x : ℕ → ℝ}
    (hx : AllowedMotion o mpc.horizon s.model x) : False := by
  have hP := place_moved hs.model
  have hal := allowed_moved hH hP hh hx
  rcases hno with hno | ⟨a, g, gs, hd, hf⟩
  · exact hno _ (hm _ hal) hal
  · exact hf (hcomplete a g gs hd.accepted (hd.bounds trivial).1 (hd.bounds trivial).2 ⟨_, hd.complete _ hal (hm _ hal)⟩)

end

/-! ## C109 -/

section
variable {p : FSMParams} {N T : ℕ} {q : MPCParameters} {o : ProblemSetup} {nan : ℝ} {n : ℕ} {s0 s0' s s' : Program}

theorem machine_start (g : WalkMap) (h0 : ProgramStart p q o s0) (h0' : ProgramStart (g.schedule p) q o s0') : s0'.fsm = g.machine s0.fsm := by
  have h1 : FSM.construct p = .ok s0.fsm := h0.loop.machine
  have h2 : FSM.construct (g.schedule p) = .ok s0'.fsm := h0'.loop.machine
  rw [construct_moved, h1] at h2
  exact (Except.ok.inj h2).symm

/-- **C109.** Two robots begin in positions one of which is the image of the other under a shift, a turn, or a mirror followed by them. The
schedule and the parameters of the walk are images, too: in a mirror the left foot steps instead of the right one, the robot walks and turns
to the other side. The programs may start the solver differently, call different solvers and have anything in memory. After any number of
iterations the robots and the schedules are images of one another, and so are the solutions. -/
theorem C109_moved (g : WalkMap) (v v' : Hotstart) {ext ext' : Qpoases ℝ} (hp : LoopParameters p N T)
    (hq : MPCParameters.make N T T T = .ok q) (hg : o.terminal = true → o.terminalGain ≠ 0) (ho : OneMinimum o) (hext : TrustedSolver ext)
    (hext' : TrustedSolver ext') (h0 : ProgramStart p q o s0) (h0' : ProgramStart (g.schedule p) q o s0') (hm : MovedModel g s0.model s0'.model)
    (hf : SaneFeet s0.model.params) (hb : FeetBelowInfinity s0.model.params) {w : ℕ → WalkParameters} (h : RunAfter v ext nan T w s0 n s)
    (h' : RunAfter v' ext' nan T (fun n => g.walk (w n)) s0' n s') :
    MovedWalk g s s' ∧ (0 < n → s'.solution.x = g.solution s.solution.x) := by
  have hp' := parameters_moved g hp
  induction n generalizing s s' with
  | zero =>
    cases h
    cases h'
    exact ⟨⟨hm, machine_start g h0 h0'⟩, fun e => absurd e (lt_irrefl _)⟩
  | succ n ih =>
    obtain _ | @⟨_, a, _, u, ha, hs⟩ := h
    obtain _ | @⟨_, a', _, u', ha', hs'⟩ := h'
    obtain ⟨hw, -⟩ := ih ha ha'
    obtain ⟨⟨side, k, hh, hI⟩, hL⟩ := hot_after hp hq hg hext h0 ha
    obtain ⟨⟨side', k', hh', hI'⟩, -⟩ := hot_after hp' hq hg hext' h0' ha'
    have hpar : (loopOf a).model.params = s0.model.params := loop_params hL
    obtain ⟨P1, P2⟩ := hot_step hp hq hg hext hI u (w n)
    obtain ⟨P1', P2'⟩ := hot_step hp' hq hg hext' hI' u' (g.walk (w n))
    by_cases hn : n * T + N * T ≤ walkMs p
    · rcases P2 hn with ⟨b, mpc, st, -, hr, hG, -⟩ | ⟨hr, -⟩
      · rcases P2' (by rw [walkMs_moved]; exact hn) with ⟨b', mpc', st', -, hr', hG', -⟩ | ⟨hr', -⟩
        · cases step_unique hs hr
          cases step_unique hs' hr'
          obtain ⟨h1, h2⟩ := good_moved hp hq ho hI.loop hI'.loop (by rw [← hpar] at hf; exact hf) (by rw [← hpar] at hb; exact hb) hw hG hG'
          exact ⟨h1, fun _ => h2⟩
        · cases step_unique hs' hr'
      · cases step_unique hs hr
    · cases step_unique hs (P1 (by omega))

theorem both_moved (g : WalkMap) (v v' : Hotstart) {ext ext' : Qpoases ℝ} (hp : LoopParameters p N T)
    (hq : MPCParameters.make N T T T = .ok q) (hg : o.terminal = true → o.terminalGain ≠ 0) (ho : OneMinimum o) (hext : TrustedSolver ext)
    (hext' : TrustedSolver ext') (hc : CompleteSolver ext) (hc' : CompleteSolver ext') (w : WalkParameters) {side side' : StanceType} :
    ∀ m {n s s' k k' h h'} (u u' : ℕ → Memory) (clock clock' : ℕ → Fin 3 → ℝ), HotInv v p N T q o nan n s side k h →
      HotInv v' (g.schedule p) N T q o nan n s' side' k' h' → MovedWalk g s s' → SaneFeet s.model.params → FeetBelowInfinity s.model.params →
      n + m = iterations p N T ∨ iterations p N T < n ∧ m = 0 →
      (∃ a a', RunReturns v ext nan T u w clock s (.ok (a, (List.range m).map clock)) ∧
        RunReturns v' ext' nan T u' (g.walk w) clock' s' (.ok (a', (List.range m).map clock')) ∧ MovedWalk g a a') ∨
      (RunReturns v ext nan T u w clock s (.error .thrown) ∧ RunReturns v' ext' nan T u' (g.walk w) clock' s' (.error .thrown)) := by
  have hp' := parameters_moved g hp
  intro m
  induction m with
  | zero =>
    intro n s s' k k' h h' u u' clock clock' hI hI' hs hf hb hm
    have hn : walkMs p < n * T + N * T := by
      by_contra hc
      have := (iterations_lt (p := p) (N := N) hp.sampling n).2 (by omega)
      omega
    exact .inl ⟨s, s', runAs_left ((hot_step hp hq hg hext hI (u 0) w).1 hn),
      runAs_left ((hot_step hp' hq hg hext' hI' (u' 0) (g.walk w)).1 (by rw [walkMs_moved]; exact hn)), hs⟩
  | succ m ih =>
    intro n s s' k k' h h' u u' clock clock' hI hI' hs hf hb hm
    have hn := (iterations_lt (p := p) (N := N) hp.sampling n).1 (by omega)
    have hn' : n * T + N * T ≤ walkMs (g.schedule p) := by rw [walkMs_moved]; exact hn
    have hfb' : SaneFeet (loopOf s').model.params ∧ FeetBelowInfinity (loopOf s').model.params := by
      rw [show (loopOf s').model.params = s.model.params from hs.model.params]
      exact ⟨hf, hb⟩
    rcases (hot_step hp hq hg hext hI (u 0) w).2 hn with ⟨b, mpc, st, _, hr, hG, hJ⟩ | ⟨hr, mpc, hu, hno⟩
    · rcases (hot_step hp' hq hg hext' hI' (u' 0) (g.walk w)).2 hn' with ⟨b', mpc', st', _, hr', hG', hJ'⟩ | ⟨hr', mpc', hu', hno'⟩
      · obtain ⟨hw, -⟩ := good_moved hp hq ho hI.loop hI'.loop hf hb hs hG hG'
        have hbp : b.model.params = s.model.params :=
          loop_params (s0 := loopOf s) (.step .start ⟨_, _, _, _, _, _, _, _, hG.update, hG.solution, hG.completes⟩)
        rcases ih (fun i => u (i + 1)) (fun i => u' (i + 1)) (fun i => clock (i + 1)) (fun i => clock' (i + 1)) hJ hJ' hw
          (by rw [hbp]; exact hf) (by rw [hbp]; exact hb) (by omega) with ⟨a, a', h1, h2, h3⟩ | ⟨h1, h2⟩
        · refine .inl ⟨a, a', ?_, ?_, h3⟩
          · rw [← measures_succ]
            exact runAs_next hr h1
          · rw [← measures_succ]
            exact runAs_next hr' h2
        · exact .inr ⟨runAs_next hr h1, runAs_next hr' h2⟩
      · obtain ⟨hH, -⟩ := moved_update hp hq hI.loop hI'.loop hs hG.update hu'
        exact (thrown_moved' hc' hH hs hI.loop.height hno' (fun x hx => allowed_moderate hp' hq hI'.loop hu' hfb'.1 hfb'.2 hx)
          hG.best.allowed).elim
    · rcases (hot_step hp' hq hg hext' hI' (u' 0) (g.walk w)).2 hn' with ⟨b', mpc', st', _, hr', hG', hJ'⟩ | ⟨hr', mpc', hu', hno'⟩
      · obtain ⟨hH, -⟩ := moved_update hp hq hI.loop hI'.loop hs hu hG'.update
        exact (thrown_moved hc hH hs hI.loop.height hno (fun x hx => allowed_moderate hp hq hI.loop hu hf hb hx) hG'.best.allowed).elim
      · exact .inr ⟨runAs_error hr, runAs_error hr'⟩

/-- **C109.** If both solvers solve all feasible problems, then the runs have the same outcome: either both make all iterations and the
robots end in positions which are images of one another, or both are stopped by an exception. -/
theorem C109_outcome (g : WalkMap) (v v' : Hotstart) {ext ext' : Qpoases ℝ} (hp : LoopParameters p N T)
    (hq : MPCParameters.make N T T T = .ok q) (hg : o.terminal = true → o.terminalGain ≠ 0) (ho : OneMinimum o) (hext : TrustedSolver ext)
    (hext' : TrustedSolver ext') (hc : CompleteSolver ext) (hc' : CompleteSolver ext') (h0 : ProgramStart p q o s0)
    (h0' : ProgramStart (g.schedule p) q o s0') (hm : MovedModel g s0.model s0'.model) (hf : SaneFeet s0.model.params)
    (hb : FeetBelowInfinity s0.model.params) (u u' : ℕ → Memory) (w : WalkParameters) (clock clock' : ℕ → Fin 3 → ℝ) :
    (∃ s s', RunReturns v ext nan T u w clock s0 (.ok (s, (List.range (iterations p N T)).map clock)) ∧
      RunReturns v' ext' nan T u' (g.walk w) clock' s0' (.ok (s', (List.range (iterations p N T)).map clock')) ∧ MovedWalk g s s') ∨
    (RunReturns v ext nan T u w clock s0 (.error .thrown) ∧ RunReturns v' ext' nan T u' (g.walk w) clock' s0' (.error .thrown)) := by
  obtain ⟨side, hI⟩ := hot_start (v := v) (nan := nan) hp h0
  obtain ⟨side', hI'⟩ := hot_start (v := v') (nan := nan) (parameters_moved g hp) h0'
  exact both_moved g v v' hp hq hg ho hext hext' hc hc' w _ u u' clock clock' hI hI' ⟨hm, machine_start g h0 h0'⟩ hf hb (.inl (by omega))

/-- The mirror whose plane contains the axis to the front. -/
def mirrored : WalkMap := ⟨true, 0, 0⟩

theorem mirrored_vector (a b : ℝ) : mirrored.vector ![a, b] = ![a, -b] := by
  unfold WalkMap.vector WalkMap.sign mirrored
  simp

theorem mirrored_point (a b : ℝ) : mirrored.point ![a, b] = ![a, -b] := by
  unfold WalkMap.point
  rw [mirrored_vector]
  unfold mirrored
  simp

/-- **C109.** A robot which stands symmetrically and does not step or turn, and whose reference velocities are directed forward: its point
mass remains in the plane of symmetry, the feet remain mirror images of one another, and the solutions have zeros across. -/
theorem C109_plane (v : Hotstart) {ext : Qpoases ℝ} (hp : LoopParameters p N T) (hq : MPCParameters.make N T T T = .ok q)
    (hg : o.terminal = true → o.terminalGain ≠ 0) (ho : OneMinimum o) (hext : TrustedSolver ext) (h0 : ProgramStart p q o s0)
    (hm : MovedModel mirrored s0.model s0.model) (hf : SaneFeet s0.model.params) (hb : FeetBelowInfinity s0.model.params)
    (hsym : mirrored.schedule p = p) {w : ℕ → WalkParameters} (hw : ∀ n, (w n).com_velocity 1 = 0 ∧ (w n).first_stance_com_velocity 1 = 0 ∧
      (w n).last_stance_com_velocity 1 = 0 ∧ (w n).theta_increment = 0) (h : RunAfter v ext nan T w s0 n s) :
    s.model.state.com_state.position 1 = 0 ∧ s.model.state.com_state.velocity 1 = 0 ∧ s.model.state.com_state.acceleration 1 = 0 ∧
    s.model.state.feet.left.position 0 = s.model.state.feet.right.position 0 ∧
    s.model.state.feet.left.position 1 = -s.model.state.feet.right.position 1 ∧
    (0 < n → ∀ i < s.solution.x.length, i % 2 = 1 → s.solution.x.getD i 0 = 0) := by
  have hw' : (fun n => mirrored.walk (w n)) = w := by
    funext n
    obtain ⟨h1, h2, h3, h4⟩ := hw n
    have e : ∀ u : Fin 2 → ℝ, u 1 = 0 → mirrored.side u = u := by
      intro u hu
      funext a
      fin_cases a
      · rfl
      · show mirrored.sign * u 1 = u 1
        rw [hu, mul_zero]
    unfold WalkMap.walk
    rw [e _ h1, e _ h2, e _ h3, h4, mul_zero, ← h4]
  obtain ⟨hM, hS⟩ := C109_moved (s0 := s0) (s0' := s0) mirrored v v hp hq hg ho hext hext h0 (by rw [hsym]; exact h0) hm hf hb h
    (by rw [hw']; exact h)
  have e1 := hM.model.mass.position
  have e2 := hM.model.mass.velocity
  have e3 := hM.model.mass.acceleration
  have e4 := hM.model.left.position
  rw [mirrored_point] at e1
  rw [mirrored_vector] at e2 e3
  rw [show (if mirrored.mirror then s.model.state.feet.right else s.model.state.feet.left) = s.model.state.feet.right from rfl, mirrored_point] at e4
  have f1 : s.model.state.com_state.position 1 = -s.model.state.com_state.position 1 := congrFun e1 1
  have f2 : s.model.state.com_state.velocity 1 = -s.model.state.com_state.velocity 1 := congrFun e2 1
  have f3 : s.model.state.com_state.acceleration 1 = -s.model.state.com_state.acceleration 1 := congrFun e3 1
  refine ⟨by linarith, by linarith, by linarith, congrFun e4 0, congrFun e4 1, fun hn i hi hodd => ?_⟩
  have := hS hn
  have hi' := congrArg (fun l : List ℝ => l.getD i 0) this
  simp only [WalkMap.solution, List.getD_eq_getElem?_getD, List.getElem?_mapIdx, List.getElem?_eq_getElem hi, Option.map_some,
    Option.getD_some, if_pos hodd] at hi'
  rw [List.getD_eq_getElem?_getD, List.getElem?_eq_getElem hi]
  have hsg : mirrored.sign = -1 := rfl
  rw [hsg] at hi'
  show s.solution.x[i] = 0
  linarith

end

/-! ### The hypotheses are met -/

/-- The image of a foot. -/
noncomputable def imageFoot (g : WalkMap) (r : RigidBodyState ℝ) : RigidBodyState ℝ :=
  ⟨![g.point ![r.position 0, r.position 1] 0, g.point ![r.position 0, r.position 1] 1, r.position 2], r.velocity, r.acceleration,
    ![r.rpy 0, r.rpy 1, g.heading (r.rpy 2)], r.angularVelocity, r.angularAcceleration⟩

theorem pair_eta (v : Fin 2 → ℝ) : ![v 0, v 1] = v := by
  funext a
  fin_cases a <;> rfl

theorem imageFoot_moved (g : WalkMap) (r : RigidBodyState ℝ) : MovedFoot g r (imageFoot g r) :=
  ⟨pair_eta (g.point ![r.position 0, r.position 1]), rfl, rfl⟩

/-- The image of a robot. -/
noncomputable def imageModel (g : WalkMap) (m : Model) : Model :=
  ⟨m.params, ⟨⟨![g.point ![m.state.com_state.position 0, m.state.com_state.position 1] 0,
      g.point ![m.state.com_state.position 0, m.state.com_state.position 1] 1, m.state.com_state.position 2],
    ![g.vector ![m.state.com_state.velocity 0, m.state.com_state.velocity 1] 0,
      g.vector ![m.state.com_state.velocity 0, m.state.com_state.velocity 1] 1, m.state.com_state.velocity 2],
    ![g.vector ![m.state.com_state.acceleration 0, m.state.com_state.acceleration 1] 0,
      g.vector ![m.state.com_state.acceleration 0, m.state.com_state.acceleration 1] 1, m.state.com_state.acceleration 2]⟩,
    ⟨imageFoot g (if g.mirror then m.state.feet.right else m.state.feet.left), imageFoot g (if g.mirror then m.state.feet.left else m.state.feet.right)⟩,
    g.stanceType m.state.stance_type, g.stanceType m.state.next_stance_type⟩, g.point m.current_support_position⟩

/-- Each beginning of a walk has an image. -/
theorem image_start (g : WalkMap) {p : FSMParams} {q : MPCParameters} {o : ProblemSetup} {s : Program} (h : ProgramStart p q o s) :
    ∃ s', ProgramStart (g.schedule p) q o s' ∧ MovedModel g s.model s'.model := by
  have hm : FSM.construct p = .ok s.fsm := h.loop.machine
  have hc : s.mpc = Mpc.make q := h.loop.controller
  have hs : s.model.state.stance_type = s.fsm.cur.type := h.loop.stance
  have hh : 0 < s.model.getCoMHeight := h.loop.height
  refine ⟨{ s with model := imageModel g s.model, fsm := g.machine s.fsm }, ⟨⟨?_, hc, ?_, hh⟩, h.problem, h.solver, h.old⟩,
    ⟨rfl, rfl, rfl, ⟨pair_eta (g.point ![s.model.state.com_state.position 0, s.model.state.com_state.position 1]), rfl,
      pair_eta (g.vector ![s.model.state.com_state.velocity 0, s.model.state.com_state.velocity 1]),
      pair_eta (g.vector ![s.model.state.com_state.acceleration 0, s.model.state.com_state.acceleration 1])⟩,
      imageFoot_moved g _, imageFoot_moved g _, rfl⟩⟩
  · show FSM.construct (g.schedule p) = .ok (g.machine s.fsm)
    rw [construct_moved, hm]
    rfl
  · show g.stanceType s.model.state.stance_type = g.stanceType s.fsm.cur.type
    rw [hs]

/-- The default walk, for any place, direction and mirror: both robots make 74 iterations. -/
example (g : WalkMap) (nan : ℝ) (u u' : ℕ → Memory) (w : WalkParameters) (fixed : Bool) (clock : ℕ → Fin 3 → ℝ) : ∃ ext q s0 s0',
    TrustedSolver ext ∧ CompleteSolver ext ∧ MPCParameters.make 16 100 100 100 = .ok q ∧
    ProgramStart FSMParams.default q (defaultSetup fixed false) s0 ∧
    ProgramStart (g.schedule FSMParams.default) q (defaultSetup fixed false) s0' ∧ MovedModel g s0.model s0'.model ∧
    ∃ s s' l, RunReturns ⟨true, true⟩ ext nan 100 u w clock s0 (.ok (s, l)) ∧
      RunReturns ⟨true, true⟩ ext nan 100 u' (g.walk w) clock s0' (.ok (s', l)) ∧ l.length = 74 ∧ MovedWalk g s s' ∧
      s'.solution.x = g.solution s.solution.x := by
  obtain ⟨ext, h1, h2⟩ := exists_solver
  obtain ⟨q, hq⟩ : ∃ q, MPCParameters.make 16 100 100 100 = .ok q := ⟨_, rfl⟩
  obtain ⟨s0, h0, hm⟩ := default_program nan (q := q) fixed false
  obtain ⟨s0', h0', hmm⟩ := image_start g h0
  have hf : SaneFeet s0.model.params := by rw [hm]; exact feet20_sane
  have hb : FeetBelowInfinity s0.model.params := by rw [hm]; exact feet20_below
  refine ⟨ext, q, s0, s0', h1, h2, hq, h0, h0', hmm, ?_⟩
  obtain ⟨s, e, e'⟩ := C106_completes (nan := nan) ⟨true, true⟩ default_loop hq rfl h1 h2 h0 hf u w clock
  obtain ⟨s', f, f'⟩ := C106_completes (nan := nan) ⟨true, true⟩ (parameters_moved g default_loop) hq rfl h1 h2 h0'
    (by rw [hmm.params]; exact hf) u' (g.walk w) clock
  rw [iterations_moved] at f f'
  obtain ⟨a, b⟩ := C109_moved (w := fun _ => w) g ⟨true, true⟩ ⟨true, true⟩ default_loop hq (fun e => by cases e)
    (default_one_minimum fixed false) h1 h1 h0 h0' hmm hf hb e' f'
  exact ⟨s, s', _, e, f, by rw [List.length_map, List.length_range]; rfl, a, b (by decide)⟩

/-- In a mirror the default walk begins with the other foot. -/
example : (mirrored.schedule FSMParams.default).firstSsType ≠ FSMParams.default.firstSsType := by decide

/-- A robot which stands for 2600 ms. -/
def standStill : FSMParams := { FSMParams.default with numSteps := 0, firstSsType := .undefined, firstMs := 2600 }

/-- It moves 11 times, its point mass remains in the plane of symmetry. -/
example (nan : ℝ) (u : ℕ → Memory) (c : ℝ) (fixed : Bool) (clock : ℕ → Fin 3 → ℝ) : ∃ ext q s0 s l, TrustedSolver ext ∧
    ProgramStart standStill q (defaultSetup fixed false) s0 ∧
    RunReturns ⟨true, true⟩ ext nan 100 u ⟨![c, 0], ![c, 0], ![c, 0], 0, 0⟩ clock s0 (.ok (s, l)) ∧ l.length = 11 ∧
    s.model.state.com_state.position 1 = 0 := by
  obtain ⟨ext, h1, h2⟩ := exists_solver
  obtain ⟨q, hq⟩ : ∃ q, MPCParameters.make 16 100 100 100 = .ok q := ⟨_, rfl⟩
  obtain ⟨t, ht, hm⟩ := default_program nan (q := q) fixed false
  obtain ⟨f, hf1, hf2⟩ : ∃ f, FSM.construct standStill = .ok f ∧ f.cur.type = .ds := ⟨_, rfl, rfl⟩
  have hl : LoopParameters standStill 16 100 :=
    ⟨fun _ _ => rfl, by decide, rfl, ⟨by decide, by decide⟩, ⟨by decide, by decide⟩, ⟨by decide, by decide⟩, by decide, by decide⟩
  have h0 : ProgramStart standStill q (defaultSetup fixed false) { t with fsm := f } :=
    ⟨⟨hf1, ht.loop.controller, by show t.model.state.stance_type = f.cur.type; rw [hm, hf2]; rfl, ht.loop.height⟩, ht.problem, ht.solver, ht.old⟩
  have hf : SaneFeet t.model.params := by rw [hm]; exact feet20_sane
  have hb : FeetBelowInfinity t.model.params := by rw [hm]; exact feet20_below
  obtain ⟨s, e, e'⟩ := C106_completes (nan := nan) ⟨true, true⟩ hl hq rfl h1 h2 h0 hf u ⟨![c, 0], ![c, 0], ![c, 0], 0, 0⟩ clock
  refine ⟨ext, q, _, s, _, h1, h0, e, by rw [List.length_map, List.length_range]; rfl, ?_⟩
  refine (C109_plane (w := fun _ => ⟨![c, 0], ![c, 0], ![c, 0], 0, 0⟩) ⟨true, true⟩ hl hq (fun e => by cases e)
    (default_one_minimum fixed false) h1 h0 ?_ hf hb rfl (fun _ => ⟨rfl, rfl, rfl, rfl⟩) e').1
  show MovedModel mirrored t.model t.model
  rw [hm]
  refine ⟨rfl, rfl, rfl, ⟨?_, rfl, ?_, ?_⟩, ⟨?_, rfl, ?_⟩, ⟨?_, rfl, ?_⟩, ?_⟩
  · exact (mirrored_point _ _).symm ▸ by simp [standing20]
  · exact (mirrored_vector _ _).symm ▸ by simp [standing20]
  · exact (mirrored_vector _ _).symm ▸ by simp [standing20]
  · exact (mirrored_point _ _).symm ▸ by simp [standing20, mirrored, neg_div]
  · simp [standing20, WalkMap.heading, mirrored]
  · exact (mirrored_point _ _).symm ▸ by simp [standing20, mirrored, neg_div]
  · simp [standing20, WalkMap.heading, mirrored]
  · exact (mirrored_point _ _).symm ▸ by simp [standing20]

end Humoto.Wpg
