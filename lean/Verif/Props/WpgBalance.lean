import Verif.Lemmas.WpgBalance2
import Verif.Props.WpgStability

/-!
# C112: at every instant of the walk the centre of pressure is in the support polygon
-/

namespace Humoto.Wpg

open Spec Spec.Wpg PointMass6z Bridge

section
variable {v : Hotstart} {p : FSMParams} {N T : ℕ} {q : MPCParameters} {o : ProblemSetup} {nan : ℝ} {ext : Qpoases ℝ} {n : ℕ}
  {s0 s s' : Program} {u : Memory} {δ : ℝ} {w' : WalkParameters}

theorem pressureIn_exists (h : ℝ) (x : Fin 6 → ℝ) : ∃ z, PressureIn h x z :=
  ⟨fun a => (pressure_exists x a).choose, fun a => (pressure_exists x a).choose_spec⟩

theorem pressureIn_unique {h : ℝ} {x : Fin 6 → ℝ} {z z' : Fin 2 → ℝ} (hz : PressureIn h x z) (hz' : PressureIn h x z') : z = z' :=
  funext fun a => pressure_unique (hz a) (hz' a)

theorem balanced_of {m : Model} {x : Fin 6 → ℝ} {z : Fin 2 → ℝ} (hz : PressureIn m.getCoMHeight x z) (h : z ∈ SupportPolygon m) :
    BalancedIn m x := fun z' hz' => by rw [← pressureIn_unique hz hz']; exact h

/-- An iteration which returns a motion. -/
theorem iteration_good (hp : LoopParameters p N T) (hq : MPCParameters.make N T T T = .ok q) (hg : o.terminal = true → o.terminalGain ≠ 0)
    (hext : TrustedSolver ext) (h0 : ProgramStart p q o s0) {w : ℕ → WalkParameters} (h : RunAfter v ext nan T w s0 n s)
    (hs : StepReturns v ext nan T u w' s (.ok (some s'))) : ∃ mpc st, GoodIteration o nan T u w' s mpc st s' := by
  obtain ⟨⟨side, k, hh, hI⟩, -⟩ := hot_after hp hq hg hext h0 h
  obtain ⟨P1, P2⟩ := hot_step hp hq hg hext hI u w'
  by_cases hn : n * T + N * T ≤ walkMs p
  · rcases P2 hn with ⟨s1, mpc, st, k', hr, hG, -⟩ | ⟨hr, -⟩
    · cases step_unique hs hr
      exact ⟨mpc, st, hG⟩
    · cases step_unique hs hr
  · cases step_unique hs (P1 (by omega))

/-- The first interval has the duration of the iteration. -/
theorem Iteration.firstTime {n : ℕ} {s s' : LoopState} {mpc : Mpc} {st : ModelState} {x : ℕ → ℝ} {P cop : ℕ → Fin 2 → ℝ} {X : ℕ → Fin 6 → ℝ}
    {side : StanceType} {k k' : ℕ} {w : WalkParameters} (hp : LoopParameters p N T)
    (h : Iteration p N T q n nan s s' mpc st x P cop X side k k' w) :
    0 < mpc.horizon.intervals.n ∧ (mpc.horizon.intervals.e 0).T_ms = T ∧ (mpc.horizon.intervals.e 0).T = T / 1000 := by
  obtain ⟨junkH, l, hH, hW, hS, hd, -⟩ := h.formed
  have hM := h.before.machine
  have hN := hp.horizon.1
  have hms : (mpc.horizon.intervals.e 0).T_ms = T := by
    rw [hW.firstTime]
    obtain ⟨z, hz, -⟩ := hW.supports 0 (by omega)
    have hpos := (List.getElem?_eq_some_iff.1 hz).1
    cases l with
    | nil => simp at hpos
    | cons a r =>
      have hd0 := hd a rfl
      have ht : a.type = s.fsm.cur.type := by rw [(hS 0 a rfl).1, hM.inv.type]; rfl
      show (if a.type = .tds then a.duration else if a.duration % T = 0 then T else a.duration % T) = T
      rw [ht, hd0]
      split
      · rename_i ht
        rw [hM.transition hp ht]
        exact min_eq_left (by nlinarith [hp.sampling])
      · rw [if_pos]
        refine Nat.mod_eq_zero_of_dvd ?_
        rcases min_choice (remaining s.fsm) (N * T) with e | e <;> rw [e]
        · exact (hM.remaining hp).1
        · exact Dvd.intro_left N rfl
  have h1 := hW.seconds 0 (by omega)
  rw [hms] at h1
  exact ⟨by rw [hW.size]; omega, hms, by linarith⟩

/-- The invariant of a walk. -/
structure WalkKept (p : FSMParams) (N T : ℕ) (q : MPCParameters) (δ : ℝ) (n : ℕ) (s : LoopState) (side : StanceType) (k : ℕ) : Prop where
  loop : LoopInv p N T q n s side k
  placed : PlacedInv s k
  feet : FeetInv p δ s side k

/-- What is known about an iteration. -/
structure Pressed (T : ℕ) (s s' : Program) (u : Fin 2 → ℝ) : Prop where
  height : 0 < s.model.getCoMHeight
  height' : s'.model.getCoMHeight = s.model.getCoMHeight
  moves : Moves s.model.getCoMHeight (T / 1000) (T / 1000) s.model.getCState u s'.model.getCState
  before : u ∈ SupportPolygon s.model
  after : u ∈ SupportPolygon s'.model

theorem pressed_of (hp : LoopParameters p N T) (hq : MPCParameters.make N T T T = .ok q) (hf : SaneFeet s.model.params)
    {side : StanceType} {k : ℕ} (hI : WalkKept p N T q δ n (loopOf s) side k) 
    (hw : s.fsm.cur.type = .tds → w'.theta_increment = δ) {mpc : Mpc} {st : ModelState}
    (hG : GoodIteration o nan T u w' s mpc st s') :
    (∃ k', WalkKept p N T q w'.theta_increment (n + 1) (loopOf s') side k') ∧ ∃ P cop X k',
      Iteration p N T q n nan (loopOf s) (loopOf s') mpc st (entries s'.solution) P cop X side k k' w' ∧ Pressed T s s' (cop 0) := by
  obtain ⟨P, cop, X, k', hit⟩ := iteration_of hp hq hI.loop hG.update hG.solution hG.completes
  have hR := updated_ready (loop_updated hp hq hI.loop hG.update).1
  have hX := hit.predicted
  have hW := C81_first (allowed_within hp hq hI.loop hG.update hf hG.best.allowed)
  obtain ⟨h1, h2, h3⟩ := hit.firstTime hp
  have hF' := hit.feetInv hp hI.placed hI.feet hW
  have hP := hit.pressed hp hI.placed hI.feet hw hf hG.best.allowed.cop
  refine ⟨⟨k', hit.after, hit.placed hI.placed, hF'⟩, P, cop, X, k', hit, hR.consistent.height, hit.stepped.height, ?_, ?_, ?_⟩
  · have hm := hX.motion 0 h1
    rw [h3, hX.start] at hm
    have e : s'.model.getCState = X 1 := hit.stepped.state
    rw [e]
    exact hm
  · refine convexHull_mono ?_ hP
    refine standing_grounded _ _ ?_
    unfold standing
    obtain ⟨z1, z2⟩ := reachable_types hp.proper hI.loop.machine.reach
    rw [hI.loop.stance]
    split
    · rename_i ht
      obtain ⟨-, y, hy, hy'⟩ := hI.placed.describes ht
      rw [hy']
      intro e
      have := z2 ht y hy
      rw [e] at this
      rcases this with h | h | h <;> cases h
    · exact z1
  · exact convexHull_mono (hit.grounded hp hI.placed) hP

theorem walk_kept (hp : LoopParameters p N T) (hq : MPCParameters.make N T T T = .ok q) (hg : o.terminal = true → o.terminalGain ≠ 0)
    (hext : TrustedSolver ext) (h0 : ProgramStart p q o s0) (hst : Stands s0.model) (hf : SaneFeet s0.model.params)
    (hpar : ParallelFeet s0.model) {w : ℕ → WalkParameters} (hw : SteadyTurn v ext nan T w s0) (h : RunAfter v ext nan T w s0 n s) :
    (∃ side k δ, WalkKept p N T q δ n (loopOf s) side k ∧ (s.fsm.cur.type = .tds → (w n).theta_increment = δ)) ∧ (n ≠ 0 → BalancedIn s.model s.model.getCState) ∧ SaneFeet s.model.params := by
  induction h with
  | start =>
    obtain ⟨side, hI⟩ := loop_start hp h0.loop
    have hne : s0.model.state.stance_type ≠ .tds := by
      show (loopOf s0).model.state.stance_type ≠ .tds
      rw [h0.loop.stance, hI.machine.inv.type, ne_eq, walkType_parity hI.machine.ok (by omega) fun _ => rfl]
      omega
    have hst0 : standing s0.model.state.stance_type s0.model.state.next_stance_type = s0.model.state.stance_type := by
      unfold standing
      rw [if_neg hne]
    have hfs : (loopOf s0).fsm.cur.type = s0.model.state.stance_type := h0.loop.stance.symm
    refine ⟨⟨side, 0, 0, ⟨hI, ⟨?_, fun _ he => hst.feet (h0.loop.stance.trans he), fun he => absurd (h0.loop.stance.trans he) hne⟩, ?_⟩,
      fun e => absurd (hfs.symm.trans e) hne⟩, fun h => absurd rfl h, hf⟩
    · show IsSupportPosition _ _ (standing s0.model.state.stance_type s0.model.state.next_stance_type) _
      rw [hst0]
      exact hst.support
    · refine ⟨fun e => ?_, fun e => absurd (hfs.symm.trans e) hne, fun e => absurd (hfs.symm.trans e) hne⟩
      have e : s0.model.state.stance_type = .ds := hst0.symm.trans e
      exact ⟨hst.feet e, hpar e⟩
  | @step n a b m hr hs ih =>
    obtain ⟨⟨side, k, δ, hI, hδ⟩, -, hf'⟩ := ih
    obtain ⟨mpc, st, hG⟩ := iteration_good hp hq hg hext h0 hr hs
    obtain ⟨⟨k', hI'⟩, P, cop, X, k'', hit, hP⟩ := pressed_of hp hq hf' hI hδ hG
    have hpb : b.model.params = a.model.params := (C53_result hit.stepped.update).2.2.2.2.1
    refine ⟨⟨side, k', _, hI', fun e => hw n b (.step hr hs) (hI'.loop.stance.trans e)⟩, fun _ => ?_, by rw [hpb]; exact hf'⟩
    obtain ⟨h1, h2, h3⟩ := hit.firstTime hp
    have hT : (0 : ℝ) < T / 1000 := by
      have : (0 : ℝ) < T := Nat.cast_pos.2 hp.sampling
      positivity
    refine balanced_of (z := cop 0) (fun x => ?_) hP.after
    obtain ⟨z, hz⟩ := pressure_exists (h := a.model.getCoMHeight) a.model.getCState x
    rw [hP.height']
    exact (interval_axis hP.height hT hP.moves x hz).1

/-- **C112.** In a walk whose turn does not change in transitions, after every iteration the robot is balanced: its centre of pressure is in the support polygon,
the smallest convex set which contains the soles of the feet on the ground, with their positions and orientations in the model.
This does not depend on the state of the centre of mass in which the walk begins. -/
theorem C112_state (hp : LoopParameters p N T) (hq : MPCParameters.make N T T T = .ok q) (hg : o.terminal = true → o.terminalGain ≠ 0)
    (hext : TrustedSolver ext) (h0 : ProgramStart p q o s0) (hst : Stands s0.model) (hf : SaneFeet s0.model.params)
    (hpar : ParallelFeet s0.model) {w : ℕ → WalkParameters} (hw : SteadyTurn v ext nan T w s0) (h : RunAfter v ext nan T w s0 n s)
    (hn : n ≠ 0) : BalancedIn s.model s.model.getCState :=
  (walk_kept hp hq hg hext h0 hst hf hpar hw h).2.1 hn

/-- **C112.** Between iterations, too: the iteration takes the centre of mass from one state to the next in a motion whose centre of
pressure moves uniformly, and at every instant of this motion the centre of pressure is in the support polygon of the feet which stand on
the ground when it begins. -/
theorem C112_between (hp : LoopParameters p N T) (hq : MPCParameters.make N T T T = .ok q) (hg : o.terminal = true → o.terminalGain ≠ 0)
    (hext : TrustedSolver ext) (h0 : ProgramStart p q o s0) (hst : Stands s0.model) (hf : SaneFeet s0.model.params)
    (hpar : ParallelFeet s0.model) (hb : BalancedIn s0.model s0.model.getCState) {w : ℕ → WalkParameters}
    (hw : SteadyTurn v ext nan T w s0) (h : RunAfter v ext nan T w s0 n s)
    (hs : StepReturns v ext nan T u (w n) s (.ok (some s'))) :
    ∃ c, Moves s.model.getCoMHeight (T / 1000) (T / 1000) s.model.getCState c s'.model.getCState ∧
      ∀ (t : ℝ) x, 0 ≤ t → t ≤ T / 1000 → Moves s.model.getCoMHeight (T / 1000) t s.model.getCState c x → BalancedIn s.model x := by
  obtain ⟨⟨side, k, δ, hI, hδ⟩, hB, hf'⟩ := walk_kept hp hq hg hext h0 hst hf hpar hw h
  obtain ⟨mpc, st, hG⟩ := iteration_good hp hq hg hext h0 h hs
  obtain ⟨-, P, cop, X, k'', hit, hP⟩ := pressed_of hp hq hf' hI hδ hG
  refine ⟨cop 0, hP.moves, fun t x ht1 ht2 hm z' hz' => ?_⟩
  have hT : (0 : ℝ) < T / 1000 := by
    have : (0 : ℝ) < T := Nat.cast_pos.2 hp.sampling
    positivity
  have hB : BalancedIn s.model s.model.getCState := by
    by_cases hn : n = 0
    · subst hn
      cases h
      exact hb
    · exact hB hn
  obtain ⟨z, hz⟩ := pressureIn_exists s.model.getCoMHeight s.model.getCState
  rw [moves_pressure hm hz hz']
  have hμ1 : 0 ≤ t / (T / 1000 : ℝ) := div_nonneg ht1 hT.le
  have hμ2 : t / (T / 1000 : ℝ) ≤ 1 := (div_le_one hT).2 ht2
  have := (convex_convexHull ℝ (GroundedPoints s.model.params s.model.state)) (hB z hz) hP.before (sub_nonneg.2 hμ2) hμ1 (by ring)
  refine (congrArg (· ∈ SupportPolygon s.model) (funext fun a => ?_)).mp this
  simp only [Pi.add_apply, Pi.smul_apply, smul_eq_mul]
  ring

/-- **C112.** The states of the centre of mass which the controller reports for instants between iterations are balanced. -/
theorem C112_reported (hp : LoopParameters p N T) (hq : MPCParameters.make N T T T = .ok q) (hg : o.terminal = true → o.terminalGain ≠ 0)
    (hext : TrustedSolver ext) (h0 : ProgramStart p q o s0) (hst : Stands s0.model) (hf : SaneFeet s0.model.params)
    (hpar : ParallelFeet s0.model) (hb : BalancedIn s0.model s0.model.getCState) {w : ℕ → WalkParameters}
    (hw : SteadyTurn v ext nan T w s0) (h : RunAfter v ext nan T w s0 n s)
    (hs : StepReturns v ext nan T u (w n) s (.ok (some s'))) {ms : ℕ} (hms : ms ≤ T) :
    ∃ c x, s'.mpc.getCoMState s.model ms = .ok c ∧ HasState s.model.getCoMHeight x c ∧ BalancedIn s.model x := by
  obtain ⟨⟨side, k, δ, hI, hδ⟩, hB, hf'⟩ := walk_kept hp hq hg hext h0 hst hf hpar hw h
  obtain ⟨mpc, st, hG⟩ := iteration_good hp hq hg hext h0 h hs
  obtain ⟨-, P, cop, X, k'', hit, hP⟩ := pressed_of hp hq hf' hI hδ hG
  obtain ⟨h1, h2, h3⟩ := hit.firstTime hp
  have hT : (0 : ℝ) < T / 1000 := by
    have : (0 : ℝ) < T := Nat.cast_pos.2 hp.sampling
    positivity
  have hR := updated_ready (loop_updated hp hq hI.loop hG.update).1
  obtain ⟨c', P', cop', X', e1, e2, e3, e4, e5⟩ := parsed_of hR.consistent hG.solution u.parsing
  have hc' : s'.mpc = c' := by
    have hn := hG.completes.next
    unfold Mpc.parseAndGetNextModelState at hn
    rw [e1] at hn
    simp only [ok_bind, bind_eq_ok] at hn
    obtain ⟨-, -, st', -, hn⟩ := hn
    exact (Prod.mk.inj (Except.ok.inj hn)).1.symm
  have hcon : Contains (durations c'.horizon) ms 0 ms := by
    have e5' : durations c'.horizon = durations mpc.horizon := by rw [e5]
    rw [e5']
    obtain ⟨m, hm⟩ : ∃ m, mpc.horizon.intervals.n = m + 1 := ⟨_, (Nat.succ_pred_eq_of_pos h1).symm⟩
    refine ⟨by simpa [durations] using h1, by simp [startOf], Nat.zero_le _, ?_, fun j hj => absurd hj (Nat.not_lt_zero _)⟩
    unfold startOf durations
    rw [hm, List.range_succ_eq_map]
    simp only [List.map_cons, List.take_succ_cons, List.take_zero, List.sum_cons, List.sum_nil, h2]
    exact hms
  obtain ⟨c, x, k1, k2, k3⟩ := C76_state e3 hcon
  rw [e5, h3] at k3
  have hcop : cop' 0 = cop 0 := by
    obtain ⟨z, hz⟩ := hR.states 0 h1
    have a1 := e2.pressure 0 z h1 hz
    have a2 := hit.predicted.pressure 0 z h1 hz
    have hsb : stepsBy mpc.horizon 0 = 0 := stepsBy_zero fun k hk => (hR.steps k hk).1
    rw [hsb, e2.footsteps.start] at a1
    rw [hsb, hit.predicted.footsteps.start] at a2
    have b0 := a1.1.trans a2.1.symm
    have b1 := a1.2.trans a2.2.symm
    simp only [Pi.sub_apply] at b0 b1
    exact support_ext (by linear_combination b0) (by linear_combination b1)
  have hX0 : X' 0 = s.model.getCState := e2.start
  rw [hX0, hcop] at k3
  refine ⟨c, x, by rw [hc']; exact k1, k2, fun z' hz' => ?_⟩
  have hB : BalancedIn s.model s.model.getCState := by
    by_cases hn : n = 0
    · subst hn
      cases h
      exact hb
    · exact hB hn
  obtain ⟨z, hz⟩ := pressureIn_exists s.model.getCoMHeight s.model.getCState
  rw [moves_pressure k3 hz hz']
  have hle : (ms : ℝ) / 1000 ≤ T / 1000 := by
    have : (ms : ℝ) ≤ T := Nat.cast_le.2 hms
    linarith
  have hμ1 : 0 ≤ (ms : ℝ) / 1000 / (T / 1000 : ℝ) := by positivity
  have hμ2 : (ms : ℝ) / 1000 / (T / 1000 : ℝ) ≤ 1 := (div_le_one hT).2 hle
  have := (convex_convexHull ℝ (GroundedPoints s.model.params s.model.state)) (hB z hz) hP.before (sub_nonneg.2 hμ2) hμ1 (by ring)
  refine (congrArg (· ∈ SupportPolygon s.model) (funext fun a => ?_)).mp this
  simp only [Pi.add_apply, Pi.smul_apply, smul_eq_mul]
  ring

/-- A constant turn does not change. -/
theorem steady_of {w : ℕ → WalkParameters} (h : ∀ i, (w i).theta_increment = δ) : SteadyTurn v ext nan T w s0 :=
  fun n _ _ _ => (h (n + 1)).trans (h n).symm

end

/-! ### The hypotheses are met -/

/-- The robot stands with parallel feet, its centre of pressure is between them. -/
theorem pushed_balanced (nan D : ℝ) : ParallelFeet (pushed nan D) ∧ BalancedIn (pushed nan D) (pushed nan D).getCState := by
  refine ⟨fun _ => rfl, balanced_of (z := fun _ => 0) (fun a => pushed_pressure nan D a) ?_⟩
  have hl : ![0, 1 / 10] ∈ GroundedPoints (pushed nan D).params (pushed nan D).state := by
    refine .inl ⟨nofun, 0, ?_, ?_, ?_⟩
    · constructor <;> norm_num [pushed]
    · norm_num [pushed, feet20]
    · norm_num [pushed, feet20]
  have hr : ![0, -1 / 10] ∈ GroundedPoints (pushed nan D).params (pushed nan D).state := by
    refine .inr ⟨nofun, 0, ?_, ?_, ?_⟩
    · constructor <;> norm_num [pushed]
    · norm_num [pushed, feet20]
    · norm_num [pushed, feet20]
  have := (convex_convexHull ℝ (GroundedPoints (pushed nan D).params (pushed nan D).state)) (subset_convexHull ℝ _ hl)
    (subset_convexHull ℝ _ hr) (a := 1 / 2) (b := 1 / 2) (by norm_num) (by norm_num) (by norm_num)
  refine (congrArg (· ∈ SupportPolygon (pushed nan D)) (funext fun a => ?_)).mp this
  fin_cases a <;> norm_num

/-- The default walk of 74 iterations, turning with each step: all its states are balanced. -/
example (nan δ : ℝ) (u : ℕ → Memory) (w : WalkParameters) (hw : w.theta_increment = δ) (fixed : Bool) (v : Hotstart) : ∃ ext q s0 s,
    TrustedSolver ext ∧ MPCParameters.make 16 100 100 100 = .ok q ∧ ProgramStart FSMParams.default q (defaultSetup fixed false) s0 ∧
    Stands s0.model ∧ SaneFeet s0.model.params ∧ ParallelFeet s0.model ∧ BalancedIn s0.model s0.model.getCState ∧
    SteadyTurn v ext nan 100 (fun _ => w) s0 ∧ RunAfter v ext nan 100 (fun _ => w) s0 74 s := by
  obtain ⟨ext, h1, h2⟩ := exists_solver
  obtain ⟨q, hq⟩ : ∃ q, MPCParameters.make 16 100 100 100 = .ok q := ⟨_, rfl⟩
  obtain ⟨s0, h0, hm⟩ := program_of (m := pushed nan 0) (p := FSMParams.default) (q := q) rfl one_pos rfl rfl (defaultSetup fixed false)
  obtain ⟨s, -, e⟩ := C106_completes (nan := nan) v default_loop hq rfl h1 h2 h0 (by rw [hm]; exact feet20_sane) u w (fun _ _ => 0)
  exact ⟨ext, q, s0, s, h1, hq, h0, by rw [hm]; exact pushed_stands nan 0, by rw [hm]; exact feet20_sane,
    by rw [hm]; exact (pushed_balanced nan 0).1, by rw [hm]; exact (pushed_balanced nan 0).2, steady_of fun _ => hw, e⟩

end Humoto.Wpg
