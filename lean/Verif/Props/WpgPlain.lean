import Verif.Lemmas.WpgPlainSolvers
import Verif.Props.WpgApart

/-!
# C116: the walking program with QuadProg++ and with qpmad
-/

namespace Humoto.Wpg

open Spec Spec.Wpg Bridge

section
variable {σ : Type} {p : FSMParams} {N T : ℕ} {q : MPCParameters} {o : ProblemSetup} {nan : ℝ} {n : ℕ} {side : StanceType} {k : ℕ}
  {u : Memory} {mpc : Mpc}

theorem updateReturns_unique {junkH : ℕ → Interval} {junk : ℕ → ℕ → ℕ → ℕ → ℝ} {junkI : ℕ → ℕ → ℕ} {model : Model} {f : FSM}
    {w : WalkParameters} {c : Mpc} {r r' : Res (Mpc × Pepper.Status)} (h : UpdateReturns nan junkH junk junkI model f w c r)
    (h' : UpdateReturns nan junkH junk junkI model f w c r') : r = r' := by
  obtain ⟨a, ha⟩ := h
  obtain ⟨b, hb⟩ := h'
  exact Option.some.inj ((update_mono ha (Nat.le_max_left a b)).symm.trans (update_mono hb (Nat.le_max_right a b)))

/-- If some motion is allowed, then there is a best one. -/
theorem best_exists (hp : LoopParameters p N T) (hq : MPCParameters.make N T T T = .ok q) (hg : o.terminal = true → o.terminalGain ≠ 0)
    {s : PlainProgram σ} (hI : PlainInv p N T q o n s side k) (hn : n * T + N * T ≤ walkMs p) {w : WalkParameters}
    (hf : SaneFeet s.model.params) (hb : FeetBelowInfinity s.model.params)
    (hu : UpdateReturns nan u.horizon u.matrices u.indices s.model s.fsm w s.mpc (.ok (mpc, .ok)))
    {x : ℕ → ℝ} (hx : AllowedMotion o mpc.horizon s.model x) :
    (∃ y, BestMotion o mpc.horizon s.model 0 (fun _ => True) y) ∧ ∀ y, ∃ c, IsCost o mpc.horizon s.model y c := by
  obtain ⟨ext, h1, h2⟩ := exists_solver
  obtain ⟨d, -, -⟩ := default_program nan (q := q) true true
  have hmod : ∀ x, AllowedMotion o mpc.horizon s.model x → ModerateSolution mpc.horizon x := fun x hx =>
    allowed_moderate hp hq hI.loop hu hf hb hx
  have hU := (loop_updated hp hq hI.loop hu).1
  constructor
  · rcases (hot_step hp hq hg h1 (hI.qpoases (nan := nan) d.solver.mem) u w).2 hn with ⟨s', mpc', st, -, -, hG, -⟩ | ⟨-, mpc', hu', hno⟩
    · cases updateReturns_unique hG.update hu
      exact ⟨_, hG.best.allowed, fun c y e hc hy _ he => hG.best.least c y e hc hy (hmod y hy) he⟩
    · cases updateReturns_unique hu' hu
      rcases hno with hno | ⟨a, g, gs, hd, hs⟩
      · exact absurd hx (hno x (hmod x hx))
      · exact absurd (h2 a g gs hd.accepted (hd.bounds trivial).1 (hd.bounds trivial).2 ⟨x, hd.complete x hx (hmod x hx)⟩) hs
  · intro y
    obtain ⟨p1, L0, L1, -, -, h5⟩ := C82_form hg hI.problem hU u.tasks u.taskIndices
    exact ⟨_, (h5.cost y _).2 rfl⟩

/-- A solver which solves all problems which have a solution fails only if there is no allowed motion. -/
theorem quadprog_fails {ext : QuadProgArgs ℝ → QuadProgStatus × List ℝ} (hc : CompleteQuadProg ext) {H : Horizon} {model : Model}
    {y : ℕ → ℝ} (hy : BestMotion o H model 0 (fun _ => True) y) (hcost : ∀ y, ∃ c, IsCost o H model y c) :
    ¬ QuadProgFails ext o H model := by
  rintro ⟨a, h1, h2, h3, h4⟩
  refine h4 (hc a _ y h1 ((h2 y).2 hy.allowed) fun z hz => ?_)
  obtain ⟨c, hc⟩ := hcost y
  obtain ⟨d, hd⟩ := hcost z
  have e1 := h3 y z c d hc hd
  have e2 := hy.least c z d hc ((h2 z).1 hz) trivial hd
  simp only [zero_mul, add_zero] at e2
  linarith

theorem qpmad_fails {ext : QpmadArgs ℝ → QpmadStatus × List ℝ} (hc : CompleteQpmad ext) {H : Horizon} {model : Model}
    {y : ℕ → ℝ} (hy : BestMotion o H model 0 (fun _ => True) y) (hM : ModerateSolution H y) (hcost : ∀ y, ∃ c, IsCost o H model y c) :
    ¬ QpmadFails ext o H model := by
  rintro ⟨a, h1, h2, h2', h3, h4⟩
  refine h4 (hc a _ y h1 (h2' y hy.allowed hM) fun z hz => ?_)
  obtain ⟨c, hc⟩ := hcost y
  obtain ⟨d, hd⟩ := hcost z
  have e1 := h3 y z c d hc hd
  have e2 := hy.least c z d hc (h2 z hz) trivial hd
  simp only [zero_mul, add_zero] at e2
  linarith

/-- A program with qpOASES which begins in the same state. -/
theorem beginning (nan : ℝ) {s0 : PlainProgram σ} (h0 : PlainStart p q o s0) : ∃ s0' : Program, ProgramStart p q o s0' ∧ s0'.model = s0.model := by
  obtain ⟨d, -, -⟩ := default_program nan (q := q) true true
  exact ⟨⟨s0.model, s0.fsm, s0.mpc, s0.problem, ⟨SolverParameters.default, d.solver.mem⟩, s0.solution, ⟨.empty, [], .undefined⟩, s0.solution⟩,
    ⟨h0.loop, h0.problem, rfl, rfl⟩, rfl⟩

end

/-! ## QuadProg++ -/

section
variable {p : FSMParams} {N T : ℕ} {q : MPCParameters} {o : ProblemSetup} {nan : ℝ} {n : ℕ}
  {ext : QuadProgArgs ℝ → QuadProgStatus × List ℝ} {s0 s : PlainProgram (QPObjective ℝ × QPConstraintsABAL ℝ)} {w : ℕ → WalkParameters}

/-- **C116.** With QuadProg++, without guesses: an iteration leaves the loop when the rest of the walk does not cover the horizon; otherwise
the robot makes the best of the allowed motions, or there is an exception, and QuadProg++ has reported a failure on a problem with exactly the
allowed motions and with their costs. There is no other outcome: no undefined behaviour, no other exception. -/
theorem C116_quadprog (hp : LoopParameters p N T) (hq : MPCParameters.make N T T T = .ok q) (hg : o.terminal = true → o.terminalGain ≠ 0)
    (hr : RegularSetup o) (hext : TrustedQuadProg ext) (h0 : PlainStart p q o s0) (h : PlainAfter (quadprogSolver ext) nan T w s0 n s)
    (u : Memory) (w' : WalkParameters) :
    (walkMs p < n * T + N * T → PlainReturns (quadprogSolver ext) nan T u w' s (.ok none)) ∧
    (n * T + N * T ≤ walkMs p →
      (∃ s' mpc st, PlainReturns (quadprogSolver ext) nan T u w' s (.ok (some s')) ∧ GoodPlain o nan T u w' s mpc st s') ∨
      (PlainReturns (quadprogSolver ext) nan T u w' s (.error .thrown) ∧
        ∃ mpc, UpdateReturns nan u.horizon u.matrices u.indices s.model s.fsm w' s.mpc (.ok (mpc, .ok)) ∧
          QuadProgFails ext o mpc.horizon s.model)) := by
  have hB := quadprog_answers hg hr hext
  obtain ⟨⟨side, k, hI⟩, -⟩ := plain_after hp hq hB h0 h
  obtain ⟨P1, P2⟩ := plain_step (nan := nan) hp hq hB hI u w'
  refine ⟨P1, fun hn => ?_⟩
  rcases P2 hn with ⟨s', mpc, st, -, h1, h2, -⟩ | h1
  · exact .inl ⟨s', mpc, st, h1, h2⟩
  · exact .inr h1

/-- **C116.** If QuadProg++ solves all problems which have a solution, then there is an exception only if there is no allowed motion. -/
theorem C116_quadprog_thrown (hp : LoopParameters p N T) (hq : MPCParameters.make N T T T = .ok q)
    (hg : o.terminal = true → o.terminalGain ≠ 0) (hr : RegularSetup o) (hext : TrustedQuadProg ext) (hc : CompleteQuadProg ext)
    (h0 : PlainStart p q o s0) (hf : SaneFeet s0.model.params) (hb : FeetBelowInfinity s0.model.params)
    (h : PlainAfter (quadprogSolver ext) nan T w s0 n s) {u : Memory} {w' : WalkParameters}
    (he : PlainReturns (quadprogSolver ext) nan T u w' s (.error .thrown)) :
    ∃ mpc, UpdateReturns nan u.horizon u.matrices u.indices s.model s.fsm w' s.mpc (.ok (mpc, .ok)) ∧
      ∀ x, ¬ AllowedMotion o mpc.horizon s.model x := by
  obtain ⟨P1, P2⟩ := C116_quadprog hp hq hg hr hext h0 h u w'
  obtain ⟨⟨side, k, hI⟩, hL⟩ := plain_after hp hq (quadprog_answers hg hr hext) h0 h
  have hpar : s.model.params = s0.model.params := loop_params hL
  by_cases hn : n * T + N * T ≤ walkMs p
  · rcases P2 hn with ⟨s', mpc, st, h1, -⟩ | ⟨-, mpc, hu, hF⟩
    · cases plain_unique he h1
    · refine ⟨mpc, hu, fun x hx => ?_⟩
      obtain ⟨⟨y, hy⟩, hcost⟩ := best_exists hp hq hg hI hn (by rw [hpar]; exact hf) (by rw [hpar]; exact hb) hu hx
      exact quadprog_fails hc hy hcost hF
  · cases plain_unique he (P1 (by omega))

/-- **C116.** Without the terminal constraint such a program makes all iterations. -/
theorem C116_quadprog_completes (hp : LoopParameters p N T) (hq : MPCParameters.make N T T T = .ok q) (ht : o.terminal = false)
    (hr : RegularSetup o) (hext : TrustedQuadProg ext) (hc : CompleteQuadProg ext)
    (h0 : PlainStart p q o s0) (hf : SaneFeet s0.model.params) (hb : FeetBelowInfinity s0.model.params) (u : ℕ → Memory) :
    ∀ n ≤ iterations p N T, ∃ s, PlainAfter (quadprogSolver ext) nan T w s0 n s := by
  have hg : o.terminal = true → o.terminalGain ≠ 0 := fun e => by rw [ht] at e; cases e
  intro n
  induction n with
  | zero => exact fun _ => ⟨s0, .start⟩
  | succ n ih =>
    intro hn
    obtain ⟨s, h⟩ := ih (by omega)
    obtain ⟨⟨side, k, hI⟩, hL⟩ := plain_after hp hq (quadprog_answers hg hr hext) h0 h
    have hpar : s.model.params = s0.model.params := loop_params hL
    have hn' : n * T + N * T ≤ walkMs p := (iterations_lt (p := p) (N := N) hp.sampling n).1 (by omega)
    rcases (C116_quadprog hp hq hg hr hext h0 h (u n) (w n)).2 hn' with ⟨s', mpc, st, h1, -⟩ | ⟨h1, -⟩
    · exact ⟨s', .step h h1⟩
    · obtain ⟨mpc, hu, hno⟩ := C116_quadprog_thrown hp hq hg hr hext hc h0 hf hb h h1
      obtain ⟨x, -, hx⟩ := allowed_exists hp hq hI.loop hu (by rw [show (plainLoop s).model.params = s0.model.params from hpar]; exact hf) ht
      exact absurd hx (hno x)

/-- **C116.** With QuadProg++ the robot walks as with qpOASES, whatever is in memory and whatever guesses are given to qpOASES: after
the same number of iterations the robot and the machine are in the same state, the last solutions are equal. -/
theorem C116_quadprog_same (hp : LoopParameters p N T) (hq : MPCParameters.make N T T T = .ok q)
    (hg : o.terminal = true → o.terminalGain ≠ 0) (ho : OneMinimum o) (hr : RegularSetup o) (hext : TrustedQuadProg ext)
    (h0 : PlainStart p q o s0) (v : Hotstart) {ext' : Qpoases ℝ} (hext' : TrustedSolver ext') (hc : CompleteSolver ext') {s0' : Program}
    (h0' : ProgramStart p q o s0') (hm : s0'.model = s0.model) (hf : SaneFeet s0.model.params) (hb : FeetBelowInfinity s0.model.params)
    (h : PlainAfter (quadprogSolver ext) nan T w s0 n s) :
    (∃ s', RunAfter v ext' nan T w s0' n s') ∧ ∀ s', RunAfter v ext' nan T w s0' n s' →
      s'.model = s.model ∧ s'.fsm = s.fsm ∧ (0 < n → s'.solution.x = s.solution.x) := by
  obtain ⟨a, ha, e1, e2, e3⟩ := plain_same hp hq hg ho (quadprog_answers hg hr hext) h0 v hext' hc h0' hm hf hb h
  refine ⟨⟨a, ha⟩, fun s' hs' => ?_⟩
  obtain ⟨h1, h2⟩ := C106_same v v hp hq hg ho hext' hext' h0' h0' rfl (by rw [hm]; exact hf) (by rw [hm]; exact hb) ha hs'
  exact ⟨h1.model.trans e1, h1.machine.trans e2, fun hn => (h2 hn).trans (e3 hn)⟩

/-- **C116.** Soles of the feet do not overlap in walks with QuadProg++. -/
theorem C116_quadprog_apart (hp : LoopParameters p N T) (hq : MPCParameters.make N T T T = .ok q)
    (hg : o.terminal = true → o.terminalGain ≠ 0) (ho : OneMinimum o) (hr : RegularSetup o) (hext : TrustedQuadProg ext)
    (h0 : PlainStart p q o s0) (hst : Stands s0.model) (hf : SaneFeet s0.model.params) (hb : FeetBelowInfinity s0.model.params)
    (hpar : ParallelFeet s0.model) (hd : s0.model.params.footWidth < s0.model.params.feetDistDefault)
    (hw : ∀ i < n, RoomForTurn s0.model.params (w i).theta_increment) (h : PlainAfter (quadprogSolver ext) nan T w s0 n s)
    (hs : OnBothFeet s.model.state) : SolesApart s.model.params s.model.state.feet := by
  obtain ⟨ext', h1, h2⟩ := exists_solver
  obtain ⟨s0', h0', hm⟩ := beginning nan h0
  obtain ⟨⟨s', hs'⟩, hsame⟩ := C116_quadprog_same hp hq hg ho hr hext h0 ⟨false, false⟩ h1 h2 h0' hm hf hb h
  obtain ⟨e1, -, -⟩ := hsame s' hs'
  rw [← hm] at hst hf hpar hd hw
  rw [← e1] at hs ⊢
  exact C114_apart hp hq hg h1 h0' hst hf hpar hd hw hs' hs

/-- **C116.** Also the balance is kept as with qpOASES, if the turn of the steps does not change: after each iteration the centre of pressure
is in the support polygon. -/
theorem C116_quadprog_balanced (hp : LoopParameters p N T) (hq : MPCParameters.make N T T T = .ok q)
    (hg : o.terminal = true → o.terminalGain ≠ 0) (ho : OneMinimum o) (hr : RegularSetup o) (hext : TrustedQuadProg ext)
    (h0 : PlainStart p q o s0) (hst : Stands s0.model) (hf : SaneFeet s0.model.params) (hb : FeetBelowInfinity s0.model.params)
    (hpar : ParallelFeet s0.model) {δ : ℝ} (hw : ∀ i, (w i).theta_increment = δ) (hn : n ≠ 0)
    (h : PlainAfter (quadprogSolver ext) nan T w s0 n s) : BalancedIn s.model s.model.getCState := by
  obtain ⟨ext', h1, h2⟩ := exists_solver
  obtain ⟨s0', h0', hm⟩ := beginning nan h0
  obtain ⟨⟨s', hs'⟩, hsame⟩ := C116_quadprog_same hp hq hg ho hr hext h0 ⟨false, false⟩ h1 h2 h0' hm hf hb h
  obtain ⟨e1, -, -⟩ := hsame s' hs'
  rw [← hm] at hst hf hpar
  rw [← e1]
  exact C112_state hp hq hg h1 h0' hst hf hpar (steady_of hw) hs' hn

end

/-! ## qpmad -/

section
variable {p : FSMParams} {N T : ℕ} {q : MPCParameters} {o : ProblemSetup} {nan : ℝ} {n : ℕ}
  {ext : QpmadArgs ℝ → QpmadStatus × List ℝ} {s0 s : PlainProgram (QPObjective ℝ × QPConstraintsILUALU ℝ)} {w : ℕ → WalkParameters}

/-- **C116.** With qpmad, without guesses: an iteration leaves the loop when the rest of the walk does not cover the horizon; otherwise
the robot makes the best of the allowed motions, or there is an exception, and either no motion below the library infinity is allowed or qpmad has reported a
failure on a problem with the allowed motions and with their costs. There is no other outcome: no undefined behaviour, no other exception. -/
theorem C116_qpmad (hp : LoopParameters p N T) (hq : MPCParameters.make N T T T = .ok q) (hg : o.terminal = true → o.terminalGain ≠ 0)
    (hr : RegularSetup o) (hext : TrustedQpmad ext) (h0 : PlainStart p q o s0) (h : PlainAfter (qpmadSolver ext) nan T w s0 n s)
    (u : Memory) (w' : WalkParameters) :
    (walkMs p < n * T + N * T → PlainReturns (qpmadSolver ext) nan T u w' s (.ok none)) ∧
    (n * T + N * T ≤ walkMs p →
      (∃ s' mpc st, PlainReturns (qpmadSolver ext) nan T u w' s (.ok (some s')) ∧ GoodPlain o nan T u w' s mpc st s') ∨
      (PlainReturns (qpmadSolver ext) nan T u w' s (.error .thrown) ∧
        ∃ mpc, UpdateReturns nan u.horizon u.matrices u.indices s.model s.fsm w' s.mpc (.ok (mpc, .ok)) ∧
          ((∀ x, ModerateSolution mpc.horizon x → ¬ AllowedMotion o mpc.horizon s.model x) ∨ QpmadFails ext o mpc.horizon s.model))) := by
  have hB := qpmad_answers hg hr hext
  obtain ⟨⟨side, k, hI⟩, -⟩ := plain_after hp hq hB h0 h
  obtain ⟨P1, P2⟩ := plain_step (nan := nan) hp hq hB hI u w'
  refine ⟨P1, fun hn => ?_⟩
  rcases P2 hn with ⟨s', mpc, st, -, h1, h2, -⟩ | h1
  · exact .inl ⟨s', mpc, st, h1, h2⟩
  · exact .inr h1

/-- **C116.** If qpmad solves all problems which have a solution, then there is an exception only if there is no allowed motion. -/
theorem C116_qpmad_thrown (hp : LoopParameters p N T) (hq : MPCParameters.make N T T T = .ok q)
    (hg : o.terminal = true → o.terminalGain ≠ 0) (hr : RegularSetup o) (hext : TrustedQpmad ext) (hc : CompleteQpmad ext)
    (h0 : PlainStart p q o s0) (hf : SaneFeet s0.model.params) (hb : FeetBelowInfinity s0.model.params)
    (h : PlainAfter (qpmadSolver ext) nan T w s0 n s) {u : Memory} {w' : WalkParameters}
    (he : PlainReturns (qpmadSolver ext) nan T u w' s (.error .thrown)) :
    ∃ mpc, UpdateReturns nan u.horizon u.matrices u.indices s.model s.fsm w' s.mpc (.ok (mpc, .ok)) ∧
      ∀ x, ¬ AllowedMotion o mpc.horizon s.model x := by
  obtain ⟨P1, P2⟩ := C116_qpmad hp hq hg hr hext h0 h u w'
  obtain ⟨⟨side, k, hI⟩, hL⟩ := plain_after hp hq (qpmad_answers hg hr hext) h0 h
  have hpar : s.model.params = s0.model.params := loop_params hL
  by_cases hn : n * T + N * T ≤ walkMs p
  · rcases P2 hn with ⟨s', mpc, st, h1, -⟩ | ⟨-, mpc, hu, hF⟩
    · cases plain_unique he h1
    · refine ⟨mpc, hu, fun x hx => ?_⟩
      obtain ⟨⟨y, hy⟩, hcost⟩ := best_exists hp hq hg hI hn (by rw [hpar]; exact hf) (by rw [hpar]; exact hb) hu hx
      have hmod : ∀ x, AllowedMotion o mpc.horizon s.model x → ModerateSolution mpc.horizon x := fun x hx =>
        allowed_moderate hp hq hI.loop hu (by rw [show (plainLoop s).model.params = s0.model.params from hpar]; exact hf)
          (by rw [show (plainLoop s).model.params = s0.model.params from hpar]; exact hb) hx
      rcases hF with hF | hF
      · exact hF x (hmod x hx) hx
      · exact qpmad_fails hc hy (hmod y hy.allowed) hcost hF
  · cases plain_unique he (P1 (by omega))

/-- **C116.** Without the terminal constraint such a program makes all iterations. -/
theorem C116_qpmad_completes (hp : LoopParameters p N T) (hq : MPCParameters.make N T T T = .ok q) (ht : o.terminal = false)
    (hr : RegularSetup o) (hext : TrustedQpmad ext) (hc : CompleteQpmad ext)
    (h0 : PlainStart p q o s0) (hf : SaneFeet s0.model.params) (hb : FeetBelowInfinity s0.model.params) (u : ℕ → Memory) :
    ∀ n ≤ iterations p N T, ∃ s, PlainAfter (qpmadSolver ext) nan T w s0 n s := by
  have hg : o.terminal = true → o.terminalGain ≠ 0 := fun e => by rw [ht] at e; cases e
  intro n
  induction n with
  | zero => exact fun _ => ⟨s0, .start⟩
  | succ n ih =>
    intro hn
    obtain ⟨s, h⟩ := ih (by omega)
    obtain ⟨⟨side, k, hI⟩, hL⟩ := plain_after hp hq (qpmad_answers hg hr hext) h0 h
    have hpar : s.model.params = s0.model.params := loop_params hL
    have hn' : n * T + N * T ≤ walkMs p := (iterations_lt (p := p) (N := N) hp.sampling n).1 (by omega)
    rcases (C116_qpmad hp hq hg hr hext h0 h (u n) (w n)).2 hn' with ⟨s', mpc, st, h1, -⟩ | ⟨h1, -⟩
    · exact ⟨s', .step h h1⟩
    · obtain ⟨mpc, hu, hno⟩ := C116_qpmad_thrown hp hq hg hr hext hc h0 hf hb h h1
      obtain ⟨x, -, hx⟩ := allowed_exists hp hq hI.loop hu (by rw [show (plainLoop s).model.params = s0.model.params from hpar]; exact hf) ht
      exact absurd hx (hno x)

/-- **C116.** With qpmad the robot walks as with qpOASES, whatever is in memory and whatever guesses are given to qpOASES: after
the same number of iterations the robot and the machine are in the same state, the last solutions are equal. -/
theorem C116_qpmad_same (hp : LoopParameters p N T) (hq : MPCParameters.make N T T T = .ok q)
    (hg : o.terminal = true → o.terminalGain ≠ 0) (ho : OneMinimum o) (hr : RegularSetup o) (hext : TrustedQpmad ext)
    (h0 : PlainStart p q o s0) (v : Hotstart) {ext' : Qpoases ℝ} (hext' : TrustedSolver ext') (hc : CompleteSolver ext') {s0' : Program}
    (h0' : ProgramStart p q o s0') (hm : s0'.model = s0.model) (hf : SaneFeet s0.model.params) (hb : FeetBelowInfinity s0.model.params)
    (h : PlainAfter (qpmadSolver ext) nan T w s0 n s) :
    (∃ s', RunAfter v ext' nan T w s0' n s') ∧ ∀ s', RunAfter v ext' nan T w s0' n s' →
      s'.model = s.model ∧ s'.fsm = s.fsm ∧ (0 < n → s'.solution.x = s.solution.x) := by
  obtain ⟨a, ha, e1, e2, e3⟩ := plain_same hp hq hg ho (qpmad_answers hg hr hext) h0 v hext' hc h0' hm hf hb h
  refine ⟨⟨a, ha⟩, fun s' hs' => ?_⟩
  obtain ⟨h1, h2⟩ := C106_same v v hp hq hg ho hext' hext' h0' h0' rfl (by rw [hm]; exact hf) (by rw [hm]; exact hb) ha hs'
  exact ⟨h1.model.trans e1, h1.machine.trans e2, fun hn => (h2 hn).trans (e3 hn)⟩

/-- **C116.** Soles of the feet do not overlap in walks with qpmad. -/
theorem C116_qpmad_apart (hp : LoopParameters p N T) (hq : MPCParameters.make N T T T = .ok q)
    (hg : o.terminal = true → o.terminalGain ≠ 0) (ho : OneMinimum o) (hr : RegularSetup o) (hext : TrustedQpmad ext)
    (h0 : PlainStart p q o s0) (hst : Stands s0.model) (hf : SaneFeet s0.model.params) (hb : FeetBelowInfinity s0.model.params)
    (hpar : ParallelFeet s0.model) (hd : s0.model.params.footWidth < s0.model.params.feetDistDefault)
    (hw : ∀ i < n, RoomForTurn s0.model.params (w i).theta_increment) (h : PlainAfter (qpmadSolver ext) nan T w s0 n s)
    (hs : OnBothFeet s.model.state) : SolesApart s.model.params s.model.state.feet := by
  obtain ⟨ext', h1, h2⟩ := exists_solver
  obtain ⟨s0', h0', hm⟩ := beginning nan h0
  obtain ⟨⟨s', hs'⟩, hsame⟩ := C116_qpmad_same hp hq hg ho hr hext h0 ⟨false, false⟩ h1 h2 h0' hm hf hb h
  obtain ⟨e1, -, -⟩ := hsame s' hs'
  rw [← hm] at hst hf hpar hd hw
  rw [← e1] at hs ⊢
  exact C114_apart hp hq hg h1 h0' hst hf hpar hd hw hs' hs

/-- **C116.** Also the balance is kept as with qpOASES, if the turn of the steps does not change: after each iteration the centre of pressure
is in the support polygon. -/
theorem C116_qpmad_balanced (hp : LoopParameters p N T) (hq : MPCParameters.make N T T T = .ok q)
    (hg : o.terminal = true → o.terminalGain ≠ 0) (ho : OneMinimum o) (hr : RegularSetup o) (hext : TrustedQpmad ext)
    (h0 : PlainStart p q o s0) (hst : Stands s0.model) (hf : SaneFeet s0.model.params) (hb : FeetBelowInfinity s0.model.params)
    (hpar : ParallelFeet s0.model) {δ : ℝ} (hw : ∀ i, (w i).theta_increment = δ) (hn : n ≠ 0)
    (h : PlainAfter (qpmadSolver ext) nan T w s0 n s) : BalancedIn s.model s.model.getCState := by
  obtain ⟨ext', h1, h2⟩ := exists_solver
  obtain ⟨s0', h0', hm⟩ := beginning nan h0
  obtain ⟨⟨s', hs'⟩, hsame⟩ := C116_qpmad_same hp hq hg ho hr hext h0 ⟨false, false⟩ h1 h2 h0' hm hf hb h
  obtain ⟨e1, -, -⟩ := hsame s' hs'
  rw [← hm] at hst hf hpar
  rw [← e1]
  exact C112_state hp hq hg h1 h0' hst hf hpar (steady_of hw) hs' hn

end

/-! ### The hypotheses are met -/

open Classical in
theorem exists_real_quadprog : ∃ ext : QuadProgArgs ℝ → QuadProgStatus × List ℝ, TrustedQuadProg ext ∧ CompleteQuadProg ext := by
  let Good := fun (a : QuadProgArgs ℝ) (l : List ℝ) => QuadProgSizes a l.length ∧ QuadProgFeasible a (Spec.entries l) ∧
    ∀ y, QuadProgFeasible a y → quadratic a.G (Spec.entries l) / 2 + linear a.g0 (Spec.entries l) ≤ quadratic a.G y / 2 + linear a.g0 y
  refine ⟨fun a => if h : ∃ l, Good a l then (.ok, choose h) else (.failure, []), ?_, ?_⟩
  · intro a nv hsz _ hok
    simp only at hok ⊢
    by_cases h : ∃ l, Good a l
    · simp only [dif_pos h]
      obtain ⟨h1, h2, h3⟩ := choose_spec h
      exact ⟨h1.grows.symm.trans hsz.grows, h2, h3⟩
    · rw [dif_neg h] at hok
      cases hok
  · intro a nv x h1 h2 h3
    have hx : ∀ v, v < nv → Spec.entries ((List.range nv).map x) v = x v := Humoto.Bridge.entries_map nv x
    have hl : ((List.range nv).map x).length = nv := by simp
    have hfe : QuadProgFeasible a (Spec.entries ((List.range nv).map x)) := by
      refine ⟨fun k hk => ?_, fun k hk => ?_⟩
      · rw [← h2.1 k hk]
        exact congrArg (· + _) (Finset.sum_congr rfl fun j hj => by rw [hx j (by rw [← h1.ce]; simpa using hj)])
      · refine (h2.2 k hk).trans_eq (congrArg (· + _) (Finset.sum_congr rfl fun j hj => by rw [hx j (by rw [← h1.ci]; simpa using hj)]))
    have hobj : quadratic a.G (Spec.entries ((List.range nv).map x)) / 2 + linear a.g0 (Spec.entries ((List.range nv).map x)) =
        quadratic a.G x / 2 + linear a.g0 x := by
      unfold quadratic linear
      rw [h1.grows, h1.gcols, h1.g0]
      exact qp_congr nv _ _ hx
    show (if h : ∃ l, Good a l then (QuadProgStatus.ok, choose h) else (.failure, [])).1 = .ok
    rw [dif_pos ⟨(List.range nv).map x, by rw [hl]; exact h1, hfe, fun y hy => by rw [hobj]; exact h3 y hy⟩]

open Classical in
theorem exists_real_qpmad : ∃ ext : QpmadArgs ℝ → QpmadStatus × List ℝ, TrustedQpmad ext ∧ CompleteQpmad ext := by
  let Good := fun (a : QpmadArgs ℝ) (l : List ℝ) => QpmadSizes a l.length ∧ QpmadFeasible a (Spec.entries l) ∧
    ∀ y, QpmadFeasible a y → lowerQuadratic a.H (Spec.entries l) / 2 + linear a.h (Spec.entries l) ≤ lowerQuadratic a.H y / 2 + linear a.h y
  refine ⟨fun a => if h : ∃ l, Good a l then (.ok, choose h) else (.other, []), ?_, ?_⟩
  · intro a nv hsz _ hok
    simp only at hok ⊢
    by_cases h : ∃ l, Good a l
    · simp only [dif_pos h]
      obtain ⟨h1, h2, h3⟩ := choose_spec h
      exact ⟨h1.hrows.symm.trans hsz.hrows, h2, h3⟩
    · rw [dif_neg h] at hok
      cases hok
  · intro a nv x h1 h2 h3
    have hx : ∀ v, v < nv → Spec.entries ((List.range nv).map x) v = x v := Humoto.Bridge.entries_map nv x
    have hl : ((List.range nv).map x).length = nv := by simp
    have hlb : a.lb.n ≤ nv := by rcases h1.lb with e | e <;> omega
    have hub : a.ub.n ≤ nv := by rw [h1.ub]; exact hlb
    have hfe : QpmadFeasible a (Spec.entries ((List.range nv).map x)) := by
      refine ⟨fun v hv => ?_, fun v hv => ?_, fun k hk => ?_⟩
      · rw [hx v (by omega)]; exact h2.1 v hv
      · rw [hx v (by omega)]; exact h2.2.1 v hv
      · rw [show ∑ j ∈ Finset.range a.A.cols, a.A.e k j * Spec.entries ((List.range nv).map x) j = ∑ j ∈ Finset.range a.A.cols, a.A.e k j * x j
          from Finset.sum_congr rfl fun j hj => by rw [hx j (by rw [← h1.cols]; simpa using hj)]]
        exact h2.2.2 k hk
    have hobj : lowerQuadratic a.H (Spec.entries ((List.range nv).map x)) / 2 + linear a.h (Spec.entries ((List.range nv).map x)) =
        lowerQuadratic a.H x / 2 + linear a.h x := by
      unfold lowerQuadratic linear
      rw [h1.hrows, h1.hcols, h1.h]
      exact qp_congr nv _ _ hx
    show (if h : ∃ l, Good a l then (QpmadStatus.ok, choose h) else (.other, [])).1 = .ok
    rw [dif_pos ⟨(List.range nv).map x, by rw [hl]; exact h1, hfe, fun y hy => by rw [hobj]; exact h3 y hy⟩]

/-- The default walk of 74 iterations with QuadProg++, with turns up to a half: all hypotheses are met. -/
example (nan : ℝ) (u : ℕ → Memory) (w : WalkParameters) (hw : |w.theta_increment| ≤ 1 / 2) (fixed : Bool) :
    ∃ ext q s0 s, TrustedQuadProg ext ∧ CompleteQuadProg ext ∧ MPCParameters.make 16 100 100 100 = .ok q ∧
    PlainStart FSMParams.default q (defaultSetup fixed false) s0 ∧ RegularSetup (defaultSetup fixed false) ∧
    OneMinimum (defaultSetup fixed false) ∧ Stands s0.model ∧ SaneFeet s0.model.params ∧ FeetBelowInfinity s0.model.params ∧
    ParallelFeet s0.model ∧ s0.model.params.footWidth < s0.model.params.feetDistDefault ∧
    RoomForTurn s0.model.params w.theta_increment ∧ PlainAfter (quadprogSolver ext) nan 100 (fun _ => w) s0 74 s := by
  obtain ⟨ext, h1, h2⟩ := exists_real_quadprog
  obtain ⟨q, hq⟩ : ∃ q, MPCParameters.make 16 100 100 100 = .ok q := ⟨_, rfl⟩
  obtain ⟨d, h0, hm⟩ := program_of (m := pushed nan 0) (p := FSMParams.default) (q := q) rfl one_pos rfl rfl (defaultSetup fixed false)
  have hr : RegularSetup (defaultSetup fixed false) := by constructor <;> norm_num [defaultSetup]
  let s0 : PlainProgram (QPObjective ℝ × QPConstraintsABAL ℝ) := ⟨d.model, d.fsm, d.mpc, d.problem, ⟨SolverParameters.default,
    ⟨⟨Mat.const 0 0 0, Vec.const 0 0, .undefined⟩, ⟨⟨0, Mat.const 0 0 0, Vec.const 0 0⟩, ⟨0, Mat.const 0 0 0, Vec.const 0 0⟩⟩⟩⟩, d.solution⟩
  have hs0 : PlainStart FSMParams.default q (defaultSetup fixed false) s0 := ⟨h0.loop, h0.problem, rfl⟩
  have hm' : s0.model = pushed nan 0 := hm
  obtain ⟨s, e⟩ := C116_quadprog_completes (nan := nan) (w := fun _ => w) default_loop hq rfl hr h1 h2 hs0 (by rw [hm']; exact feet20_sane)
    (by rw [hm']; exact feet20_below) u 74 (by rfl)
  exact ⟨ext, q, s0, s, h1, h2, hq, hs0, hr, default_one_minimum fixed false, by rw [hm']; exact pushed_stands nan 0,
    by rw [hm']; exact feet20_sane, by rw [hm']; exact feet20_below, by rw [hm']; exact (pushed_balanced nan 0).1,
    by rw [hm']; norm_num [pushed, feet20], by rw [hm']; exact feet20_room hw, e⟩

/-- The default walk of 74 iterations with qpmad, with turns up to a half: all hypotheses are met. -/
example (nan : ℝ) (u : ℕ → Memory) (w : WalkParameters) (hw : |w.theta_increment| ≤ 1 / 2) (fixed : Bool) :
    ∃ ext q s0 s, TrustedQpmad ext ∧ CompleteQpmad ext ∧ MPCParameters.make 16 100 100 100 = .ok q ∧
    PlainStart FSMParams.default q (defaultSetup fixed false) s0 ∧ RegularSetup (defaultSetup fixed false) ∧
    OneMinimum (defaultSetup fixed false) ∧ Stands s0.model ∧ SaneFeet s0.model.params ∧ FeetBelowInfinity s0.model.params ∧
    ParallelFeet s0.model ∧ s0.model.params.footWidth < s0.model.params.feetDistDefault ∧
    RoomForTurn s0.model.params w.theta_increment ∧ PlainAfter (qpmadSolver ext) nan 100 (fun _ => w) s0 74 s := by
  obtain ⟨ext, h1, h2⟩ := exists_real_qpmad
  obtain ⟨q, hq⟩ : ∃ q, MPCParameters.make 16 100 100 100 = .ok q := ⟨_, rfl⟩
  obtain ⟨d, h0, hm⟩ := program_of (m := pushed nan 0) (p := FSMParams.default) (q := q) rfl one_pos rfl rfl (defaultSetup fixed false)
  have hr : RegularSetup (defaultSetup fixed false) := by constructor <;> norm_num [defaultSetup]
  let s0 : PlainProgram (QPObjective ℝ × QPConstraintsILUALU ℝ) := ⟨d.model, d.fsm, d.mpc, d.problem, ⟨SolverParameters.default,
    ⟨⟨Mat.const 0 0 0, Vec.const 0 0, .undefined⟩, ⟨⟨0, Mat.const 0 0 0, Vec.const 0 0, Vec.const 0 0⟩, ⟨0, ⟨0, fun _ => 0⟩, Vec.const 0 0, Vec.const 0 0⟩, Vec.const 0 0,
      Vec.const 0 0⟩⟩⟩, d.solution⟩
  have hs0 : PlainStart FSMParams.default q (defaultSetup fixed false) s0 := ⟨h0.loop, h0.problem, rfl⟩
  have hm' : s0.model = pushed nan 0 := hm
  obtain ⟨s, e⟩ := C116_qpmad_completes (nan := nan) (w := fun _ => w) default_loop hq rfl hr h1 h2 hs0 (by rw [hm']; exact feet20_sane)
    (by rw [hm']; exact feet20_below) u 74 (by rfl)
  exact ⟨ext, q, s0, s, h1, h2, hq, hs0, hr, default_one_minimum fixed false, by rw [hm']; exact pushed_stands nan 0,
    by rw [hm']; exact feet20_sane, by rw [hm']; exact feet20_below, by rw [hm']; exact (pushed_balanced nan 0).1,
    by rw [hm']; norm_num [pushed, feet20], by rw [hm']; exact feet20_room hw, e⟩

end Humoto.Wpg
