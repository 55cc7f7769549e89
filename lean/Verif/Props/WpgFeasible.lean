import Verif.Spec.WpgFeasible
import Verif.Lemmas.WpgFeasible4

/-!
# C111: after an iteration the walk can be continued, unless a new support enters the horizon
-/

namespace Humoto.Wpg

open Spec Spec.Wpg PointMass6z Bridge

section
variable {v : Hotstart} {p : FSMParams} {N T : ℕ} {q : MPCParameters} {o : ProblemSetup} {nan : ℝ} {ext : Qpoases ℝ} {n : ℕ}
  {s0 s s' : Program} {u : Memory}

theorem good_of (hp : LoopParameters p N T) (hq : MPCParameters.make N T T T = .ok q) (hg : o.terminal = true → o.terminalGain ≠ 0)
    (hext : TrustedSolver ext) (h0 : ProgramStart p q o s0) {w : ℕ → WalkParameters} (h : RunAfter v ext nan T w s0 n s) {w' : WalkParameters}
    (hs : StepReturns v ext nan T u w' s (.ok (some s'))) : n * T + N * T ≤ walkMs p ∧ ∃ mpc st, GoodIteration o nan T u w' s mpc st s' := by
  obtain ⟨P1, P2⟩ := C106_iteration v hp hq hg hext h0 h u w'
  by_cases hn : n * T + N * T ≤ walkMs p
  · rcases P2 hn with ⟨s1, mpc, st, hr, hG⟩ | ⟨hr, -⟩
    · cases step_unique hs hr
      exact ⟨hn, mpc, st, hG⟩
    · cases step_unique hs hr
  · cases step_unique hs (P1 (by omega))

/-- What is known after any number of iterations. -/
theorem turn_after (hp : LoopParameters p N T) (hq : MPCParameters.make N T T T = .ok q) (hg : o.terminal = true → o.terminalGain ≠ 0)
    (hext : TrustedSolver ext) (h0 : ProgramStart p q o s0) {w : ℕ → WalkParameters} {c : ℝ} (hw : ∀ i, (w i).theta_increment = c)
    (h : RunAfter v ext nan T w s0 n s) : ∃ side k, LoopInv p N T q n (loopOf s) side k ∧ TurnInv p side c k s.model := by
  induction h with
  | start =>
    obtain ⟨side, hI⟩ := hot_start (v := v) (nan := nan) hp h0
    exact ⟨side, 0, hI.loop, nofun, nofun, nofun, nofun⟩
  | @step n s s' u hR hs ih =>
    obtain ⟨side, k, hI, -⟩ := ih
    obtain ⟨hn, mpc, st, hG⟩ := good_of hp hq hg hext h0 hR hs
    obtain ⟨P, cop, X, k', hit⟩ := iteration_of hp hq hI hG.update hG.solution hG.completes
    obtain ⟨l, hP⟩ := planned_of hp hq hI hn hG.update
    have := hit.turned hp hP
    rw [hw] at this
    exact ⟨side, k', hit.after, this⟩

/-- After an iteration a motion is allowed again. -/
theorem allowed_again (hp : LoopParameters p N T) (hq : MPCParameters.make N T T T = .ok q) (hg : o.terminal = true → o.terminalGain ≠ 0)
    (hext : TrustedSolver ext) (h0 : ProgramStart p q o s0) (hst : Stands s0.model) (hf : SaneFeet s0.model.params)
    (hb : FeetBelowInfinity s0.model.params) {w : ℕ → WalkParameters} {c : ℝ} (hw : ∀ i, (w i).theta_increment = c) (hn0 : 0 < n)
    (h : RunAfter v ext nan T w s0 n s) {w' : WalkParameters} (hw' : w'.theta_increment = c) (hn : n * T + N * T ≤ walkMs p)
    (ht : ¬ TransitionBegins p ((n + N - 1) * T)) {mpc : Mpc}
    (hu : UpdateReturns nan u.horizon u.matrices u.indices s.model s.fsm w' s.mpc (.ok (mpc, .ok))) :
    ∃ x, AllowedMotion o mpc.horizon s.model x ∧ ModerateSolution mpc.horizon x := by
  have hL' := (hot_after hp hq hg hext h0 h).2
  have hpar' : (loopOf s).model.params = s0.model.params := loop_params hL'
  cases h with
  | start => exact absurd hn0 (lt_irrefl _)
  | @step n a _ u1 hR hs =>
    obtain ⟨side, k, hI, hT⟩ := turn_after hp hq hg hext h0 hw hR
    obtain ⟨hn1, mpc1, st, hG⟩ := good_of hp hq hg hext h0 hR hs
    have hL := (hot_after hp hq hg hext h0 hR).2
    have hpar : (loopOf a).model.params = s0.model.params := loop_params hL
    have hf1 : SaneFeet (loopOf a).model.params := by rw [hpar]; exact hf
    obtain ⟨P, cop, X, k', hit⟩ := iteration_of hp hq hI hG.update hG.solution hG.completes
    obtain ⟨l, hP⟩ := planned_of hp hq hI hn1 hG.update
    have hI' := hit.after
    obtain ⟨l', hP'⟩ := planned_of hp hq hI' hn hu
    have hW := allowed_within hp hq hI hG.update hf1 hG.best.allowed
    have hsup := C80_support hp hq h0.loop hst hL hG.update hG.solution (C81_first hW) hG.completes hit.predicted
    have hno : N - 1 ∉ mpc.horizon.variable_steps := by
      intro hmem
      obtain ⟨j, hj⟩ := List.getElem?_of_mem hmem
      obtain ⟨g1, g2, g3, g4, g5⟩ := (hP'.steps j (N - 1)).1 hj
      refine ht ⟨g3, _, g4, ?_⟩
      rw [← g5]
      congr 1
      omega
    have hx := hit.continued hp hP hP' (by rw [hw', hw]) (by rw [hw]; exact hT) hsup hno hG.best.allowed
    exact ⟨_, hx, allowed_moderate hp hq hI' hu (by rw [hpar']; exact hf) (by rw [hpar']; exact hb) hx⟩

/-- **C111.** After any number of successful iterations the next one is successful too, unless a transition to a new support begins exactly
in the last interval of its horizon: the motion which was found before remains allowed, the robot continues it and then remains in
the last centre of pressure. The parameters of the walk may change between iterations, except for the turn of the feet in a step. -/
theorem C111_continues (hp : LoopParameters p N T) (hq : MPCParameters.make N T T T = .ok q) (hg : o.terminal = true → o.terminalGain ≠ 0)
    (hext : TrustedSolver ext) (hcomplete : CompleteSolver ext) (h0 : ProgramStart p q o s0) (hst : Stands s0.model)
    (hf : SaneFeet s0.model.params) (hb : FeetBelowInfinity s0.model.params) {w : ℕ → WalkParameters} {c : ℝ}
    (hw : ∀ i, (w i).theta_increment = c) (hn0 : 0 < n) (h : RunAfter v ext nan T w s0 n s) (hn : n * T + N * T ≤ walkMs p)
    (ht : ¬ TransitionBegins p ((n + N - 1) * T)) (u : Memory) {w' : WalkParameters} (hw' : w'.theta_increment = c) :
    ∃ s', StepReturns v ext nan T u w' s (.ok (some s')) := by
  rcases (C106_iteration v hp hq hg hext h0 h u w').2 hn with ⟨s', -, -, hr, -⟩ | ⟨-, mpc, hu, hno⟩
  · exact ⟨s', hr⟩
  · exfalso
    obtain ⟨x, hx, hx1⟩ := allowed_again hp hq hg hext h0 hst hf hb hw hn0 h hw' hn ht hu
    rcases hno with h5 | ⟨a, g, gs, hd, hs⟩
    · exact h5 _ hx1 hx
    · exact hs (hcomplete a g gs hd.accepted (hd.bounds trivial).1 (hd.bounds trivial).2 ⟨_, hd.complete _ hx hx1⟩)

/-- **C111.** A run which is stopped by an exception is stopped in its first iteration, or in an iteration in the last interval of whose
horizon a transition to a new support begins. -/
theorem C111_when (hp : LoopParameters p N T) (hq : MPCParameters.make N T T T = .ok q) (hg : o.terminal = true → o.terminalGain ≠ 0)
    (hext : TrustedSolver ext) (hcomplete : CompleteSolver ext) (h0 : ProgramStart p q o s0) (hst : Stands s0.model)
    (hf : SaneFeet s0.model.params) (hb : FeetBelowInfinity s0.model.params) {u : ℕ → Memory} {w : WalkParameters} {clock : ℕ → Fin 3 → ℝ}
    {e : Fault} (h : RunReturns v ext nan T u w clock s0 (.error e)) :
    ∃ n s, RunAfter v ext nan T (fun _ => w) s0 n s ∧ StepReturns v ext nan T (u n) w s (.error .thrown) ∧
      n < iterations p N T ∧ (n = 0 ∨ TransitionBegins p ((n + N - 1) * T)) := by
  obtain ⟨r, h1, h2, h3⟩ := C106_run (nan := nan) v hp hq hg hext h0 u w clock
  rw [← h2 _ h] at h3
  rcases h3 with ⟨s, h3, -⟩ | ⟨-, n, s, mpc, hR, hu, hno⟩
  · cases h3
  · have hun : ∀ {mpc' st}, UpdateReturns nan (u n).horizon (u n).matrices (u n).indices s.model s.fsm w s.mpc (.ok (mpc', st)) →
        mpc' = mpc ∧ st = .ok := by
      rintro mpc' st ⟨b, hb⟩
      obtain ⟨a, ha⟩ := hu
      have := (update_mono ha (le_max_left a b)).symm.trans (update_mono hb (le_max_right a b))
      cases this
      exact ⟨rfl, rfl⟩
    obtain ⟨⟨side, k, hh, hI⟩, hL⟩ := hot_after hp hq hg hext h0 hR
    have hpar : (loopOf s).model.params = s0.model.params := loop_params hL
    have hn : n * T + N * T ≤ walkMs p := by
      by_contra hn
      obtain ⟨-, U2⟩ := loop_update hp hq hI.loop nan (u n).horizon (u n).matrices (u n).indices w
      rw [hI.loop.over hp] at U2
      obtain ⟨mpc', hu'⟩ := U2 (by omega)
      cases (hun hu').2
    have hfail : ∀ x, ¬ (AllowedMotion o mpc.horizon s.model x ∧ ModerateSolution mpc.horizon x) := by
      rintro x ⟨hx, hx1⟩
      rcases hno with h5 | ⟨a, g, gs, hd, hs⟩
      · exact h5 _ hx1 hx
      · exact hs (hcomplete a g gs hd.accepted (hd.bounds trivial).1 (hd.bounds trivial).2 ⟨_, hd.complete _ hx hx1⟩)
    refine ⟨n, s, hR, ?_, (iterations_lt (p := p) (N := N) hp.sampling n).2 hn, ?_⟩
    · rcases (C106_iteration v hp hq hg hext h0 hR (u n) w).2 hn with ⟨s', mpc', st, -, hG⟩ | ⟨hr, -⟩
      · obtain ⟨rfl, -⟩ := hun hG.update
        exact (hfail _ ⟨hG.best.allowed, allowed_moderate hp hq hI.loop hu (by rw [hpar]; exact hf) (by rw [hpar]; exact hb) hG.best.allowed⟩).elim
      · exact hr
    · by_contra hc
      push Not at hc
      obtain ⟨x, hx⟩ := allowed_again hp hq hg hext h0 hst hf hb (w := fun _ => w) (fun _ => rfl) (Nat.pos_of_ne_zero hc.1) hR rfl hn hc.2 hu
      exact hfail x hx

/-- **C111.** Once the end of the horizon is behind the beginning of the last transition, after at least one iteration, the walk is completed:
all remaining iterations are made, whatever the parameters of the walk are, except for the turn of the feet in a step. -/
theorem C111_last (hp : LoopParameters p N T) (hq : MPCParameters.make N T T T = .ok q) (hg : o.terminal = true → o.terminalGain ≠ 0)
    (hext : TrustedSolver ext) (hcomplete : CompleteSolver ext) (h0 : ProgramStart p q o s0) (hst : Stands s0.model)
    (hf : SaneFeet s0.model.params) (hb : FeetBelowInfinity s0.model.params) {w : ℕ → WalkParameters} {c : ℝ}
    (hw : ∀ i, (w i).theta_increment = c) (hn0 : 0 < n) (h : RunAfter v ext nan T w s0 n s)
    (ht : p.firstMs + p.numSteps * (p.ssMs + p.tdsMs) < (n + N - 1) * T) {m : ℕ} (hnm : n ≤ m) (hm : m ≤ iterations p N T) :
    ∃ s', RunAfter v ext nan T w s0 m s' := by
  obtain ⟨u⟩ : Nonempty Memory := by
    cases h with
    | start => exact absurd hn0 (lt_irrefl _)
    | @step _ _ _ u _ _ => exact ⟨u⟩
  induction m, hnm using Nat.le_induction with
  | base => exact ⟨s, h⟩
  | succ m hnm ih =>
    obtain ⟨a, ha⟩ := ih (by omega)
    have hO := (iterations_lt (p := p) (N := N) hp.sampling m).1 (by omega)
    have hT : ¬ TransitionBegins p ((m + N - 1) * T) := by
      rintro ⟨-, j, hj, e⟩
      have h1 : (n + N - 1) * T ≤ (m + N - 1) * T := Nat.mul_le_mul_right T (by omega)
      have h2 : j * (p.ssMs + p.tdsMs) ≤ p.numSteps * (p.ssMs + p.tdsMs) := Nat.mul_le_mul_right _ hj
      omega
    obtain ⟨s', hs⟩ := C111_continues hp hq hg hext hcomplete h0 hst hf hb hw (by omega) ha hO hT u (hw m)
    exact ⟨s', .step ha hs⟩

end

/-! ### A support which enters the horizon too late -/

/-- The default walk with the first step onto the left foot and with such a first stance that the first transition begins where the first
horizon ends. -/
def starting : FSMParams := { FSMParams.default with firstMs := 1600, firstSsType := .lss }

theorem starting_loop : LoopParameters starting 16 100 :=
  ⟨fun _ h => absurd h (by decide), by decide, rfl, by decide, by decide, by decide, by decide⟩

/-- A robot which stands at rest above the outer edge of its right foot. -/
noncomputable def leaning (nan : ℝ) : Model :=
  ⟨feet20, ⟨⟨![0, -3 / 20, 1], 0, 0⟩, ⟨⟨![0, 1 / 10, 0], 0, 0, 0, fun _ => nan, fun _ => nan⟩,
    ⟨![0, -1 / 10, 0], 0, 0, 0, fun _ => nan, fun _ => nan⟩⟩, .ds, .undefined⟩, ![0, 0]⟩

theorem leaning_stands (nan : ℝ) : Stands (leaning nan) := by
  refine ⟨⟨nofun, nofun, fun _ => ⟨?_, ?_⟩⟩, fun _ => ⟨0, ?_, ⟨?_, ?_⟩, ?_, ?_⟩⟩ <;>
    norm_num [leaning, feet20, beside]

theorem leaning_state (nan : ℝ) : (leaning nan).getCState = ![0, 0, 0, -3 / 20, 0, 0] := by
  funext j
  fin_cases j <;> norm_num [Model.getCState, fromCoMState, leaning]

/-- At rest above the centre of pressure. -/
theorem rest_moves {h T : ℝ} (c0 c1 : ℝ) : Moves h T T ![c0, 0, 0, c1, 0, 0] ![c0, c1] ![c0, 0, 0, c1, 0, 0] := by
  refine ⟨fun k _ => ![c0, c1] k, fun _ _ => 0, fun _ _ => 0, fun k _ => ![c0, c1] k, fun k t => ⟨hasDerivAt_const _ _, hasDerivAt_const _ _⟩,
    fun k t => ?_, fun k t => ?_, rfl, rfl⟩
  · unfold IsZmp
    ring
  · ring

/-- A capturable state is above the centre of pressure, together with its capture point. -/
theorem capture_end {h : ℝ} (hh : 0 < h) {x : Fin 6 → ℝ} {a : Fin 2} {z : ℝ} (hc : IsCapturePointVelocity h x a 0) (hz : IsPressure h x a z) :
    positionOf x a + velocityOf x a / getOmega h = z := by
  obtain ⟨w, hw1, hw2, hw3⟩ := hc
  have hw : w = getOmega h := frequency_unique hh ⟨hw1, hw2⟩
  rw [← hw]
  have h3 : x (if a = 0 then 2 else 5) * h = gravity * (positionOf x a - z) := hz
  have h4 : x (if a = 0 then 2 else 5) = -(w * velocityOf x a) := by
    have h5 : 0 = velocityOf x a + x (if a = 0 then 2 else 5) / w := hw3
    field_simp at h5
    linarith
  rw [h4, ← hw2] at h3
  have h7 : (w * h) * (w * (positionOf x a - z) + velocityOf x a) = 0 := by linear_combination -h3
  have h8 := (mul_eq_zero.1 h7).resolve_left (by positivity)
  field_simp
  linarith

/-- If the capture point is on the border of what the centre of pressure can reach, then it remains there in all capturable motions. -/
theorem border {H : Horizon} {model : Model} {x : ℕ → ℝ} {P cop : ℕ → Fin 2 → ℝ} {X : ℕ → Fin 6 → ℝ} (hh : 0 < model.getCoMHeight)
    (hT : ∀ i < H.intervals.n, 0 < (H.intervals.e i).T) (hX : Prediction H model x P cop X) (a : Fin 2)
    (hcap : IsCapturePointVelocity model.getCoMHeight (X H.intervals.n) a 0) {z r : ℝ} (hz : IsPressure model.getCoMHeight (X 0) a z)
    (hzr : |z| ≤ r) (hcop : ∀ i < H.intervals.n, |cop i a| ≤ r)
    (h0 : positionOf (X 0) a + velocityOf (X 0) a / getOmega model.getCoMHeight = -r) :
    (∀ i ≤ H.intervals.n, positionOf (X i) a + velocityOf (X i) a / getOmega model.getCoMHeight = -r) ∧
    (0 < H.intervals.n → cop (H.intervals.n - 1) a = -r) ∧ (0 < H.intervals.n → IsPressure model.getCoMHeight (X 1) a (cop 0 a)) := by
  obtain ⟨hZ, hC⟩ := captured (b := 0) (r := r) hh hT hX a hcap hz (by rw [sub_zero]; exact hzr) (fun i hi => by rw [sub_zero]; exact hcop i hi)
  have hall : ∀ i ≤ H.intervals.n, positionOf (X i) a + velocityOf (X i) a / getOmega model.getCoMHeight = -r := by
    intro i
    induction i with
    | zero => exact fun _ => h0
    | succ i ih =>
      intro hi
      have ih := ih (by omega)
      obtain ⟨zi, h1, h2, -⟩ := hZ i (by omega)
      obtain ⟨-, l, m, m', hl0, hl1, -, hm, e, -⟩ := interval_axis hh (hT _ (by omega)) (hX.motion i (by omega)) a h1
      have hm' := hm.near h2 (by rw [sub_zero]; exact hcop i (by omega))
      have hn := hC (i + 1) hi
      rw [ih] at e
      rw [sub_zero, abs_le] at hm' hn
      nlinarith
  refine ⟨hall, fun hn => ?_, fun hn => ?_⟩
  · obtain ⟨zN, h1, -, h3⟩ := hZ _ le_rfl
    rw [← h3 hn, ← capture_end hh hcap h1]
    exact hall _ le_rfl
  · obtain ⟨z1, h1, -, h3⟩ := hZ 1 hn
    rw [h3 one_pos] at h1
    exact h1

/-- The first support of the walk. -/
theorem starting_first {side : StanceType} {n : ℕ} {m : Model} {w : WalkParameters} {H : Horizon} {l : List Stance}
    (hP : Planned starting 16 100 side n 0 m w H l) (hpar : m.params = feet20)
    (hfeet : m.state.feet.left.rpy 2 = 0 ∧ m.state.feet.right.rpy 2 = 0) {i : ℕ} (hi : i < 16) (hsi : stepsBy H i = 0) {a : WalkState}
    (ha : H.getWalkState i = .ok a) : a.theta = 0 ∧ a.stance.type = .ds ∧ a.cop_bounds = feet20.getADSCoPBounds := by
  have ha := (hP.state hi).1 ha
  rw [hsi] at ha
  have ha : H.walk_states[0]? = some a := ha
  have ht : a.stance.type = .ds := (hP.type ha).1
  obtain ⟨h1, -⟩ := hP.current a ha
  have h2 := h1.double ht
  rw [hfeet.1, hfeet.2] at h2
  refine ⟨by linarith, ht, ?_⟩
  rw [(hP.bounds 0 a ha (by rw [ht]; decide)).2, hpar]
  unfold copBounds
  rw [if_pos ht]

theorem starting_steps {side : StanceType} {n : ℕ} {m : Model} {w : WalkParameters} {H : Horizon} {l : List Stance}
    (hP : Planned starting 16 100 side n 0 m w H l) {j a : ℕ} (h : H.variable_steps[j]? = some a) : a < 16 ∧ n + a = 16 + 8 * j := by
  obtain ⟨-, h1, -, -, h2⟩ := (hP.steps j a).1 h
  refine ⟨h1, ?_⟩
  have h2 : (n + a) * 100 = 1600 + ((0 + 1) / 2 + j) * (700 + 100) := h2
  omega

theorem starting_none {side : StanceType} {n : ℕ} {m : Model} {w : WalkParameters} {H : Horizon} {l : List Stance}
    (hP : Planned starting 16 100 side n 0 m w H l) {i : ℕ} (hi : n + i < 16) : stepsBy H i = 0 := by
  unfold stepsBy
  rw [List.length_eq_zero_iff, List.filter_eq_nil_iff]
  intro a ha
  obtain ⟨j, hj⟩ := List.getElem?_of_mem ha
  have := starting_steps hP hj
  simp
  omega

/-- The centre of pressure in the first support. -/
theorem starting_cop {side : StanceType} {n : ℕ} {m : Model} {w : WalkParameters} {H : Horizon} {l : List Stance}
    (hP : Planned starting 16 100 side n 0 m w H l) (hpar : m.params = feet20)
    (hfeet : m.state.feet.left.rpy 2 = 0 ∧ m.state.feet.right.rpy 2 = 0) (hsup : m.current_support_position = ![0, 0]) {x : ℕ → ℝ}
    {P cop : ℕ → Fin 2 → ℝ} {X : ℕ → Fin 6 → ℝ} (hX : Prediction H m x P cop X) (hx : CopWithin H x) {i : ℕ} (hi : n + i < 16) :
    cop i 0 = x (2 * i) ∧ cop i 1 = x (2 * i + 1) ∧ |cop i 1| ≤ 3 / 20 := by
  have hi16 : i < 16 := by omega
  have hiN : i < H.intervals.n := by rw [hP.follows.size]; exact hi16
  have h0 := starting_none hP hi
  obtain ⟨a, ha⟩ := hP.exists_state hi16
  have ha := (hP.state hi16).2 ha
  obtain ⟨t1, -, t3⟩ := starting_first hP hpar hfeet hi16 h0 ha
  obtain ⟨g0, g1⟩ := hX.pressure i a hiN ha
  have hP0 : P (stepsBy H i) = ![0, 0] := by rw [h0, hX.footsteps.start]; exact hsup
  rw [hP0, t1, Real.cos_zero, Real.sin_zero] at g0 g1
  have g0 : cop i 0 - 0 = 1 * x (2 * i) - 0 * x (2 * i + 1) := g0
  have g1 : cop i 1 - 0 = 0 * x (2 * i) + 1 * x (2 * i + 1) := g1
  have hb := hx i a hiN ha 1
  rw [t3] at hb
  have hb : -(((1 : ℝ) / 10 + 1 / 5) / 2) ≤ x (2 * i + 1) ∧ x (2 * i + 1) ≤ ((1 : ℝ) / 10 + 1 / 5) / 2 := hb
  refine ⟨by linarith, by linarith, ?_⟩
  rw [abs_le]
  constructor <;> linarith [hb.1, hb.2]

/-- The robot may remain where it is in the first iteration. -/
theorem leaning_allowed (nan : ℝ) (fixed : Bool) {side : StanceType} {w : WalkParameters} {H : Horizon} {l : List Stance}
    (hP : Planned starting 16 100 side 0 0 (leaning nan) w H l) :
    AllowedMotion (defaultSetup fixed true) H (leaning nan) fun i => if i % 2 = 1 then -3 / 20 else 0 := by
  have hno : ∀ j k, H.variable_steps[j]? = some k → False := fun j k h => by
    have := starting_steps hP h
    omega
  have hcop : CopWithin H fun i => if i % 2 = 1 then -3 / 20 else 0 := by
    intro i s hi hs a
    rw [hP.follows.size] at hi
    obtain ⟨-, -, t3⟩ := starting_first hP rfl ⟨rfl, rfl⟩ hi (starting_none hP (by omega)) hs
    rw [t3]
    fin_cases a
    · show -((1 : ℝ) / 5 / 2) ≤ (if (2 * i + 0) % 2 = 1 then -3 / 20 else 0) ∧ (if (2 * i + 0) % 2 = 1 then -3 / 20 else 0) ≤ (1 : ℝ) / 5 / 2
      rw [if_neg (by omega)]
      norm_num
    · show -(((1 : ℝ) / 10 + 1 / 5) / 2) ≤ (if (2 * i + 1) % 2 = 1 then -3 / 20 else 0) ∧
        (if (2 * i + 1) % 2 = 1 then -3 / 20 else 0) ≤ ((1 : ℝ) / 10 + 1 / 5) / 2
      rw [if_pos (by omega)]
      norm_num
  refine ⟨?_, hcop, fun _ P cop X hX => ?_⟩
  · split
    · exact fun j k s h => (hno j k h).elim
    · exact fun j k s h => (hno j k h).elim
  · have hX0 : ∀ i ≤ H.intervals.n, X i = ![0, 0, 0, -3 / 20, 0, 0] := by
      intro i
      induction i with
      | zero => exact fun _ => hX.start.trans (leaning_state nan)
      | succ i ih =>
        intro hi
        have hi16 : i < 16 := by rw [← hP.follows.size]; omega
        have hm := hX.motion i (by omega)
        have hT : 0 < (H.intervals.e i).T := by
          have := hP.times i hi16
          push_cast at this
          linarith
        obtain ⟨c0, c1, -⟩ := starting_cop hP rfl ⟨rfl, rfl⟩ rfl hX hcop (by omega : 0 + i < 16)
        rw [if_neg (by omega)] at c0
        rw [if_pos (by omega)] at c1
        have hc : cop i = ![0, -3 / 20] := support_ext c0 c1
        rw [ih (by omega), hc] at hm
        rw [(moves_iff one_pos hT.ne' _ _ _ _).1 hm, ← (moves_iff one_pos hT.ne' _ _ _ _).1 (rest_moves 0 (-3 / 20))]
    intro a
    rw [hX0 _ le_rfl]
    refine ⟨getOmega 1, (omega_frequency one_pos).1, (omega_frequency one_pos).2, ?_⟩
    fin_cases a <;> simp

theorem leaning_lost (nan : ℝ) (fixed : Bool) {q : MPCParameters} (hq : MPCParameters.make 16 100 100 100 = .ok q) {s0 s : Program}
    (h0 : ProgramStart starting q (defaultSetup fixed true) s0) (hm : s0.model = leaning nan) {v : Hotstart} {ext : Qpoases ℝ}
    (hext : TrustedSolver ext) {w : ℕ → WalkParameters} (h : RunAfter v ext nan 100 w s0 1 s) {u : Memory} {w' : WalkParameters} {mpc : Mpc}
    (hu : UpdateReturns nan u.horizon u.matrices u.indices s.model s.fsm w' s.mpc (.ok (mpc, .ok))) (x : ℕ → ℝ) :
    ¬ AllowedMotion (defaultSetup fixed true) mpc.horizon s.model x := by
  intro hx
  have hg : (defaultSetup fixed true).terminal = true → (defaultSetup fixed true).terminalGain ≠ 0 := fun _ => by norm_num [defaultSetup]
  have hp := starting_loop
  have hL' := (hot_after hp hq hg hext h0 h).2
  have hpar' : s.model.params = feet20 := by
    have : s.model.params = s0.model.params := loop_params hL'
    rw [this, hm]; rfl
  obtain ⟨f, hf, hrem, hprev⟩ : ∃ f, FSM.construct starting = .ok f ∧ remaining f = 1600 ∧ f.cur.prevNonDs = .rss := ⟨_, rfl, rfl, rfl⟩
  have hfsm : s0.fsm = f := Except.ok.inj (h0.loop.machine.symm.trans hf)
  obtain _ | @⟨_, _, _, u1, hR, hs⟩ := h
  obtain ⟨⟩ | _ := hR
  obtain ⟨side, hI⟩ := hot_start (v := v) (nan := nan) hp h0
  have hI := hI.loop
  have hside : side = .rss := by
    have h1 := hI.machine.inv.prev (.inl (by decide)) (.inl rfl) (by decide)
    have h2 : (loopOf s0).fsm.cur.prevNonDs = .rss := by
      show s0.fsm.cur.prevNonDs = _
      rw [hfsm]; exact hprev
    exact h1.symm.trans h2
  subst hside
  obtain ⟨hn, mpc0, st, hG⟩ := good_of hp hq hg hext h0 (w := w) .start hs
  obtain ⟨P0, cop0, X0, k', hit⟩ := iteration_of hp hq hI hG.update hG.solution hG.completes
  obtain ⟨l0, hP0⟩ := planned_of hp hq hI hn hG.update
  have hk : k' = 0 ∧ s.fsm.cur.type = .ds := by
    rcases hit.cases with ⟨e, e', -⟩ | ⟨-, e, -⟩
    · refine ⟨e, ?_⟩
      have e' : s.fsm = { s0.fsm with tdsStarted := false, time := s0.fsm.time + 100 } := e'
      rw [e']
      exact hI.machine.inv.type
    · have e : remaining s0.fsm = 100 := e
      rw [hfsm, hrem] at e
      cases e
  obtain ⟨rfl, htype⟩ := hk
  have hI' := hit.after
  obtain ⟨l, hP⟩ := planned_of hp hq hI' (by decide) hu
  -- the first iteration
  have hP0 : Planned starting 16 100 .rss 0 0 s0.model (w 0) mpc0.horizon l0 := hP0
  have hX0 : Prediction mpc0.horizon s0.model (Spec.Wpg.entries s.solution) P0 cop0 X0 := hit.predicted
  have hh : s0.model.getCoMHeight = 1 := by rw [hm]; rfl
  have hh' : s.model.getCoMHeight = 1 := hit.stepped.height.trans hh
  have hN0 : mpc0.horizon.intervals.n = 16 := hP0.follows.size
  have hT0 : ∀ i < mpc0.horizon.intervals.n, 0 < (mpc0.horizon.intervals.e i).T := fun i hi => by
    have := hP0.times i (by omega)
    push_cast at this
    linarith
  have hcop0 : ∀ i < mpc0.horizon.intervals.n, |cop0 i 1| ≤ 3 / 20 := fun i hi =>
    (starting_cop hP0 (by rw [hm]; rfl) (by rw [hm]; exact ⟨rfl, rfl⟩) (by rw [hm]; rfl) hX0 hG.best.allowed.cop (by omega)).2.2
  have hstate : X0 0 = ![0, 0, 0, -3 / 20, 0, 0] := by rw [hX0.start, hm, leaning_state]
  have hz0 : IsPressure s0.model.getCoMHeight (X0 0) 1 (-3 / 20) := by
    rw [hstate]
    show (0 : ℝ) * _ = gravity * (-3 / 20 - -3 / 20)
    ring
  obtain ⟨b1, -, b3⟩ := border (r := 3 / 20) (by rw [hh]; exact one_pos) hT0 hX0 1 (hG.best.allowed.terminal rfl P0 cop0 X0 hX0 1) hz0
    (by norm_num [abs_le]) hcop0 (by rw [hstate]; show (-3 / 20 : ℝ) + 0 / _ = _; norm_num)
  have hX1 : X0 1 = s.model.getCState := hit.stepped.state.symm
  have c1 := b1 1 (by omega)
  have z1 := b3 (by omega)
  rw [hX1] at c1 z1
  -- the second iteration
  have hP : Planned starting 16 100 .rss 1 0 s.model w' mpc.horizon l := hP
  have hfeet : s.model.state.feet.left.rpy 2 = 0 ∧ s.model.state.feet.right.rpy 2 = 0 := by
    obtain ⟨e1, e2⟩ := hit.feet.2.2 htype
    have e1 : s.model.state.feet.left = s0.model.state.feet.left := e1
    have e2 : s.model.state.feet.right = s0.model.state.feet.right := e2
    rw [e1, e2, hm]
    exact ⟨rfl, rfl⟩
  have hsup : s.model.current_support_position = ![0, 0] := by
    have hW := allowed_within hp hq hI hG.update (by show SaneFeet s0.model.params; rw [hm]; exact feet20_sane) hG.best.allowed
    have e := C80_support hp hq h0.loop (by rw [show (loopOf s0).model = leaning nan from hm]; exact leaning_stands nan) .start hG.update
      hG.solution (C81_first hW) hG.completes hit.predicted
    have e : s.model.current_support_position = if s.fsm.cur.type = .tds then P0 1 else P0 0 := e
    rw [e, htype, if_neg (by decide), hX0.footsteps.start, hm]
    rfl
  have hR := updated_ready (loop_updated hp hq hI' hu).1
  obtain ⟨P, cop, X, hX, -⟩ := C75_motion hR.consistent x
  have hX : Prediction mpc.horizon s.model x P cop X := hX
  have hN : mpc.horizon.intervals.n = 16 := hP.follows.size
  have hT : ∀ i < mpc.horizon.intervals.n, 0 < (mpc.horizon.intervals.e i).T := fun i hi => by
    have := hP.times i (by omega)
    push_cast at this
    linarith
  -- the new support
  have hstep : mpc.horizon.variable_steps[0]? = some 15 :=
    (hP.steps 0 15).2 ⟨by norm_num, by norm_num, by simp [NoSteps, starting, FSMParams.default], by decide, rfl⟩
  have hby : stepsBy mpc.horizon 15 = 1 := by
    have h1 : mpc.horizon.variable_steps.length = 1 := by
      have a1 := (List.getElem?_eq_some_iff.1 hstep).1
      by_contra hne
      have a2 : 1 < mpc.horizon.variable_steps.length := by omega
      have := starting_steps hP (List.getElem?_eq_getElem a2)
      omega
    unfold stepsBy
    rw [← h1, List.filter_eq_self.2]
    intro a ha
    obtain ⟨j, hj⟩ := List.getElem?_of_mem ha
    have := starting_steps hP hj
    simp
    omega
  obtain ⟨a, ha⟩ := hP.exists_state (i := 15) (by norm_num)
  have hga := (hP.state (by norm_num)).2 ha
  rw [hby] at ha
  have ha : mpc.horizon.walk_states[2]? = some a := ha
  have hat : a.stance.type = .lss := (hP.type ha).1
  obtain ⟨bf, bc⟩ := hP.bounds 2 a ha (by rw [hat]; decide)
  have hsub : a.stance.subtype ≠ .first := by rw [(hP.shows' 2 _ (hP.stance ha)).2.1]; decide
  have hprev2 : a.stance.prevNonTds = .ds := by rw [(hP.shows' 2 _ (hP.stance ha)).2.2]; decide
  have hfd : a.fd_bounds = feet20.leftFoot.footPositionFixedDs := by
    unfold footBounds at bf
    rw [if_neg hsub, hat] at bf
    simp only [hprev2] at bf
    rw [hpar'] at bf
    exact (Except.ok.inj bf).symm
  have hcb : a.cop_bounds = feet20.getSSCoPBounds := by
    rw [bc, hpar']
    unfold copBounds
    rw [if_neg (by rw [hat]; decide)]
  obtain ⟨b, hb⟩ := hP.exists_state (i := 14) (by norm_num)
  have hgb := (hP.state (by norm_num)).2 hb
  obtain ⟨tb, tbt, -⟩ := starting_first hP hpar' hfeet (by norm_num) (starting_none hP (by norm_num)) hgb
  rw [starting_none hP (by norm_num)] at hb
  have hb : mpc.horizon.walk_states[0]? = some b := hb
  have hta : a.theta = 0 := by
    obtain ⟨t, ht⟩ : ∃ t, mpc.horizon.walk_states[1]? = some t := by
      have := (List.getElem?_eq_some_iff.1 ha).1
      exact ⟨_, List.getElem?_eq_getElem (by omega)⟩
    rw [((hP.turns 0 b t a hb ht ha (by rw [tbt]; decide)).doubleToLeft tbt hat).1]
    exact hfeet.1
  have hW := allowed_within hp hq hI' hu (by show SaneFeet s.model.params; rw [hpar']; exact feet20_sane) hx
  have hstepy : P 1 1 = 1 / 10 := by
    have e := (hX.footsteps.step 0 15 b hstep hgb).2
    rw [tb, Real.cos_zero, Real.sin_zero, hX.footsteps.start, hsup] at e
    have e : P 1 1 - 0 = 0 * x (2 * mpc.horizon.intervals.n + 2 * 0) + 1 * x (2 * mpc.horizon.intervals.n + (2 * 0 + 1)) := e
    have hw := hW 0 15 a hstep hga 1
    rw [hfd] at hw
    have hw : (1 : ℝ) / 5 / 2 ≤ x (2 * mpc.horizon.intervals.n + 2 * 0 + 1) ∧ x (2 * mpc.horizon.intervals.n + 2 * 0 + 1) ≤ (1 : ℝ) / 5 / 2 := hw
    rw [show 2 * mpc.horizon.intervals.n + (2 * 0 + 1) = 2 * mpc.horizon.intervals.n + 2 * 0 + 1 by ring] at e
    linarith [hw.1, hw.2]
  have hlast : 1 / 20 ≤ cop 15 1 ∧ cop 15 1 ≤ 3 / 20 := by
    have e := (hX.pressure 15 a (by omega) hga).2
    rw [hby, hta, Real.cos_zero, Real.sin_zero] at e
    have e : cop 15 1 - P 1 1 = 0 * x (2 * 15) + 1 * x (2 * 15 + 1) := e
    have hw := hx.cop 15 a (by omega) hga 1
    rw [hcb] at hw
    have hw : -((1 : ℝ) / 10 / 2) ≤ x (2 * 15 + 1) ∧ x (2 * 15 + 1) ≤ (1 : ℝ) / 10 / 2 := hw
    rw [hstepy] at e
    constructor <;> linarith [hw.1, hw.2]
  have hcop : ∀ i < mpc.horizon.intervals.n, |cop i 1| ≤ 3 / 20 := by
    intro i hi
    by_cases h15 : i = 15
    · rw [h15, abs_le]
      constructor <;> linarith [hlast.1, hlast.2]
    · exact (starting_cop hP hpar' hfeet hsup hX hx.cop (by omega)).2.2
  rw [← hX.start] at c1 z1
  rw [hh] at c1 z1
  obtain ⟨-, d2, -⟩ := border (r := 3 / 20) (by rw [hh']; exact one_pos) hT hX 1 (hx.terminal rfl P cop X hX 1) (by rw [hh']; exact z1)
    (hcop0 0 (by omega)) hcop (by rw [hh']; exact c1)
  have d2 := d2 (by omega)
  rw [hN] at d2
  have d2 : cop 15 1 = -(3 / 20) := d2
  linarith [hlast.1]

/-- **C111** does not hold without the condition on transitions, although the program could know the whole walk: a robot which stands at
rest above the outer edge of its right foot is going to step onto the left one. In the first iteration the left support is not in the horizon
yet, and the motion found is capturable; in the second iteration it is, and no motion is allowed any more. -/
theorem C111_lost_refuted (nan : ℝ) (v : Hotstart) (fixed : Bool) {ext : Qpoases ℝ} (hext : TrustedSolver ext) (hcomplete : CompleteSolver ext)
    {q : MPCParameters} (hq : MPCParameters.make 16 100 100 100 = .ok q) :
    ∃ s0, ProgramStart starting q (defaultSetup fixed true) s0 ∧ Stands s0.model ∧ SaneFeet s0.model.params ∧
      FeetBelowInfinity s0.model.params ∧ (∀ u w, ∃ s, StepReturns v ext nan 100 u w s0 (.ok (some s))) ∧
      ∀ (w : ℕ → WalkParameters) s, RunAfter v ext nan 100 w s0 1 s → ∀ u w', StepReturns v ext nan 100 u w' s (.error .thrown) := by
  have hg : (defaultSetup fixed true).terminal = true → (defaultSetup fixed true).terminalGain ≠ 0 := fun _ => by norm_num [defaultSetup]
  obtain ⟨f, hf, hft⟩ : ∃ f, FSM.construct starting = .ok f ∧ f.cur.type = .ds := ⟨_, rfl, rfl⟩
  obtain ⟨s0, h0, hm⟩ := program_of (m := leaning nan) (p := starting) (q := q) rfl one_pos hf hft (defaultSetup fixed true)
  refine ⟨s0, h0, by rw [hm]; exact leaning_stands nan, by rw [hm]; exact feet20_sane, by rw [hm]; exact feet20_below, fun u w => ?_,
    fun w s h u w' => ?_⟩
  · rcases (C106_iteration (nan := nan) v starting_loop hq hg hext h0 (w := fun _ => w) .start u w).2 (by decide) with
      ⟨s', mpc, st, hr, -⟩ | ⟨-, mpc, hu, hno⟩
    · exact ⟨s', hr⟩
    · exfalso
      obtain ⟨side, hI⟩ := hot_start (v := v) (nan := nan) starting_loop h0
      obtain ⟨l, hP⟩ := planned_of starting_loop hq hI.loop (by decide) hu
      have hP : Planned starting 16 100 side 0 0 s0.model w mpc.horizon l := hP
      rw [hm] at hP
      have hx := leaning_allowed nan fixed hP
      have hx1 : ModerateSolution mpc.horizon fun i => if i % 2 = 1 then -3 / 20 else 0 := fun _ _ => by
        constructor <;> dsimp only <;> split <;> norm_num
      rw [hm] at hno
      rcases hno with h5 | ⟨a, g, gs, hd, hs⟩
      · exact h5 _ hx1 hx
      · exact hs (hcomplete a g gs hd.accepted (hd.bounds trivial).1 (hd.bounds trivial).2 ⟨_, hd.complete _ hx hx1⟩)
  · rcases (C106_iteration (nan := nan) v starting_loop hq hg hext h0 h u w').2 (by decide) with ⟨s', mpc, st, hr, hG⟩ | ⟨hr, -⟩
    · exact (leaning_lost nan fixed hq h0 hm hext h hG.update _ hG.best.allowed).elim
    · exact hr

/-! ### The hypotheses are met -/

/-- A robot which waits makes its first iteration and 13 more, before the first transition enters the horizon. -/
theorem waiting_continues (nan : ℝ) (w : WalkParameters) (fixed : Bool) (v : Hotstart) {ext : Qpoases ℝ} (h1 : TrustedSolver ext)
    (h2 : CompleteSolver ext) {q : MPCParameters} (hq : MPCParameters.make 16 100 100 100 = .ok q) (u : Memory) :
    ∃ s0, ProgramStart waiting q (defaultSetup fixed true) s0 ∧ Stands s0.model ∧ SaneFeet s0.model.params ∧
    FeetBelowInfinity s0.model.params ∧ ∀ n ≤ 14, ∃ s, RunAfter v ext nan 100 (fun _ => w) s0 n s := by
  obtain ⟨f, hf, hft⟩ : ∃ f, FSM.construct waiting = .ok f ∧ f.cur.type = .ds := ⟨_, rfl, rfl⟩
  obtain ⟨s0, h0, hm⟩ := program_of (m := pushed nan 0) (p := waiting) (q := q) rfl one_pos hf hft (defaultSetup fixed true)
  have hfsm : s0.fsm = f := Except.ok.inj (h0.loop.machine.symm.trans hf)
  have hmpc : s0.mpc = Mpc.make q := h0.loop.controller
  have hg : (defaultSetup fixed true).terminal = true → (defaultSetup fixed true).terminalGain ≠ 0 := fun _ => by norm_num [defaultSetup]
  have hst : Stands s0.model := by rw [hm]; exact pushed_stands nan 0
  have hsane : SaneFeet s0.model.params := by rw [hm]; exact feet20_sane
  have hbelow : FeetBelowInfinity s0.model.params := by rw [hm]; exact feet20_below
  refine ⟨s0, h0, hst, hsane, hbelow, fun n hn => ?_⟩
  induction n with
  | zero => exact ⟨s0, .start⟩
  | succ n ih =>
    obtain ⟨s, hs⟩ := ih (by omega)
    by_cases hz : n = 0
    · subst hz
      obtain ⟨⟩ | _ := hs
      rcases (C106_iteration (nan := nan) v waiting_loop hq hg h1 h0 (w := fun _ => w) .start u w).2 (by decide) with
        ⟨s', mpc, st, hr, -⟩ | ⟨-, mpc, hu, hno⟩
      · exact ⟨s', .step .start hr⟩
      · exfalso
        rw [hm, hfsm, hmpc] at hu
        have hx := waiting_allowed nan fixed hq hf hu
        have hx1 : ModerateSolution mpc.horizon fun _ => 0 := fun _ _ => ⟨by norm_num, by norm_num⟩
        rw [hm] at hno
        rcases hno with h5 | ⟨a, g, gs, hd, hs⟩
        · exact h5 _ hx1 hx
        · exact hs (h2 a g gs hd.accepted (hd.bounds trivial).1 (hd.bounds trivial).2 ⟨_, hd.complete _ hx hx1⟩)
    · obtain ⟨s', hs'⟩ := C111_continues waiting_loop hq hg h1 h2 h0 hst hsane hbelow (fun _ => rfl) (by omega) hs
        ((show n * 100 + 16 * 100 ≤ 3100 by omega).trans (by decide)) (by
          rintro ⟨-, j, hj, e⟩
          have e : (n + 16 - 1) * 100 = 2900 + j * 800 := e
          omega) u (w' := w) rfl
      exact ⟨s', .step hs hs'⟩

/-- The hypotheses of `C111_continues` are met. -/
example (nan : ℝ) (w : WalkParameters) (fixed : Bool) (v : Hotstart) (u : Memory) : ∃ ext q s0 s, TrustedSolver ext ∧ CompleteSolver ext ∧
    MPCParameters.make 16 100 100 100 = .ok q ∧ ProgramStart waiting q (defaultSetup fixed true) s0 ∧ Stands s0.model ∧
    SaneFeet s0.model.params ∧ FeetBelowInfinity s0.model.params ∧ RunAfter v ext nan 100 (fun _ => w) s0 13 s ∧
    13 * 100 + 16 * 100 ≤ walkMs waiting ∧ ¬ TransitionBegins waiting ((13 + 16 - 1) * 100) := by
  obtain ⟨ext, h1, h2⟩ := exists_solver
  obtain ⟨q, hq⟩ : ∃ q, MPCParameters.make 16 100 100 100 = .ok q := ⟨_, rfl⟩
  obtain ⟨s0, h0, hst, hf, hb, hr⟩ := waiting_continues nan w fixed v h1 h2 hq u
  obtain ⟨s, hs⟩ := hr 13 (by norm_num)
  refine ⟨ext, q, s0, s, h1, h2, hq, h0, hst, hf, hb, hs, by decide, ?_⟩
  rintro ⟨-, j, hj, e⟩
  have e : (13 + 16 - 1) * 100 = 2900 + j * 800 := e
  omega

/-- The iterations of the default walk, 73 after the first one, in which a transition enters the horizon. -/
example : (List.range 74).filter (fun n => 0 < n ∧ ∃ j ≤ FSMParams.default.numSteps, (n + 16 - 1) * 100 = FSMParams.default.firstMs +
    j * (FSMParams.default.ssMs + FSMParams.default.tdsMs)) = [4, 12, 20, 28, 36, 44] := by
  decide

/-- The hypotheses of `C111_when` are met: the walk of `C111_lost_refuted` is stopped, in its second iteration. -/
example (nan : ℝ) (u : ℕ → Memory) (w : WalkParameters) (clock : ℕ → Fin 3 → ℝ) (fixed : Bool) (v : Hotstart) : ∃ ext q s0, TrustedSolver ext ∧
    CompleteSolver ext ∧ MPCParameters.make 16 100 100 100 = .ok q ∧ ProgramStart starting q (defaultSetup fixed true) s0 ∧ Stands s0.model ∧
    SaneFeet s0.model.params ∧ FeetBelowInfinity s0.model.params ∧ RunReturns v ext nan 100 u w clock s0 (.error .thrown) := by
  obtain ⟨ext, h1, h2⟩ := exists_solver
  obtain ⟨q, hq⟩ : ∃ q, MPCParameters.make 16 100 100 100 = .ok q := ⟨_, rfl⟩
  obtain ⟨s0, h0, hst, hf, hb, hs, hno⟩ := C111_lost_refuted nan v fixed h1 h2 hq
  obtain ⟨s, hs⟩ := hs (u 0) w
  exact ⟨ext, q, s0, h1, h2, hq, h0, hst, hf, hb,
    runAs_next hs (runAs_error (hno (fun _ => w) s (.step (w := fun _ => w) .start hs) (u 1) w))⟩

/-- The condition of `C111_last` is met by the default walk after 45 of its 74 iterations. -/
example : FSMParams.default.firstMs + FSMParams.default.numSteps * (FSMParams.default.ssMs + FSMParams.default.tdsMs) < (45 + 16 - 1) * 100 ∧
    45 ≤ iterations FSMParams.default 16 100 := by decide

end Humoto.Wpg
