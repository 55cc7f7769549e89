import Verif.Lemmas.WpgStability2

/-!
# C110: with the terminal constraint the robot does not fall, however long the walk is
-/

namespace Humoto.Wpg

open Spec Spec.Wpg PointMass6z Bridge

section
variable {v : Hotstart} {p : FSMParams} {N T : ℕ} {q : MPCParameters} {o : ProblemSetup} {nan : ℝ} {ext : Qpoases ℝ} {n : ℕ}
  {s0 s s' : Program} {u : Memory}

theorem capturePoint_iff {h : ℝ} (hh : 0 < h) {x : Fin 6 → ℝ} {a : Fin 2} {ξ : ℝ} :
    IsCapturePoint h x a ξ ↔ ξ = positionOf x a + velocityOf x a / getOmega h := by
  constructor
  · rintro ⟨w, hw, rfl⟩
    rw [frequency_unique hh hw]
  · rintro rfl
    exact ⟨_, omega_frequency hh, rfl⟩

/-- What is known about an iteration. -/
structure Kept (p : FSMParams) (N T : ℕ) (o : ProblemSetup) (s s' : Program) (P cop : ℕ → Fin 2 → ℝ) (X : ℕ → Fin 6 → ℝ) (H : Horizon) : Prop where
  predicted : ∃ x, Prediction H s.model x P cop X ∧ (o.terminal = true → Capturable H s.model x)
  size : 0 < H.intervals.n
  times : ∀ i < H.intervals.n, 0 < (H.intervals.e i).T
  height : 0 < s.model.getCoMHeight
  height' : s'.model.getCoMHeight = s.model.getCoMHeight
  state : X 0 = s.model.getCState
  state' : X 1 = s'.model.getCState
  params : s'.model.params = s.model.params
  near : ∀ a, ∀ i < H.intervals.n, |cop i a - s.model.current_support_position a| ≤ farthest s.model.params (maxSteps p N T)
  first : ∀ a, |cop 0 a - s.model.current_support_position a| ≤ sole s.model.params
  moved : ∀ a, |s'.model.current_support_position a - s.model.current_support_position a| ≤ reach s.model.params

theorem kept (hp : LoopParameters p N T) (hq : MPCParameters.make N T T T = .ok q) (hg : o.terminal = true → o.terminalGain ≠ 0)
    (hext : TrustedSolver ext) (h0 : ProgramStart p q o s0) (hst : Stands s0.model) (hf : SaneFeet s0.model.params) {w : ℕ → WalkParameters}
    (h : RunAfter v ext nan T w s0 n s) {w' : WalkParameters} (hs : StepReturns v ext nan T u w' s (.ok (some s'))) :
    s.model.params = s0.model.params ∧ ∃ P cop X H, Kept p N T o s s' P cop X H := by
  obtain ⟨⟨side, k, hh, hI⟩, hL⟩ := hot_after hp hq hg hext h0 h
  have hpar : s.model.params = s0.model.params := loop_params hL
  have hf' : SaneFeet (loopOf s).model.params := by
    show SaneFeet s.model.params
    rw [hpar]; exact hf
  refine ⟨hpar, ?_⟩
  obtain ⟨P1, P2⟩ := hot_step hp hq hg hext hI u w'
  obtain ⟨mpc, st, hG⟩ : ∃ mpc st, GoodIteration o nan T u w' s mpc st s' := by
    by_cases hn : n * T + N * T ≤ walkMs p
    · rcases P2 hn with ⟨s1, mpc, st, k', hr, hG, -⟩ | ⟨hr, -⟩
      · cases step_unique hs hr
        exact ⟨mpc, st, hG⟩
      · cases step_unique hs hr
    · cases step_unique hs (P1 (by omega))
  obtain ⟨P, cop, X, k', hit⟩ := iteration_of hp hq hI.loop hG.update hG.solution hG.completes
  have hR := updated_ready (loop_updated hp hq hI.loop hG.update).1
  have hX := hit.predicted
  have hW := allowed_within hp hq hI.loop hG.update hf' hG.best.allowed
  have hsup := C80_support hp hq h0.loop hst hL hG.update hG.solution (C81_first hW) hG.completes hX
  obtain ⟨d1, d2⟩ := plan_near hp hq hI.loop hG.update hf' hG.best.allowed hX
  have hstart : P 0 = s.model.current_support_position := hX.footsteps.start
  refine ⟨P, cop, X, mpc.horizon, ⟨_, hX, hG.best.allowed.terminal⟩, hR.consistent.size.2, fun i hi => (hR.consistent.times i hi).1,
    hR.consistent.height, hit.stepped.height, hX.start, hit.stepped.state.symm, ?_, fun a => ?_, fun a => ?_, fun a => ?_⟩
  · have hL' : LoopAfter nan T (loopOf s0) (n + 1) (loopOf s') := .step hL ⟨_, _, _, _, _, _, _, _, hG.update, hG.solution, hG.completes⟩
    exact (loop_params hL').trans hpar.symm
  · exact pressure_near hp hq hI.loop hG.update hf' hG.best.allowed hX a
  · have h1 := d2 0 hR.consistent.size.2 a
    rw [stepsBy_zero fun k hk => (hR.steps k hk).1, hstart] at h1
    exact h1
  · have hsup' : s'.model.current_support_position = if s'.fsm.cur.type = .tds then P 1 else P 0 := hsup
    rw [hsup', ← hstart]
    split
    · rename_i ht
      obtain ⟨x, y, hB⟩ := hit.begins hp ht
      have hlen : 0 < mpc.horizon.variable_steps.length := by
        obtain ⟨k, hk, -⟩ := hB.first
        exact (List.getElem?_eq_some_iff.1 hk).1
      exact d1 0 hlen a
    · rw [sub_self, abs_zero]
      exact reach_nonneg hf'

theorem pressure_exists {h : ℝ} (x : Fin 6 → ℝ) (a : Fin 2) : ∃ z, IsPressure h x a z := by
  have hg : (gravity : ℝ) ≠ 0 := gravity_pos.ne'
  refine ⟨positionOf x a - x (if a = 0 then 2 else 5) * h / gravity, ?_⟩
  unfold IsPressure IsZmp
  field_simp
  ring

theorem pressure_unique {h : ℝ} {x : Fin 6 → ℝ} {a : Fin 2} {z z' : ℝ} (hz : IsPressure h x a z) (hz' : IsPressure h x a z') : z = z' := by
  unfold IsPressure IsZmp at hz hz'
  have hg : (gravity : ℝ) ≠ 0 := gravity_pos.ne'
  have := mul_left_cancel₀ hg (hz.symm.trans hz')
  linarith

/-- **C110.** With the terminal constraint, whenever an iteration finds a motion, the capture point of the robot, before the iteration and
after it, is not farther from the support than the centre of pressure is now or can be by the end of the horizon: half of the feet and one
longest step for each step of the horizon. -/
theorem C110_capture (hp : LoopParameters p N T) (hq : MPCParameters.make N T T T = .ok q) (ht : o.terminal = true)
    (hg : o.terminalGain ≠ 0) (hext : TrustedSolver ext) (h0 : ProgramStart p q o s0) (hst : Stands s0.model) (hf : SaneFeet s0.model.params)
    {w : ℕ → WalkParameters} (h : RunAfter v ext nan T w s0 n s) {w' : WalkParameters}
    (hs : StepReturns v ext nan T u w' s (.ok (some s'))) (a : Fin 2) {z : ℝ} (hz : IsPressure s.model.getCoMHeight s.model.getCState a z) :
    ∀ ξ, IsCapturePoint s.model.getCoMHeight s.model.getCState a ξ ∨ IsCapturePoint s'.model.getCoMHeight s'.model.getCState a ξ →
      |ξ - s.model.current_support_position a| ≤
        max |z - s.model.current_support_position a| (farthest s0.model.params (maxSteps p N T)) := by
  obtain ⟨hpar, P, cop, X, H, hK⟩ := kept hp hq (fun _ => hg) hext h0 hst hf h hs
  obtain ⟨x, hX, hc⟩ := hK.predicted
  have hz0 : IsPressure s.model.getCoMHeight (X 0) a z := by rw [hK.state]; exact hz
  have hall := (captured hK.height hK.times hX a (hc ht P cop X hX a) hz0 (le_max_left _ _)
    (fun i hi => (hK.near a i hi).trans (by rw [hpar]; exact le_max_right _ _))).2
  rintro ξ (hξ | hξ)
  · rw [(capturePoint_iff hK.height).1 hξ, ← hK.state]
    exact hall 0 (Nat.zero_le _)
  · rw [hK.height'] at hξ
    rw [(capturePoint_iff hK.height).1 hξ, ← hK.state']
    exact hall 1 hK.size

/-- **C110.** With the terminal constraint a robot which cannot be saved is reported: if the capture point is farther than that, then the
iteration ends with an exception. -/
theorem C110_reports (hp : LoopParameters p N T) (hq : MPCParameters.make N T T T = .ok q) (ht : o.terminal = true)
    (hg : o.terminalGain ≠ 0) (hext : TrustedSolver ext) (h0 : ProgramStart p q o s0) (hst : Stands s0.model) (hf : SaneFeet s0.model.params)
    {w : ℕ → WalkParameters} (h : RunAfter v ext nan T w s0 n s) (hn : n * T + N * T ≤ walkMs p) (a : Fin 2) {z ξ : ℝ}
    (hz : IsPressure s.model.getCoMHeight s.model.getCState a z) (hξ : IsCapturePoint s.model.getCoMHeight s.model.getCState a ξ)
    (hfar : max |z - s.model.current_support_position a| (farthest s0.model.params (maxSteps p N T)) <
      |ξ - s.model.current_support_position a|) (u : Memory) (w' : WalkParameters) :
    StepReturns v ext nan T u w' s (.error .thrown) := by
  rcases (C106_iteration v hp hq (fun _ => hg) hext h0 h u w').2 hn with ⟨s', mpc, st, hr, -⟩ | ⟨hr, -⟩
  · exact absurd (C110_capture hp hq ht hg hext h0 hst hf h hr a hz ξ (.inl hξ)) (not_le.2 hfar)
  · exact hr

/-- **C110.** In any iteration, with the terminal constraint or without it: a capture point which is farther from the support than the
centre of pressure is now or can be in this support goes still farther away from this support. -/
theorem C110_falls (hp : LoopParameters p N T) (hq : MPCParameters.make N T T T = .ok q)
    (hg : o.terminal = true → o.terminalGain ≠ 0) (hext : TrustedSolver ext) (h0 : ProgramStart p q o s0) (hst : Stands s0.model)
    (hf : SaneFeet s0.model.params) {w : ℕ → WalkParameters} (h : RunAfter v ext nan T w s0 n s) {w' : WalkParameters}
    (hs : StepReturns v ext nan T u w' s (.ok (some s'))) (a : Fin 2) {z ξ ξ' : ℝ}
    (hz : IsPressure s.model.getCoMHeight s.model.getCState a z) (hξ : IsCapturePoint s.model.getCoMHeight s.model.getCState a ξ)
    (hξ' : IsCapturePoint s'.model.getCoMHeight s'.model.getCState a ξ')
    (hfar : max |z - s.model.current_support_position a| (sole s0.model.params) < |ξ - s.model.current_support_position a|) :
    |ξ - s.model.current_support_position a| < |ξ' - s.model.current_support_position a| := by
  obtain ⟨hpar, P, cop, X, H, hK⟩ := kept hp hq hg hext h0 hst hf h hs
  obtain ⟨x, hX, -⟩ := hK.predicted
  have hz0 : IsPressure s.model.getCoMHeight (X 0) a z := by rw [hK.state]; exact hz
  obtain ⟨-, l, m, m', hl0, hl1, -, hm, e, -⟩ := interval_axis hK.height (hK.times 0 hK.size) (hX.motion 0 hK.size) a hz0
  rw [hK.height'] at hξ'
  have e1 := (capturePoint_iff hK.height).1 hξ
  have e2 := (capturePoint_iff hK.height).1 hξ'
  rw [← hK.state] at e1
  rw [← hK.state'] at e2
  rw [zero_add, ← e1, ← e2] at e
  have hm' := hm.near (le_max_left |z - s.model.current_support_position a| (sole s0.model.params))
    ((hK.first a).trans (by rw [hpar]; exact le_max_right _ _))
  generalize max |z - s.model.current_support_position a| (sole s0.model.params) = r at *
  generalize s.model.current_support_position a = b at *
  have h1 : |ξ - b| ≤ l * |ξ' - b| + (1 - l) * |m' - b| := by
    have : ξ - b = l * (ξ' - b) + (1 - l) * (m' - b) := by rw [e]; ring
    rw [this]
    refine (abs_add_le _ _).trans ?_
    rw [abs_mul, abs_mul, abs_of_pos hl0, abs_of_pos (by linarith : 0 < 1 - l)]
  by_contra hle
  push Not at hle
  nlinarith

/-- **C110.** With the terminal constraint, the distance of the centre of mass from the support and its velocity are bounded by numbers which
do not depend on the length of the walk: `B` is a distance which the centre of pressure does not exceed at the beginning and in a horizon,
`w` is the natural frequency. -/
theorem C110_bounded (hp : LoopParameters p N T) (hq : MPCParameters.make N T T T = .ok q) (ht : o.terminal = true)
    (hg : o.terminalGain ≠ 0) (hext : TrustedSolver ext) (h0 : ProgramStart p q o s0) (hst : Stands s0.model) (hf : SaneFeet s0.model.params)
    {wp : ℕ → WalkParameters} (h : RunAfter v ext nan T wp s0 n s) (a : Fin 2) {w z B : ℝ} (hw : IsFrequency s0.model.getCoMHeight w)
    (hz : IsPressure s0.model.getCoMHeight s0.model.getCState a z) (hB : |z - s0.model.current_support_position a| ≤ B)
    (hB' : farthest s0.model.params (maxSteps p N T) ≤ B) :
    |velocityOf s.model.getCState a| ≤ max |velocityOf s0.model.getCState a| (2 * B * w) ∧
    (0 < n → |positionOf s.model.getCState a - s.model.current_support_position a| ≤
      B + reach s0.model.params + max (|velocityOf s0.model.getCState a| / w) (2 * B)) := by
  have hw0 := hw.1
  have hh0 : 0 < s0.model.getCoMHeight := h0.loop.height
  have hww := frequency_unique hh0 hw
  have hr := reach_nonneg hf
  have hsole : sole s0.model.params + reach s0.model.params ≤ B := by
    refine le_trans ?_ hB'
    unfold farthest maxSteps
    push_cast
    have : 0 ≤ ((N * T / (p.tdsMs + p.ssMs) : ℕ) : ℝ) * reach s0.model.params := mul_nonneg (Nat.cast_nonneg _) hr
    linarith
  suffices hinv : s.model.getCoMHeight = s0.model.getCoMHeight ∧
      (∀ z, IsPressure s.model.getCoMHeight s.model.getCState a z → |z - s.model.current_support_position a| ≤ B) ∧
      |velocityOf s.model.getCState a / w| ≤ max |velocityOf s0.model.getCState a / w| (2 * B) ∧
      (0 < n → |positionOf s.model.getCState a + velocityOf s.model.getCState a / w - s.model.current_support_position a| ≤
        B + reach s0.model.params) by
    obtain ⟨-, -, hv, hc⟩ := hinv
    constructor
    · rw [abs_div, abs_div, abs_of_pos hw0] at hv
      have : |velocityOf s.model.getCState a| = |velocityOf s.model.getCState a| / w * w := by field_simp
      rw [this]
      refine (mul_le_mul_of_nonneg_right hv hw0.le).trans (le_of_eq ?_)
      rw [max_mul_of_nonneg _ _ hw0.le]
      congr 1
      field_simp
    · intro hn
      have h1 := hc hn
      have e : positionOf s.model.getCState a - s.model.current_support_position a =
        (positionOf s.model.getCState a + velocityOf s.model.getCState a / w - s.model.current_support_position a) +
          -(velocityOf s.model.getCState a / w) := by ring
      rw [e]
      refine (abs_add_le _ _).trans ?_
      rw [abs_neg]
      have : |velocityOf s0.model.getCState a| / w = |velocityOf s0.model.getCState a / w| := by rw [abs_div, abs_of_pos hw0]
      rw [this]
      linarith
  induction h with
  | start =>
    refine ⟨rfl, fun z' hz' => ?_, le_max_left _ _, fun hn => absurd hn (lt_irrefl 0)⟩
    rw [pressure_unique hz' hz]
    exact hB
  | @step n s s' u hR hs ih =>
    obtain ⟨ih1, ih2, ih3, -⟩ := ih
    obtain ⟨hpar, P, cop, X, H, hK⟩ := kept hp hq (fun _ => hg) hext h0 hst hf hR hs
    obtain ⟨x, hX, hc⟩ := hK.predicted
    obtain ⟨z0, hz0⟩ := pressure_exists (h := s.model.getCoMHeight) s.model.getCState a
    have hzB := ih2 z0 hz0
    rw [← hK.state] at hz0
    have hcopB : ∀ i < H.intervals.n, |cop i a - s.model.current_support_position a| ≤ B := fun i hi =>
      (hK.near a i hi).trans (by rw [hpar]; exact hB')
    have hall := (captured hK.height hK.times hX a (hc ht P cop X hX a) hz0 hzB hcopB).2 1 hK.size
    have hwk : w = getOmega s.model.getCoMHeight := by rw [ih1]; exact hww
    have hvel := velocity_after hK.height (hK.times 0 hK.size) (hX.motion 0 hK.size) a hz0 hzB (hcopB 0 hK.size) hall
    rw [zero_add, ← hwk, hK.state, hK.state'] at hvel
    rw [← hwk, hK.state'] at hall
    have hmv := hK.moved a
    rw [hpar] at hmv
    refine ⟨hK.height'.trans ih1, fun z' hz' => ?_, hvel.trans (max_le ih3 (le_max_right _ _)), fun _ => ?_⟩
    · have hz1 := (interval_axis hK.height (hK.times 0 hK.size) (hX.motion 0 hK.size) a hz0).1
      rw [zero_add, hK.state', ← hK.height'] at hz1
      rw [pressure_unique hz' hz1]
      have h1 := hK.first a
      rw [hpar] at h1
      have e : cop 0 a - s'.model.current_support_position a = (cop 0 a - s.model.current_support_position a) +
        -(s'.model.current_support_position a - s.model.current_support_position a) := by ring
      rw [e]
      refine (abs_add_le _ _).trans ?_
      rw [abs_neg]
      linarith
    · have e : positionOf s'.model.getCState a + velocityOf s'.model.getCState a / w - s'.model.current_support_position a =
        (positionOf s'.model.getCState a + velocityOf s'.model.getCState a / w - s.model.current_support_position a) +
        -(s'.model.current_support_position a - s.model.current_support_position a) := by ring
      rw [e]
      refine (abs_add_le _ _).trans ?_
      rw [abs_neg]
      linarith

end

/-! ### Without the terminal constraint -/

/-- A robot which stands and is pushed: its capture point is at the distance `D`. -/
noncomputable def pushed (nan D : ℝ) : Model :=
  ⟨feet20, ⟨⟨![0, 0, 1], ![D * getOmega 1, 0, 0], 0⟩, ⟨⟨![0, 1 / 10, 0], 0, 0, 0, fun _ => nan, fun _ => nan⟩,
    ⟨![0, -1 / 10, 0], 0, 0, 0, fun _ => nan, fun _ => nan⟩⟩, .ds, .undefined⟩, ![0, 0]⟩

theorem pushed_stands (nan D : ℝ) : Stands (pushed nan D) := by
  refine ⟨⟨nofun, nofun, fun _ => ⟨?_, ?_⟩⟩, fun _ => ⟨0, ?_, ⟨?_, ?_⟩, ?_, ?_⟩⟩ <;>
    norm_num [pushed, feet20, beside]

theorem pushed_capture (nan D : ℝ) : IsCapturePoint (pushed nan D).getCoMHeight (pushed nan D).getCState 0 D := by
  have hw := getOmega_pos 1 one_pos
  have hh : (pushed nan D).getCoMHeight = 1 := rfl
  rw [hh]
  refine (capturePoint_iff one_pos).2 ?_
  show D = 0 + D * getOmega 1 / getOmega 1
  field_simp
  ring

theorem pushed_pressure (nan D : ℝ) (a : Fin 2) : IsPressure (pushed nan D).getCoMHeight (pushed nan D).getCState a 0 := by
  fin_cases a
  · show (0 : ℝ) * _ = gravity * (0 - 0)
    simp
  · show (0 : ℝ) * _ = gravity * (0 - 0)
    simp

theorem program_of {m : Model} (hs : m.state.stance_type = .ds) (hh : 0 < m.getCoMHeight) {p : FSMParams} {f : FSM}
    (hf : FSM.construct p = .ok f) (ht : f.cur.type = .ds) {q : MPCParameters} (o : ProblemSetup) :
    ∃ s, ProgramStart p q o s ∧ s.model = m := by
  obtain ⟨P, hP⟩ := C82_setup o ⟨[], []⟩
  exact ⟨⟨m, f, Mpc.make q, P, ⟨SolverParameters.default, ⟨⟨⟨Mat.const 0 0 0, Vec.const 0 0, .undefined⟩,
    ⟨⟨0, Mat.const 0 0 0, Vec.const 0 0, Vec.const 0 0⟩, ⟨0, ⟨0, fun _ => 0⟩, Vec.const 0 0, Vec.const 0 0⟩, Vec.const 0 0,
      Vec.const 0 0⟩⟩, none, none, none⟩⟩, ⟨.empty, [], .undefined⟩, ⟨.empty, [], .undefined⟩, ⟨.empty, [], .undefined⟩⟩,
    ⟨⟨hf, rfl, hs.trans ht.symm, hh⟩, ⟨_, hP⟩, rfl, rfl⟩, rfl⟩

/-- **C110.** The terminal constraint is what makes the difference: in the default walk without it, for every distance there is a robot whose
capture point is so far from its support, and the program makes all iterations without any report; with it the first iteration ends with
an exception, as soon as the distance is greater than that which the centre of pressure can reach. -/
theorem C110_unprotected (nan D : ℝ) (hD : farthest feet20 (maxSteps FSMParams.default 16 100) < D) (v : Hotstart) (fixed : Bool)
    {ext : Qpoases ℝ} (hext : TrustedSolver ext) (hcomplete : CompleteSolver ext) {q : MPCParameters}
    (hq : MPCParameters.make 16 100 100 100 = .ok q) :
    (∃ s0, ProgramStart FSMParams.default q (defaultSetup fixed false) s0 ∧ s0.model = pushed nan D ∧
      ∀ u w clock, ∃ s l, RunReturns v ext nan 100 u w clock s0 (.ok (s, l)) ∧ l.length = 74) ∧
    ∃ s0, ProgramStart FSMParams.default q (defaultSetup fixed true) s0 ∧ s0.model = pushed nan D ∧
      ∀ u w clock, RunReturns v ext nan 100 u w clock s0 (.error .thrown) := by
  have hfar : 0 ≤ farthest feet20 (maxSteps FSMParams.default 16 100) := by
    unfold farthest
    have := reach_nonneg feet20_sane
    have : 0 ≤ sole feet20 := by norm_num [sole, feet20]
    positivity
  constructor
  · obtain ⟨s0, h0, hm⟩ := program_of (m := pushed nan D) (p := FSMParams.default) (q := q) rfl one_pos rfl rfl (defaultSetup fixed false)
    refine ⟨s0, h0, hm, fun u w clock => ?_⟩
    obtain ⟨s, e, -⟩ := C106_completes (nan := nan) v default_loop hq rfl hext hcomplete h0 (by rw [hm]; exact feet20_sane) u w clock
    exact ⟨s, _, e, by rw [List.length_map, List.length_range]; rfl⟩
  · obtain ⟨s0, h0, hm⟩ := program_of (m := pushed nan D) (p := FSMParams.default) (q := q) rfl one_pos rfl rfl (defaultSetup fixed true)
    refine ⟨s0, h0, hm, fun u w clock => runAs_error ?_⟩
    have hc := pushed_capture nan D
    have hz := pushed_pressure nan D 0
    rw [← hm] at hc hz
    refine C110_reports default_loop hq rfl (by norm_num [defaultSetup]) hext h0 (by rw [hm]; exact pushed_stands nan D)
      (by rw [hm]; exact feet20_sane) (w := fun _ => w) .start (by decide) 0 hz hc ?_ (u 0) w
    rw [hm]
    show max |(0 : ℝ) - 0| (farthest feet20 _) < |D - 0|
    rw [sub_zero, sub_zero, abs_zero, max_lt_iff, abs_of_pos (by linarith)]
    exact ⟨by linarith, hD⟩

/-! ### The hypotheses are met -/

/-- The distance for the default walk: three steps in the horizon. -/
example : farthest feet20 (maxSteps FSMParams.default 16 100) = 7 / 4 := by
  norm_num [farthest, maxSteps, sole, reach, feet20, FSMParams.default]

/-- The default walk with a longer first stance. -/
def waiting : FSMParams := { FSMParams.default with firstMs := 2900 }

theorem waiting_loop : LoopParameters waiting 16 100 :=
  ⟨fun _ h => absurd h (by decide), by decide, rfl, by decide, by decide, by decide, by decide⟩

/-- A robot which stands may remain where it is in the first iteration. -/
theorem waiting_allowed (nan : ℝ) (fixed : Bool) {u : Memory} {w : WalkParameters} {q : MPCParameters} (hq : MPCParameters.make 16 100 100 100 = .ok q)
    {f : FSM} (hf : FSM.construct waiting = .ok f) {mpc : Mpc}
    (hu : UpdateReturns nan u.horizon u.matrices u.indices (pushed nan 0) f w (Mpc.make q) (.ok (mpc, .ok))) :
    AllowedMotion (defaultSetup fixed true) mpc.horizon (pushed nan 0) fun _ => 0 := by
  obtain ⟨mpc', h1, h2, h3, h4, -⟩ := consistent_at (p := waiting) (t := 0) (N := 16) (T := 100) (sub := 100) (Ttds := 100)
    (l := [⟨.ds, .lss, .undefined, .first, 1600, 2900⟩]) hf (g := f) ⟨10, by cases hf; rfl⟩ hq waiting_loop.proper
    (by cases hf; decide) (by decide) (by decide) ⟨10, by cases hf; rfl⟩ (by cases hf; rintro ⟨-, h⟩; cases h) rfl (by decide)
    (show _ < _ by decide) (by decide) nan u.horizon u.matrices u.indices w (model := pushed nan 0) one_pos
  obtain rfl : mpc' = mpc := by
    obtain ⟨a, ha⟩ := h1
    obtain ⟨b, hb⟩ := hu
    have := (update_mono ha (le_max_left a b)).symm.trans (update_mono hb (le_max_right a b))
    cases this
    rfl
  have hns : mpc'.horizon.variable_steps = [] := by
    cases hv : mpc'.horizon.variable_steps with
    | nil => rfl
    | cons k t =>
      exfalso
      have b := h4.steps 0 k (by rw [hv]; rfl)
      have c := (h4.range k (by rw [hv]; simp)).2
      rw [b] at c
      revert c
      decide
  have hI : LoopStart waiting q ⟨pushed nan 0, f, Mpc.make q⟩ := ⟨hf, rfl, by cases hf; rfl, one_pos⟩
  obtain ⟨side, hI⟩ := loop_start waiting_loop hI
  refine ⟨?_, fun i s hi hs a => ?_, fun _ P cop X hX => ?_⟩
  · have : ∀ j k, mpc'.horizon.variable_steps[j]? = some k → False := fun j k h => by rw [hns, List.getElem?_nil] at h; cases h
    split
    · exact fun j k s h => (this j k h).elim
    · exact fun j k s h => (this j k h).elim
  · obtain ⟨t, -, hB⟩ := horizon_bounds waiting_loop hq hI hu hi hs
    rw [hB]
    show copBounds feet20 t a 0 ≤ 0 ∧ 0 ≤ copBounds feet20 t a 1
    unfold copBounds
    split <;> fin_cases a <;> norm_num [FootParameters.getADSCoPBounds, FootParameters.getSSCoPBounds, feet20]
  · have hR := updated_ready (loop_updated waiting_loop hq hI hu).1
    have hcop : ∀ i < mpc'.horizon.intervals.n, cop i = 0 := by
      intro i hi
      obtain ⟨s, hs⟩ := hR.states i hi
      have h := hX.pressure i s hi hs
      have hP : P (stepsBy mpc'.horizon i) = ![0, 0] := by
        have : stepsBy mpc'.horizon i = 0 := by unfold stepsBy; rw [hns]; rfl
        rw [this]
        exact hX.footsteps.start
      rw [hP] at h
      obtain ⟨g0, g1⟩ := h
      simp at g0 g1
      exact support_ext g0 g1
    have hX0 : ∀ i ≤ mpc'.horizon.intervals.n, X i = 0 := by
      intro i
      induction i with
      | zero =>
        intro _
        rw [hX.start]
        funext j
        fin_cases j <;> norm_num [Model.getCState, fromCoMState, pushed]
      | succ i ih =>
        intro hi
        have hm := hX.motion i (by omega)
        rw [ih (by omega), hcop i (by omega)] at hm
        have hT := (hR.consistent.times i (by omega)).1
        rw [(moves_iff one_pos hT.ne' _ _ _ _).1 hm, C35_whole, Matrix.mulVec_zero, Matrix.mulVec_zero, add_zero]
    intro a
    rw [hX0 _ le_rfl]
    exact ⟨getOmega 1, (omega_frequency one_pos).1, (omega_frequency one_pos).2, by simp⟩

/-- The hypotheses are met by a robot which waits and then walks: the first iteration is made with the terminal constraint. -/
example (nan : ℝ) (u : Memory) (w : WalkParameters) (fixed : Bool) (v : Hotstart) : ∃ ext q s0 s, TrustedSolver ext ∧
    MPCParameters.make 16 100 100 100 = .ok q ∧ ProgramStart waiting q (defaultSetup fixed true) s0 ∧ Stands s0.model ∧
    SaneFeet s0.model.params ∧ RunAfter v ext nan 100 (fun _ => w) s0 1 s := by
  obtain ⟨ext, h1, h2⟩ := exists_solver
  obtain ⟨q, hq⟩ : ∃ q, MPCParameters.make 16 100 100 100 = .ok q := ⟨_, rfl⟩
  obtain ⟨f, hf, hft⟩ : ∃ f, FSM.construct waiting = .ok f ∧ f.cur.type = .ds := ⟨_, rfl, rfl⟩
  obtain ⟨s0, h0, hm⟩ := program_of (m := pushed nan 0) (p := waiting) (q := q) rfl one_pos hf hft (defaultSetup fixed true)
  have hfsm : s0.fsm = f := Except.ok.inj (h0.loop.machine.symm.trans hf)
  have hmpc : s0.mpc = Mpc.make q := h0.loop.controller
  rcases (C106_iteration (nan := nan) v waiting_loop hq (fun _ => by norm_num [defaultSetup]) h1 h0 (w := fun _ => w) .start u w).2 (by decide) with
    ⟨s', mpc, st, hr, -⟩ | ⟨-, mpc, hu, hno⟩
  · exact ⟨ext, q, s0, s', h1, hq, h0, by rw [hm]; exact pushed_stands nan 0, by rw [hm]; exact feet20_sane, .step .start hr⟩
  · exfalso
    rw [hm, hfsm, hmpc] at hu
    have hx := waiting_allowed nan fixed hq hf hu
    have hx1 : ModerateSolution mpc.horizon fun _ => 0 := fun _ _ => ⟨by norm_num, by norm_num⟩
    rw [hm] at hno
    rcases hno with h5 | ⟨a, g, gs, hd, hs⟩
    · exact h5 _ hx1 hx
    · exact hs (h2 a g gs hd.accepted (hd.bounds trivial).1 (hd.bounds trivial).2 ⟨_, hd.complete _ hx hx1⟩)

end Humoto.Wpg
