import Verif.Lemmas.PepperSymmetry
import Mathlib.Analysis.SpecialFunctions.Trigonometric.Inverse

/-!
# C108: the motion of Pepper is the same at other places, in other directions and in a mirror
-/

namespace Humoto.Pepper

open Spec Bridge

section
variable {K : Type} [Field K] [LinearOrder K] [IsStrictOrderedRing K]
  {v v' : ProgramKind} {q : MPCParameters} {o : ProblemSetup K} {m : MotionParameters K} {n : ℕ} {s s' a a' : Program K}
  {last last' : Option ℕ} {ext ext' : Qpoases K} {tr : Trig K} {u u' : Memory K} {mpc mpc' : Mpc K} {g : PlaneMap K}

/-! ## One iteration -/

omit [LinearOrder K] [IsStrictOrderedRing K] in
theorem state_rel {m m' : Model K} (h : MovedState g m.state m'.state) : RelVec g m.getMPCState m'.getMPCState := by
  have hb : ∀ {b : ℕ}, b < 2 → b = 0 ∨ b = 1 := by omega
  refine ⟨fun b h2 a => ?_, fun b h2 a => ?_, fun b h2 a => ?_⟩
  · rcases hb h2 with rfl | rfl
    · have := congrFun h.base_position a
      fin_cases a <;> exact this
    · have := congrFun h.body_position a
      fin_cases a <;> exact this
  · rcases hb h2 with rfl | rfl
    · have := congrFun h.base_velocity a
      fin_cases a <;> exact this
    · have := congrFun h.body_velocity a
      fin_cases a <;> exact this
  · rcases hb h2 with rfl | rfl
    · have := congrFun h.base_acceleration a
      fin_cases a <;> exact this
    · have := congrFun h.body_acceleration a
      fin_cases a <;> exact this

theorem moves_rel {iv iv' : Interval K} {prev t : K} {x x' c c' : Vec K} {st st' : ModelState K} (hT : iv.T ≠ 0) (hi : MovedInterval g iv iv')
    (h : StateWithin iv prev t x c st) (h' : StateWithin iv' (g.angle prev) t x' c' st') (hx : RelVec g x x') (hc : RelCtl g c c')
    (hm : st'.base_mass = st.base_mass ∧ st'.body_mass = st.body_mass) : MovedState g st st' := by
  have hs' := h'.motion
  rw [hi.duration] at hs'
  have hr := step_rel hT h.motion hs' hx hc
  refine ⟨?_, ?_, ?_, ?_, ?_, ?_, ?_, ?_, hm⟩
  · funext a
    have := hr.position 0 (by omega) a
    fin_cases a <;> exact this
  · funext a
    have := hr.velocity 0 (by omega) a
    fin_cases a <;> exact this
  · funext a
    have := hr.acceleration 0 (by omega) a
    fin_cases a <;> exact this
  · funext a
    have := hr.position 1 (by omega) a
    fin_cases a <;> exact this
  · funext a
    have := hr.velocity 1 (by omega) a
    fin_cases a <;> exact this
  · funext a
    have := hr.acceleration 1 (by omega) a
    fin_cases a <;> exact this
  · rw [h.base_height, h'.base_height, h.body_height, h'.body_height]
    exact hi.heights
  · rw [h.orientation, h'.orientation]
    show g.angle prev + (iv'.theta - g.angle prev) * t / iv'.T = g.angle (prev + (iv.theta - prev) * t / iv.T)
    rw [hi.yaw, hi.duration]
    unfold PlaneMap.angle
    ring

theorem horizon_bounds (hR : ReasonableRobot s.model.robot_parameters s.model.state) {ivs : List (Interval K)}
    (hH : HorizonFor tr q s.model [s.motion] ivs) : BoundsOfRobot s.model.robot_parameters ivs := by
  intro k iv e
  obtain ⟨_, _, -, -, i⟩ := hH.2 k iv e
  refine ⟨i.cop_bounds, i.velocity_bounds, i.acceleration_bounds, i.body_bounds, ?_⟩
  rw [i.base_mass, i.body_mass]
  obtain ⟨h1, h2, -⟩ := hR.masses
  exact (by linarith : (0 : K) < _).ne'

theorem feasible_rel {ivs ivs' : List (Interval K)} {p : RobotParameters K} (h : PlaneSymmetry tr p g) (hT : ∀ iv ∈ ivs, iv.T ≠ 0)
    (hT' : ∀ iv ∈ ivs', iv.T ≠ 0) (hI : MovedIntervals g ivs ivs')
    (hp : BoundsOfRobot p ivs) {x0 x0' : Vec K} (n0 : x0.n = 12) (n0' : x0'.n = 12) (h0 : RelVec g x0 x0') {x x' : ℕ → K}
    (hx : MovedSolution g ivs.length x x') : PepperFeasible ivs' x0' x' ↔ PepperFeasible ivs x0 x := by
  constructor
  · intro hf X hX
    have hX' := simulation_simulates hT' n0' x'
    exact (allowed_rel h hI hp (simulates_rel hT hI h0 hx hX hX')).1 (hf _ hX')
  · intro hf X' hX'
    have hX := simulation_simulates hT n0 x
    exact (allowed_rel h hI hp (simulates_rel hT hI h0 hx hX hX')).2 (hf _ hX)

/-- Iterations of moved robots lead to moved robots. -/
theorem pepper_moved (hq : PepperParameters v q) (hstep : v'.step q = v.step q) (hg : o.baseJerkGain ≠ 0 ∧ o.bodyJerkGain ≠ 0)
    (htr : UnitCircle tr) (h : PlaneSymmetry tr s.model.robot_parameters g) (hR : ReasonableRobot s.model.robot_parameters s.model.state)
    (hR' : ReasonableRobot s'.model.robot_parameters s'.model.state) (hs : MovedRobot g s s')
    (hG : PepperIteration v tr q o u s mpc a) (hG' : PepperIteration v' tr q o u' s' mpc' a')
    (hm : a.model.state.base_mass = 1634234 / 100000 ∧ a.model.state.body_mass = 123389 / 10000)
    (hm' : a'.model.state.base_mass = 1634234 / 100000 ∧ a'.model.state.body_mass = 123389 / 10000) :
    MovedRobot g a a' ∧ MovedSolution g q.preview_horizon_length (Spec.entries a.solution.x) (Spec.entries a'.solution.x) := by
  have hH := hG.horizon
  have hH' := hG'.horizon
  rw [hs.motion] at hH'
  have hI := horizon_rel h hs.state hs.parameters hH hH'
  have hT := horizon_times hH hq.sampling
  have hT' := horizon_times hH' hq.sampling
  have h0 := state_rel hs.state
  have hp := horizon_bounds hR hH
  have hN : mpc.intervals.length = q.preview_horizon_length := hH.1
  have hb := best_rel h hT hT' hI hp rfl rfl h0 (fun z hz => pepper_moderate htr hq.sampling hR hH hz) (imageSolution_moved g _ _) hG.best
  have hx := pepper_unique hT' rfl hg (fun z hz => pepper_moderate htr hq.sampling hR' hH' hz) hb hG'.best
  have hsol : MovedSolution g mpc.intervals.length (Spec.entries a.solution.x) (Spec.entries a'.solution.x) := by
    intro k hk c
    rw [← hx (2 * k + c) (by rw [hI.1]; omega)]
    exact imageSolution_moved g _ _ k hk c
  obtain ⟨iv, e1, w1⟩ := hG.moves
  obtain ⟨iv', e2, w2⟩ := hG'.moves
  have hN0 : 0 < mpc.intervals.length := (List.getElem?_eq_some_iff.1 e1).1
  rw [hs.state.yaw, hI.1, hstep] at w2
  refine ⟨⟨?_, ?_, ?_⟩, hN ▸ hsol⟩
  · exact moves_rel (hT iv (List.mem_of_getElem? e1)) (hI.2 0 iv iv' e1 e2) w1 w2 h0 (control_rel hN0 hsol)
      ⟨hm'.1.trans hm.1.symm, hm'.2.trans hm.2.symm⟩
  · rw [hG.robot, hG'.robot, hs.parameters]
  · rw [hG.motion, hG'.motion, hs.motion, hstep]
    rfl

theorem feasible_not_fails (hc : CompleteSolver ext) (hq : 0 < q.sampling_time_ms) (htr : UnitCircle tr)
    (hR : ReasonableRobot s.model.robot_parameters s.model.state) (hH : HorizonFor tr q s.model [s.motion] mpc.intervals)
    (hf : PepperFails ext o mpc s.model) {z : ℕ → K} (hz : PepperFeasible mpc.intervals s.model.getMPCState z) : False := by
  have hm := pepper_moderate htr hq hR hH hz
  rcases hf with hf | ⟨b, g, gs, hd, hst⟩
  · exact hf _ hm hz
  · exact hst (hc b g gs hd.accepted (hd.bounds trivial).1 (hd.bounds trivial).2 ⟨_, hd.complete _ hz hm⟩)

/-! ## Runs -/

/-- The outcome of the second program is the image of the outcome of the first one. -/
def MovedOutcome (g : PlaneMap K) : Option (Res (Program K × ℕ)) → Option (Res (Program K × ℕ)) → Prop
  | some (.ok (a, n)), some (.ok (b, k)) => MovedRobot g a b ∧ k = n
  | some (.error e), some (.error e') => e = .thrown ∧ e' = .thrown
  | none, none => True
  | _, _ => False

theorem pepper_run_moved (hq : PepperParameters v q) (hq' : PepperParameters v' q) (hstep : v'.step q = v.step q)
    (hg : o.baseJerkGain ≠ 0 ∧ o.bodyJerkGain ≠ 0) (htr : UnitCircle tr) (hext : TrustedSolver ext) (hext' : TrustedSolver ext')
    (hc : CompleteSolver ext) (hc' : CompleteSolver ext') : ∀ (left n : ℕ) {s s' : Program K} {last last' : Option ℕ} (u u' : ℕ → Memory K),
      PepperInv v q o m n s last → PepperInv v' q o (movedMotion g m) n s' last' → PlaneSymmetry tr s.model.robot_parameters g →
      MovedRobot g s s' → ReasonableRobot s.model.robot_parameters s.model.state → ReasonableRobot s'.model.robot_parameters s'.model.state →
      MovedOutcome g (s.run v ext tr u left) (s'.run v' ext' tr u' left) := by
  have hcont : ∀ n, PepperContinues v' q (movedMotion g m) n ↔ PepperContinues v q m n := fun n => by
    unfold PepperContinues
    rw [hstep]
    exact Iff.rfl
  intro left
  induction left with
  | zero => intro n s s' _ _ u u' _ _ _ _ _ _; trivial
  | succ left ih =>
    intro n s s' last last' u u' hI hI' hsym hs hR hR'
    obtain ⟨P1, P2⟩ := pepper_step hq hext hI (u 0) tr
    obtain ⟨P1', P2'⟩ := pepper_step hq' hext' hI' (u' 0) tr
    unfold Program.run
    by_cases hn : PepperContinues v q m n
    · obtain ⟨c1, st1, k1, k2, k3⟩ := pepper_update hq hI (u 0) tr
      obtain ⟨c2, st2, l1, l2, l3⟩ := pepper_update hq' hI' (u' 0) tr
      obtain ⟨-, -, -, hH, -, -⟩ := k3 (k2.2 hn)
      obtain ⟨-, -, -, hH', -, -⟩ := l3 (l2.2 ((hcont n).2 hn))
      have hJ := horizon_rel hsym hs.state hs.parameters hH (by rw [← hs.motion]; exact hH')
      have hT := horizon_times hH hq.sampling
      have hT' := horizon_times hH' hq.sampling
      have hrel := fun {x x' : ℕ → K} hx => feasible_rel hsym hT hT' hJ (horizon_bounds hR hH) rfl rfl (state_rel hs.state) (x := x) (x' := x') hx
      rcases P2 hn with ⟨a, mpc, hi, hG, hK, hm⟩ | ⟨hi, mpc, hu, hF⟩
      · rcases P2' ((hcont n).2 hn) with ⟨a', mpc', hi', hG', hK', hm'⟩ | ⟨hi', mpc', hu', hF'⟩
        · rw [hi, hi']
          simp only
          have hmv := (pepper_moved hq hstep hg htr hsym hR hR' hs hG hG' hm hm').1
          have := ih (n + 1) (fun i => u (i + 1)) (fun i => u' (i + 1)) hK hK' (by rw [hG.robot]; exact hsym) hmv
            (pepper_reasonable hq htr hR hG hm) (pepper_reasonable hq' htr hR' hG' hm')
          revert this
          rcases a.run v ext tr (fun i => u (i + 1)) left with _ | (e | ⟨b, k⟩) <;>
            rcases a'.run v' ext' tr (fun i => u' (i + 1)) left with _ | (e' | ⟨b', k'⟩) <;> intro ho <;>
            first
            | trivial
            | exact ho
            | exact ho.elim
            | exact ⟨ho.1, by rw [ho.2]⟩
        · exfalso
          cases hu'.symm.trans l1
          have e : c1 = mpc := by cases hG.update.symm.trans k1; rfl
          subst e
          exact feasible_not_fails hc' hq.sampling htr hR' hH' hF' ((hrel (imageSolution_moved g _ _)).2 fun X hX => (hG.best X hX).1)
      · rcases P2' ((hcont n).2 hn) with ⟨a', mpc', hi', hG', hK', hm'⟩ | ⟨hi', mpc', hu', hF'⟩
        · exfalso
          cases hu.symm.trans k1
          have e : c2 = mpc' := by cases hG'.update.symm.trans l1; rfl
          subst e
          obtain ⟨y, hy⟩ := imageSolution_surjective hsym c1.intervals.length (Spec.entries a'.solution.x)
          exact feasible_not_fails hc hq.sampling htr hR hH hF ((hrel hy).1 fun X hX => (hG'.best X hX).1)
        · rw [hi, hi']
          exact ⟨rfl, rfl⟩
    · rw [P1 hn, P1' (fun e => hn ((hcont n).1 e))]
      exact ⟨hs, rfl⟩

end

/-! ## C108 -/

section
variable {K : Type} [Field K] [LinearOrder K] [IsStrictOrderedRing K]
  {v v' : ProgramKind} {q : MPCParameters} {o : ProblemSetup K} {m : MotionParameters K} {n : ℕ} {s0 s0' s s' : Program K}
  {ext ext' : Qpoases K} {tr : Trig K} {g : PlaneMap K}

/-- **C108.** The second program begins with an image of the robot and of the motion: at another place, in another direction, or in a mirror.
The programs may make different guesses, call different solvers, and have anything in memory. After the same number of iterations the robot,
what remains of the motion and the last solution are the images of those in the first program. -/
theorem C108_moved (hq : PepperParameters v q) (hq' : PepperParameters v' q) (hstep : v'.step q = v.step q)
    (hg : o.baseJerkGain ≠ 0 ∧ o.bodyJerkGain ≠ 0) (htr : UnitCircle tr) (hext : TrustedSolver ext) (hext' : TrustedSolver ext')
    (h0 : PepperStart q o m s0) (h0' : PepperStart q o (movedMotion g m) s0') (hsym : PlaneSymmetry tr s0.model.robot_parameters g)
    (hm : MovedState g s0.model.state s0'.model.state) (hp : s0'.model.robot_parameters = s0.model.robot_parameters)
    (hR : ReasonableRobot s0.model.robot_parameters s0.model.state) (hR' : ReasonableRobot s0'.model.robot_parameters s0'.model.state)
    (h : PepperAfter v ext tr s0 n s) (h' : PepperAfter v' ext' tr s0' n s') :
    MovedRobot g s s' ∧ (0 < n → MovedSolution g q.preview_horizon_length (Spec.entries s.solution.x) (Spec.entries s'.solution.x)) := by
  have key : ∀ {n : ℕ} {s s' : Program K}, PepperAfter v ext tr s0 n s → PepperAfter v' ext' tr s0' n s' →
      s.model.robot_parameters = s0.model.robot_parameters ∧ MovedRobot g s s' ∧
        (0 < n → MovedSolution g q.preview_horizon_length (Spec.entries s.solution.x) (Spec.entries s'.solution.x)) := by
    intro n
    induction n with
    | zero =>
      intro s s' h h'
      cases h
      cases h'
      exact ⟨rfl, ⟨hm, hp, by rw [h0.motion, h0'.motion]⟩, fun e => absurd e (lt_irrefl _)⟩
    | succ n ih =>
      intro s s' h h'
      obtain _ | @⟨_, a, _, u, ha, hs⟩ := h
      obtain _ | @⟨_, a', _, u', ha', hs'⟩ := h'
      obtain ⟨hr, hw, -⟩ := ih ha ha'
      obtain ⟨mpc, hG, hm⟩ := pepper_made hq hext h0 ha hs
      obtain ⟨mpc', hG', hm'⟩ := pepper_made hq' hext' h0' ha' hs'
      obtain ⟨h1, h2⟩ := pepper_moved hq hstep hg htr (by rw [hr]; exact hsym) (pepper_after_reasonable hq hext htr h0 hR ha)
        (pepper_after_reasonable hq' hext' htr h0' hR' ha') hw hG hG' hm hm'
      exact ⟨hG.robot.trans hr, h1, fun _ => h2⟩
  exact (key h h').2

/-- **C108.** If both solvers solve all feasible problems, then the outcome of the second program is the image of the outcome of the first one:
either both are stopped by an exception, or both make the same number of iterations and leave the robot in a state and in its image, or none
of them terminates. -/
theorem C108_outcome (hq : PepperParameters v q) (hq' : PepperParameters v' q) (hstep : v'.step q = v.step q)
    (hg : o.baseJerkGain ≠ 0 ∧ o.bodyJerkGain ≠ 0) (htr : UnitCircle tr) (hext : TrustedSolver ext) (hext' : TrustedSolver ext')
    (hc : CompleteSolver ext) (hc' : CompleteSolver ext') (h0 : PepperStart q o m s0) (h0' : PepperStart q o (movedMotion g m) s0')
    (hsym : PlaneSymmetry tr s0.model.robot_parameters g) (hm : MovedState g s0.model.state s0'.model.state)
    (hp : s0'.model.robot_parameters = s0.model.robot_parameters) (hR : ReasonableRobot s0.model.robot_parameters s0.model.state)
    (hR' : ReasonableRobot s0'.model.robot_parameters s0'.model.state) (u u' : ℕ → Memory K) :
    (∃ s s' k, PepperReturns v ext tr u s0 (.ok (s, k)) ∧ PepperReturns v' ext' tr u' s0' (.ok (s', k)) ∧ MovedRobot g s s') ∨
    (PepperReturns v ext tr u s0 (.error .thrown) ∧ PepperReturns v' ext' tr u' s0' (.error .thrown)) ∨
    ((∀ r, ¬ PepperReturns v ext tr u s0 r) ∧ ∀ r, ¬ PepperReturns v' ext' tr u' s0' r) := by
  have hs : MovedRobot g s0 s0' := ⟨hm, hp, by rw [h0.motion, h0'.motion]⟩
  have key := fun left => pepper_run_moved hq hq' hstep hg htr hext hext' hc hc' left 0 u u' (pepper_start h0) (pepper_start h0') hsym hs hR hR'
  by_cases hr : ∃ left, s0.run v ext tr u left ≠ none
  · obtain ⟨left, h⟩ := hr
    have hk := key left
    revert hk h
    rcases e : s0.run v ext tr u left with _ | (f | ⟨b, k⟩) <;> rcases e' : s0'.run v' ext' tr u' left with _ | (f' | ⟨b', k'⟩) <;>
      intro hne hk
    · exact absurd rfl hne
    · exact hk.elim
    · exact hk.elim
    · exact hk.elim
    · obtain ⟨rfl, rfl⟩ := hk
      exact .inr (.inl ⟨⟨left, e⟩, ⟨left, e'⟩⟩)
    · exact hk.elim
    · exact hk.elim
    · exact hk.elim
    · obtain ⟨h1, rfl⟩ := hk
      exact .inl ⟨b, b', _, ⟨left, e⟩, ⟨left, e'⟩, h1⟩
  · push Not at hr
    refine .inr (.inr ⟨fun r ⟨left, h⟩ => ?_, fun r ⟨left, h⟩ => ?_⟩)
    · rw [hr left] at h
      cases h
    · have hk := key left
      rw [hr left, h] at hk
      rcases r with _ | ⟨_, _⟩ <;> exact hk.elim

end

/-! ## Which maps are symmetries -/

section
variable {K : Type} [Field K] [LinearOrder K] [IsStrictOrderedRing K] {tr : Trig K} {p : RobotParameters K}

/-- **C108.** All translations are symmetries of all robots. -/
theorem C108_translation (d : Fin 2 → K) : PlaneSymmetry tr p (.translation d) := by
  have hd : ∀ v, (PlaneMap.translation d).direction v = v := by
    intro v
    funext a
    fin_cases a <;> simp [PlaneMap.translation, PlaneMap.direction]
  have ha : ∀ t, (PlaneMap.translation d).angle t = t := by
    intro t
    simp [PlaneMap.translation, PlaneMap.angle]
  refine ⟨fun v => by rw [hd], .inl rfl, fun t => by rw [hd, ha], fun t => ?_, fun v => by rw [hd], fun v => by rw [hd], fun v => by rw [hd],
    fun v => ?_⟩
  · rw [hd, ha]
    funext a
    exact (one_mul _).symm
  · have : (PlaneMap.translation d).side v = v := by
      funext a
      fin_cases a
      · rfl
      · exact one_mul _
    rw [this]

/-- **C108.** A mirror is a symmetry of robots with centred bounds. -/
theorem C108_mirror (hc : ∀ t, tr.cos (-t) = tr.cos t) (hs : ∀ t, tr.sin (-t) = -tr.sin t)
    (h1 : p.nominal_base_velocity_bounds 1 0 = -p.nominal_base_velocity_bounds 1 1)
    (h2 : p.nominal_base_acceleration_bounds 1 0 = -p.nominal_base_acceleration_bounds 1 1) (h3 : p.cop_bounds 1 0 = -p.cop_bounds 1 1)
    (h4 : p.body_bounds 1 0 = -p.body_bounds 1 1) : PlaneSymmetry tr p (.mirrorImage K) := by
  have hd : ∀ v : Fin 2 → K, (PlaneMap.mirrorImage K).direction v = ![v 0, -v 1] := by
    intro v
    funext a
    fin_cases a <;> simp [PlaneMap.mirrorImage, PlaneMap.direction]
  have ha : ∀ t, (PlaneMap.mirrorImage K).angle t = -t := by
    intro t
    simp [PlaneMap.mirrorImage, PlaneMap.angle]
  have hb : ∀ b : Fin 2 → Fin 2 → K, b 1 0 = -b 1 1 → ∀ v : Fin 2 → K, WithinBounds b ![v 0, -v 1] ↔ WithinBounds b v := by
    intro b hb v
    unfold WithinBounds
    rw [Fin.forall_fin_two, Fin.forall_fin_two]
    simp only [Matrix.cons_val_zero, Matrix.cons_val_one]
    rw [hb]
    constructor
    · rintro ⟨h, h1, h2⟩
      exact ⟨h, by linarith, by linarith⟩
    · rintro ⟨h, h1, h2⟩
      exact ⟨h, by linarith, by linarith⟩
  refine ⟨fun v => ?_, .inr rfl, fun t => ?_, fun t => ?_, fun v => ?_, fun v => ?_, fun v => ?_, fun v => ?_⟩
  · rw [hd]
    simp
  · rw [hd, ha, hc, hs]
    rfl
  · rw [hd, ha, hc, hs]
    funext a
    fin_cases a
    · show - -tr.sin t = -1 * -tr.sin t
      ring
    · show tr.cos t = -1 * -tr.cos t
      ring
  · rw [hd]; exact hb _ h1 v
  · rw [hd]; exact hb _ h2 v
  · rw [hd]; exact hb _ h3 v
  · have : (PlaneMap.mirrorImage K).side v = ![v 0, -v 1] := by
      funext a
      fin_cases a
      · rfl
      · exact neg_one_mul _
    rw [this]; exact hb _ h4 v

/-- **C108.** A quarter turn is a symmetry of robots with centred squares as bounds of the base and of the centre of pressure. -/
theorem C108_quarter {p : RobotParameters ℝ} (h1 : ∀ a, p.nominal_base_velocity_bounds a 0 = -p.nominal_base_velocity_bounds 0 1 ∧
      p.nominal_base_velocity_bounds a 1 = p.nominal_base_velocity_bounds 0 1)
    (h2 : ∀ a, p.nominal_base_acceleration_bounds a 0 = -p.nominal_base_acceleration_bounds 0 1 ∧
      p.nominal_base_acceleration_bounds a 1 = p.nominal_base_acceleration_bounds 0 1)
    (h3 : ∀ a, p.cop_bounds a 0 = -p.cop_bounds 0 1 ∧ p.cop_bounds a 1 = p.cop_bounds 0 1) :
    PlaneSymmetry ⟨Real.cos, Real.sin⟩ p (.turn ⟨Real.cos, Real.sin⟩ (Real.pi / 2)) := by
  have hd : ∀ v : Fin 2 → ℝ, (PlaneMap.turn ⟨Real.cos, Real.sin⟩ (Real.pi / 2)).direction v = ![-v 1, v 0] := by
    intro v
    funext a
    fin_cases a <;> simp [PlaneMap.turn, PlaneMap.direction]
  have ha : ∀ t, (PlaneMap.turn ⟨Real.cos, Real.sin⟩ (Real.pi / 2)).angle t = t + Real.pi / 2 := by
    intro t
    simp [PlaneMap.turn, PlaneMap.angle]
  have hb : ∀ b : Fin 2 → Fin 2 → ℝ, (∀ a, b a 0 = -b 0 1 ∧ b a 1 = b 0 1) → ∀ v : Fin 2 → ℝ, WithinBounds b ![-v 1, v 0] ↔ WithinBounds b v := by
    intro b hb v
    unfold WithinBounds
    rw [Fin.forall_fin_two, Fin.forall_fin_two]
    simp only [Matrix.cons_val_zero, Matrix.cons_val_one]
    rw [(hb 0).1, (hb 1).1, (hb 1).2]
    constructor
    · rintro ⟨⟨h1, h2⟩, h3, h4⟩
      exact ⟨⟨by linarith, by linarith⟩, by linarith, by linarith⟩
    · rintro ⟨⟨h1, h2⟩, h3, h4⟩
      exact ⟨⟨by linarith, by linarith⟩, by linarith, by linarith⟩
  refine ⟨fun v => ?_, .inl rfl, fun t => ?_, fun t => ?_, fun v => by rw [hd]; exact hb _ h1 v, fun v => by rw [hd]; exact hb _ h2 v,
    fun v => by rw [hd]; exact hb _ h3 v, fun v => ?_⟩
  · rw [hd]
    simp only [Matrix.cons_val_zero, Matrix.cons_val_one]
    ring
  · rw [hd, ha]
    simp only [Real.cos_add_pi_div_two, Real.sin_add_pi_div_two]
    rfl
  · rw [hd, ha]
    funext a
    simp only [Real.cos_add_pi_div_two, Real.sin_add_pi_div_two]
    fin_cases a
    · show -Real.cos t = 1 * -Real.cos t
      ring
    · show -Real.sin t = 1 * -Real.sin t
      ring
  · have : (PlaneMap.turn ⟨Real.cos, Real.sin⟩ (Real.pi / 2)).side v = v := by
      funext a
      fin_cases a
      · rfl
      · exact one_mul _
    rw [this]

omit [IsStrictOrderedRing K] in
/-- **C108.** Symmetries can be combined. -/
theorem C108_andThen {g h : PlaneMap K} (hg : PlaneSymmetry tr p g) (hh : PlaneSymmetry tr p h) : PlaneSymmetry tr p (g.andThen h) := by
  have hd : ∀ v, (g.andThen h).direction v = h.direction (g.direction v) := by
    intro v
    funext a
    simp only [PlaneMap.andThen, PlaneMap.direction]
    ring
  have ha : ∀ t, (g.andThen h).angle t = h.angle (g.angle t) := by
    intro t
    simp only [PlaneMap.andThen, PlaneMap.angle]
    ring
  refine ⟨fun v => by rw [hd, hh.lengths, hg.lengths], ?_, fun t => by rw [ha, hd, hh.forward, hg.forward], fun t => ?_,
    fun v => by rw [hd, hh.velocity, hg.velocity], fun v => by rw [hd, hh.acceleration, hg.acceleration],
    fun v => by rw [hd, hh.cop, hg.cop], fun v => ?_⟩
  · have e : (g.andThen h).e = h.e * g.e := rfl
    rcases hg.mirror with e1 | e1 <;> rcases hh.mirror with e2 | e2 <;> simp [e, e1, e2]
  · rw [ha, hh.left, hg.left, hd]
    funext a
    simp only [PlaneMap.andThen, PlaneMap.direction]
    ring
  · have : (g.andThen h).side v = h.side (g.side v) := by
      funext a
      fin_cases a
      · rfl
      · exact mul_assoc _ _ _
    rw [this, hh.body, hg.body]

/-- **C108.** Quarter turns and mirrors are symmetries of robots whose bounds are computed from their parameters (see C61). -/
theorem C108_computed (p : RobotParameters ℝ) : PlaneSymmetry ⟨Real.cos, Real.sin⟩ p.finalize (.turn ⟨Real.cos, Real.sin⟩ (Real.pi / 2)) ∧
    (p.finalize.body_bounds 1 0 = -p.finalize.body_bounds 1 1 → PlaneSymmetry ⟨Real.cos, Real.sin⟩ p.finalize (.mirrorImage ℝ)) := by
  have hb : ∀ (r : ℝ) (a : Fin 2), boundsOf r a 0 = -boundsOf r 0 1 ∧ boundsOf r a 1 = boundsOf r 0 1 := by
    intro r a
    fin_cases a <;> simp [boundsOf]
  exact ⟨C108_quarter (hb _) (hb _) (hb _), fun h => C108_mirror Real.cos_neg Real.sin_neg (hb _ 1).1 (hb _ 1).1 (hb _ 1).1 h⟩

end

/-! ## Other turns -/

/-- A robot which moves with the velocity `w` in the direction `t` of its base. -/
noncomputable def movingModel (w : Fin 2 → ℝ) (t : ℝ) : Model ℝ where
  state := { ModelState.setParameters 1 2 0 3 4 with
    base_state := { defaultRigidBody with position := ![0, 0, 1], velocity := ![w 0, w 1, 0], rpy := ![0, 0, t] }
    body_state := { defaultPointMass with position := ![0, 0, 2], velocity := ![w 0, w 1, 0] } }
  robot_parameters := (standingModel ℝ).robot_parameters
  current_base_position := 0

theorem moving_reasonable (w : Fin 2 → ℝ) (t : ℝ) : ReasonableRobot (movingModel w t).robot_parameters (movingModel w t).state := by
  obtain ⟨h1, h2, h3, h4, -, -, -⟩ := standing_reasonable (K := ℝ)
  refine ⟨h1, h2, h3, h4, ?_, ?_, fun a => ?_⟩
  · norm_num [movingModel, ModelState.setParameters]
  · show (1 : ℝ) / 1000 ≤ 2 ∧ |(1 : ℝ)| ≤ 1000
    norm_num
  · fin_cases a <;> norm_num [movingModel, ModelState.setParameters, defaultPointMass]

/-- A program begins with any robot. -/
theorem program_of (q : MPCParameters) {o : ProblemSetup ℝ} (ho : o.mode ≠ .undefined) {m : MotionParameters ℝ} (hm : ProperMotion m) (model : Model ℝ)
    (h1 : model.state.base_mass + model.state.body_mass ≠ 0)
    (h2 : ∀ a, model.robot_parameters.body_bounds a 0 = -model.robot_parameters.body_bounds a 1) : ∃ s, PepperStart q o m s ∧ s.model = model := by
  obtain ⟨s, h, -⟩ := standing_program (K := ℝ) q ho hm
  exact ⟨{ s with model := model }, ⟨h1, h2, h.motion, h.proper, h.controller, h.problem, h.solver, h.old⟩, rfl⟩

section
variable {v : ProgramKind} {ext : Qpoases ℝ} {tr : Trig ℝ} {o : ProblemSetup ℝ} {m : MotionParameters ℝ}

theorem short_parameters (v : ProgramKind) : PepperParameters v ⟨1, 100, 50⟩ := by
  refine ⟨by norm_num, by norm_num, by norm_num, ?_, fun _ => .inr (by norm_num)⟩
  unfold ProgramKind.step
  split <;> norm_num

theorem short_interval {s : Program ℝ} {ivs : List (Interval ℝ)} (hH : HorizonFor tr ⟨1, 100, 50⟩ s.model [s.motion] ivs) :
    ivs.length = 1 ∧ ∃ iv, ivs[0]? = some iv ∧ iv.T = 1 / 10 := by
  have hl : ivs.length = 1 := hH.1
  obtain ⟨iv, e⟩ : ∃ iv, ivs[0]? = some iv := ⟨_, List.getElem?_eq_getElem (by omega)⟩
  obtain ⟨_, _, -, -, i⟩ := hH.2 0 iv e
  refine ⟨hl, iv, e, ?_⟩
  rw [i.duration]
  norm_num

/-- The velocity along an axis is too large to be reduced in time. -/
theorem moving_infeasible {s : Program ℝ} {t : ℝ} (hs : s.model = movingModel ![6 / 5, 0] t) {ivs : List (Interval ℝ)}
    (hH : HorizonFor tr ⟨1, 100, 50⟩ s.model [s.motion] ivs) {x : ℕ → ℝ} (hx : PepperFeasible ivs s.model.getMPCState x) : False := by
  obtain ⟨hl, iv, e, hT⟩ := short_interval hH
  have hT' := horizon_times hH (by norm_num)
  have hX := simulation_simulates hT' (x0 := s.model.getMPCState) rfl x
  obtain ⟨h1, h2, -, -⟩ := hx _ hX
  have b1 := (h1 0 iv e 0).2
  have b2 := (h2 0 iv e 0).1
  obtain ⟨_, _, -, -, i⟩ := hH.2 0 iv e
  rw [i.velocity_bounds] at b1
  rw [i.acceleration_bounds] at b2
  obtain ⟨-, g1, g2⟩ := PepperStep.eq (hT' iv (List.mem_of_getElem? e)) (hX.2 0 iv e) (k := 0) (by norm_num)
  generalize simulation ivs s.model.getMPCState x = X at *
  have v0 : (X 0).e 1 = 6 / 5 := by rw [hX.1, hs]; rfl
  have a0 : (X 0).e 2 = 0 := by rw [hX.1, hs]; rfl
  rw [hs] at b1 b2
  have b1 : (X 1).e 1 ≤ 1 := b1
  have b2 : -1 ≤ (X 1).e 2 := b2
  have g1 : (X 1).e 1 = velocityAt ((X 0).e 1) ((X 0).e 2) (stepJerk iv.T (X 0) (controlAt ivs.length x 0) 0) iv.T := g1
  have g2 : (X 1).e 2 = accelerationAt ((X 0).e 2) (stepJerk iv.T (X 0) (controlAt ivs.length x 0) 0) iv.T := g2
  generalize stepJerk iv.T (X 0) (controlAt ivs.length x 0) 0 = j at *
  rw [v0, a0, hT] at g1
  rw [a0, hT] at g2
  unfold velocityAt at g1
  unfold accelerationAt at g2
  rw [g1] at b1
  rw [g2] at b2
  linarith

/-- Smaller velocities can be kept. -/
theorem moving_feasible {s : Program ℝ} {w : Fin 2 → ℝ} {t : ℝ} (hw : ∀ a, |w a| ≤ 1) (hs : s.model = movingModel w t) {ivs : List (Interval ℝ)}
    (hH : HorizonFor tr ⟨1, 100, 50⟩ s.model [s.motion] ivs) :
    PepperFeasible ivs s.model.getMPCState (fun i => if i = 0 then w 0 else if i = 1 then w 1 else 0) := by
  intro X hX
  obtain ⟨hl, iv, e, hT⟩ := short_interval hH
  have hT' := horizon_times hH (by norm_num)
  have hstep := fun k hk => PepperStep.eq (hT' iv (List.mem_of_getElem? e)) (hX.2 0 iv e) (k := k) hk
  have hx0 : X 0 = (movingModel w t).getMPCState := by rw [hX.1, hs]
  rw [hl, hx0, hT] at hstep
  have hk : ∀ k < 4, stepJerk (1 / 10) (movingModel w t).getMPCState
      (controlAt 1 (fun i => if i = 0 then w 0 else if i = 1 then w 1 else 0) 0) k = 0 := by
    intro k hk
    unfold stepJerk
    have hk' : k = 0 ∨ k = 1 ∨ k = 2 ∨ k = 3 := by omega
    rcases hk' with rfl | rfl | rfl | rfl
    · rw [if_pos (by norm_num)]
      show 2 / (1 / 10 * (1 / 10)) * (w 0 - w 0 - 1 / 10 * 0) = (0 : ℝ)
      ring
    · rw [if_pos (by norm_num)]
      show 2 / (1 / 10 * (1 / 10)) * (w 1 - w 1 - 1 / 10 * 0) = (0 : ℝ)
      ring
    · rw [if_neg (by norm_num)]
      rfl
    · rw [if_neg (by norm_num)]
      rfl
  have key : ∀ a : Fin 2, (X 1).e (3 * a) = w a / 10 ∧ (X 1).e (3 * a + 1) = w a ∧ (X 1).e (3 * a + 2) = 0 ∧
      (X 1).e (3 * (a + 2)) = w a / 10 ∧ (X 1).e (3 * (a + 2) + 2) = 0 := by
    intro a
    obtain ⟨p1, p2, p3⟩ := hstep a (by omega)
    obtain ⟨p4, -, p6⟩ := hstep (a + 2) (by omega)
    rw [hk _ (by omega)] at p1 p2 p3 p4 p6
    have s1 : (movingModel w t).getMPCState.e (3 * a) = 0 := by fin_cases a <;> rfl
    have s2 : (movingModel w t).getMPCState.e (3 * a + 1) = w a := by fin_cases a <;> rfl
    have s3 : (movingModel w t).getMPCState.e (3 * a + 2) = 0 := by fin_cases a <;> rfl
    have s4 : (movingModel w t).getMPCState.e (3 * (a + 2)) = 0 := by fin_cases a <;> rfl
    have s5 : (movingModel w t).getMPCState.e (3 * (a + 2) + 1) = w a := by fin_cases a <;> rfl
    have s6 : (movingModel w t).getMPCState.e (3 * (a + 2) + 2) = 0 := by fin_cases a <;> rfl
    rw [s1, s2, s3] at p1
    rw [s2, s3] at p2
    rw [s3] at p3
    rw [s4, s5, s6] at p4
    rw [s6] at p6
    rw [show (0 : ℕ) + 1 = 1 from rfl] at *
    refine ⟨p1.trans ?_, p2.trans ?_, p3.trans ?_, p4.trans ?_, p6.trans ?_⟩ <;>
      simp only [positionAt, velocityAt, accelerationAt] <;> ring
  have hiv : ∀ {k : ℕ} {i : Interval ℝ}, ivs[k]? = some i → k = 0 ∧ i = iv := by
    intro k i hi
    obtain ⟨hk, -⟩ := List.getElem?_eq_some_iff.1 hi
    have : k = 0 := by omega
    subst this
    exact ⟨rfl, (Option.some.inj (e.symm.trans hi)).symm⟩
  obtain ⟨_, _, -, -, i⟩ := hH.2 0 iv e
  have hb : ∀ a : Fin 2, boundsOf (1 : ℝ) a 0 = -1 ∧ boundsOf (1 : ℝ) a 1 = 1 := by
    intro a
    fin_cases a <;> simp [boundsOf]
  refine ⟨fun k j hj => ?_, fun k j hj => ?_, fun k j hj => ?_, fun k j hj => ?_⟩ <;> obtain ⟨rfl, rfl⟩ := hiv hj <;> intro a
  · rw [i.velocity_bounds, hs]
    show boundsOf (1 : ℝ) a 0 ≤ (X 1).e (3 * a + 1) ∧ (X 1).e (3 * a + 1) ≤ boundsOf (1 : ℝ) a 1
    rw [(hb a).1, (hb a).2, (key a).2.1]
    exact abs_le.1 (hw a)
  · rw [i.acceleration_bounds, hs]
    show boundsOf (1 : ℝ) a 0 ≤ (X 1).e (3 * a + 2) ∧ (X 1).e (3 * a + 2) ≤ boundsOf (1 : ℝ) a 1
    rw [(hb a).1, (hb a).2, (key a).2.2.1]
    norm_num
  · rw [i.cop_bounds, hs]
    show boundsOf (1 : ℝ) a 0 ≤ intervalCop j (X 1) a ∧ intervalCop j (X 1) a ≤ boundsOf (1 : ℝ) a 1
    have hm : j.base_mass + j.body_mass ≠ 0 := by
      rw [i.base_mass, i.body_mass, hs]
      show (3 : ℝ) + 4 ≠ 0
      norm_num
    have : intervalCop j (X 1) a = 0 := by
      unfold intervalCop
      rw [(key a).1, (key a).2.2.1, (key a).2.2.2.1, (key a).2.2.2.2]
      field_simp
      ring
    rw [this, (hb a).1, (hb a).2]
    norm_num
  · rw [i.body_bounds, hs]
    show boundsOf (1 : ℝ) a 0 ≤ bodyOffset j (X 1) a ∧ bodyOffset j (X 1) a ≤ boundsOf (1 : ℝ) a 1
    have k0 : (X 1).e 0 = w 0 / 10 := (key 0).1
    have k3 : (X 1).e 3 = w 1 / 10 := (key 1).1
    have k6 : (X 1).e 6 = w 0 / 10 := (key 0).2.2.2.1
    have k9 : (X 1).e 9 = w 1 / 10 := (key 1).2.2.2.1
    have : bodyOffset j (X 1) a = 0 := by
      fin_cases a
      · show j.rotation 0 0 * ((X 1).e 6 - (X 1).e 0) + j.rotation 1 0 * ((X 1).e 9 - (X 1).e 3) = 0
        rw [k0, k3, k6, k9]
        ring
      · show j.rotation 0 1 * ((X 1).e 6 - (X 1).e 0) + j.rotation 1 1 * ((X 1).e 9 - (X 1).e 3) = 0
        rw [k0, k3, k6, k9]
        ring
    rw [this, (hb a).1, (hb a).2]
    norm_num

/-- C108, refuted for other turns: the bounds on velocities and accelerations of the base are squares in the frame of the world. A robot moves
along an axis with the velocity 1.2, all bounds are 1, and it can not slow down in time: every program is stopped by an exception. The same
robot is turned by the angle with the cosine 3/5 together with its motion: its velocity is (0.72, 0.96), the program makes the first
iteration. -/
theorem C108_turns_refuted (v : ProgramKind) (u : ℕ → Memory ℝ) : ∃ (ext : Qpoases ℝ) (m : MotionParameters ℝ) (s0 s0' : Program ℝ) (φ : ℝ),
    let tr : Trig ℝ := ⟨Real.cos, Real.sin⟩
    let g := PlaneMap.turn tr φ
    TrustedSolver ext ∧ CompleteSolver ext ∧ PepperStart ⟨1, 100, 50⟩ ⟨.maintainVelocity, 1, 1, 1, 1, 1⟩ m s0 ∧
    PepperStart ⟨1, 100, 50⟩ ⟨.maintainVelocity, 1, 1, 1, 1, 1⟩ (movedMotion g m) s0' ∧ MovedRobot g s0 s0' ∧
    (∀ w, g.direction w 0 ^ 2 + g.direction w 1 ^ 2 = w 0 ^ 2 + w 1 ^ 2) ∧
    ReasonableRobot s0.model.robot_parameters s0.model.state ∧ ReasonableRobot s0'.model.robot_parameters s0'.model.state ∧
    PepperReturns v ext tr u s0 (.error .thrown) ∧ ∃ s, PepperAfter v ext tr s0' 1 s := by
  obtain ⟨ext, h1, h2⟩ := exists_solver
  have hc : Real.cos (Real.arccos (3 / 5)) = 3 / 5 := Real.cos_arccos (by norm_num) (by norm_num)
  have hs : Real.sin (Real.arccos (3 / 5)) = 4 / 5 := by
    rw [Real.sin_arccos]
    rw [show (1 : ℝ) - (3 / 5) ^ 2 = (4 / 5) ^ 2 by norm_num]
    exact Real.sqrt_sq (by norm_num)
  let m : MotionParameters ℝ := ⟨![1, 0], 0, 0, 9900, .maintainVelocity⟩
  have hb : ∀ a, boundsOf (1 : ℝ) a 0 = -boundsOf (1 : ℝ) a 1 := by
    intro a
    fin_cases a <;> simp [boundsOf]
  obtain ⟨s0, h0, e0⟩ := program_of ⟨1, 100, 50⟩ (o := ⟨.maintainVelocity, 1, 1, 1, 1, 1⟩) (by simp) (m := m) (.inr (by norm_num [m]))
    (movingModel ![6 / 5, 0] 0) (by show (3 : ℝ) + 4 ≠ 0; norm_num) hb
  obtain ⟨s0', h0', e0'⟩ := program_of ⟨1, 100, 50⟩ (o := ⟨.maintainVelocity, 1, 1, 1, 1, 1⟩) (by simp)
    (m := movedMotion (PlaneMap.turn ⟨Real.cos, Real.sin⟩ (Real.arccos (3 / 5))) m) (.inr (by show (0 : ℤ) ≤ 9900 ∧ (9900 : ℤ) < 2 ^ 63; norm_num))
    (movingModel ![18 / 25, 24 / 25] (Real.arccos (3 / 5))) (by show (3 : ℝ) + 4 ≠ 0; norm_num) hb
  have hR := moving_reasonable ![6 / 5, 0] 0
  have hR' := moving_reasonable ![18 / 25, 24 / 25] (Real.arccos (3 / 5))
  rw [← e0] at hR
  rw [← e0'] at hR'
  refine ⟨ext, m, s0, s0', Real.arccos (3 / 5), h1, h2, h0, h0', ⟨?_, by rw [e0, e0']; rfl, by rw [h0.motion, h0'.motion]⟩, fun w => ?_, hR, hR',
    ⟨1, ?_⟩, ?_⟩
  · rw [e0, e0']
    refine ⟨?_, ?_, ?_, ?_, ?_, ?_, ⟨rfl, rfl⟩, ?_, ⟨rfl, rfl⟩⟩
    all_goals
      first
      | (funext a
         fin_cases a <;> simp [horizontal, movingModel, PlaneMap.point, PlaneMap.direction, PlaneMap.turn, hc, hs, defaultRigidBody, defaultPointMass] <;>
           norm_num)
      | simp [movingModel, PlaneMap.angle, PlaneMap.turn]
  · simp only [PlaneMap.direction, PlaneMap.turn, Matrix.cons_val_zero, Matrix.cons_val_one, hc, hs]
    ring
  · obtain ⟨-, P2⟩ := pepper_step (short_parameters v) h1 (pepper_start h0) (u 0) ⟨Real.cos, Real.sin⟩
    have hn : PepperContinues v ⟨1, 100, 50⟩ m 0 := .inr (by simp [m])
    unfold Program.run
    rcases P2 hn with ⟨a, mpc, hi, hG, -, -⟩ | ⟨hi, -⟩
    · exact (moving_infeasible e0 hG.horizon fun X hX => (hG.best X hX).1).elim
    · rw [hi]
  · have hn : PepperContinues v ⟨1, 100, 50⟩ (movedMotion (PlaneMap.turn ⟨Real.cos, Real.sin⟩ (Real.arccos (3 / 5))) m) 0 :=
      .inr (by simp [m, movedMotion])
    obtain ⟨-, P2⟩ := pepper_step (short_parameters v) h1 (pepper_start h0') (u 0) ⟨Real.cos, Real.sin⟩
    obtain ⟨c1, st1, k1, k2, k3⟩ := pepper_update (short_parameters v) (pepper_start h0') (u 0) ⟨Real.cos, Real.sin⟩
    obtain ⟨-, -, -, hH, -, -⟩ := k3 (k2.2 hn)
    rcases P2 hn with ⟨a, mpc, hi, -, -, -⟩ | ⟨-, mpc, hu, hF⟩
    · exact ⟨a, .step .start hi⟩
    · cases hu.symm.trans k1
      refine (feasible_not_fails h2 (by norm_num) real_circle hR' hH hF (moving_feasible (w := ![18 / 25, 24 / 25]) (fun a => ?_) e0' hH)).elim
      fin_cases a <;> norm_num [abs_le]

end

/-! ### The hypotheses are met -/

/-- The robot which stands at the origin and the robot which is reflected, turned to the right angle and moved by (2, 3) are asked to move with
a constant velocity while they turn. All pairs of programs which advance by the same time end in the corresponding way. -/
example (v v' : ProgramKind) (hv : v'.subsampling = v.subsampling) (u u' : ℕ → Memory ℝ) : ∃ (ext : Qpoases ℝ) (s0 s0' : Program ℝ),
    let tr : Trig ℝ := ⟨Real.cos, Real.sin⟩
    let m : MotionParameters ℝ := ⟨![1, 1 / 2], 0, 1, 9900, .maintainVelocity⟩
    let g := ((PlaneMap.mirrorImage ℝ).andThen (.turn tr (Real.pi / 2))).andThen (.translation ![2, 3])
    TrustedSolver ext ∧ CompleteSolver ext ∧ PepperStart ⟨15, 100, 5⟩ ⟨.maintainVelocity, 1, 1, 1, 1, 1⟩ m s0 ∧
    PepperStart ⟨15, 100, 5⟩ ⟨.maintainVelocity, 1, 1, 1, 1, 1⟩ (movedMotion g m) s0' ∧ s0 ≠ s0' ∧
    ((∃ s s' k, PepperReturns v ext tr u s0 (.ok (s, k)) ∧ PepperReturns v' ext tr u' s0' (.ok (s', k)) ∧ MovedRobot g s s') ∨
    (PepperReturns v ext tr u s0 (.error .thrown) ∧ PepperReturns v' ext tr u' s0' (.error .thrown))) := by
  obtain ⟨ext, h1, h2⟩ := exists_solver
  have hq : ∀ v : ProgramKind, PepperParameters v ⟨15, 100, 5⟩ := by
    intro v
    refine ⟨by norm_num, by norm_num, by norm_num, ?_, fun _ => .inl (by norm_num)⟩
    unfold ProgramKind.step
    split <;> norm_num
  have hb : ∀ a, boundsOf (1 : ℝ) a 0 = -boundsOf (1 : ℝ) 0 1 ∧ boundsOf (1 : ℝ) a 1 = boundsOf (1 : ℝ) 0 1 := by
    intro a
    fin_cases a <;> simp [boundsOf]
  have hb' : ∀ a, boundsOf (1 : ℝ) a 0 = -boundsOf (1 : ℝ) a 1 := by
    intro a
    fin_cases a <;> simp [boundsOf]
  let tr : Trig ℝ := ⟨Real.cos, Real.sin⟩
  let m : MotionParameters ℝ := ⟨![1, 1 / 2], 0, 1, 9900, .maintainVelocity⟩
  let g := ((PlaneMap.mirrorImage ℝ).andThen (.turn tr (Real.pi / 2))).andThen (.translation ![2, 3])
  have hsym : PlaneSymmetry tr (standingModel ℝ).robot_parameters g :=
    C108_andThen (C108_andThen (C108_mirror Real.cos_neg Real.sin_neg (hb' 1) (hb' 1) (hb' 1) (hb' 1)) (C108_quarter hb hb hb)) (C108_translation _)
  have hR := standing_reasonable (K := ℝ)
  let moved : Model ℝ :=
    { standingModel ℝ with
      state := { (standingModel ℝ).state with
        base_state := { defaultRigidBody with position := ![2, 3, 1], rpy := ![0, 0, Real.pi / 2] }
        body_state := { defaultPointMass with position := ![2, 3, 2] } } }
  obtain ⟨s0, h0, e0⟩ := program_of ⟨15, 100, 5⟩ (o := ⟨.maintainVelocity, 1, 1, 1, 1, 1⟩) (by simp) (m := m) (.inr (by norm_num [m])) (standingModel ℝ)
    (by show (3 : ℝ) + 4 ≠ 0; norm_num) hb'
  obtain ⟨s0', h0', e0'⟩ := program_of ⟨15, 100, 5⟩ (o := ⟨.maintainVelocity, 1, 1, 1, 1, 1⟩) (by simp) (m := movedMotion g m)
    (.inr (by show (0 : ℤ) ≤ 9900 ∧ (9900 : ℤ) < 2 ^ 63; norm_num)) moved (by show (3 : ℝ) + 4 ≠ 0; norm_num) hb'
  have hR' : ReasonableRobot moved.robot_parameters moved.state := by
    obtain ⟨h1, h2, h3, h4, h5, h6, -⟩ := hR
    refine ⟨h1, h2, h3, h4, h5, h6, fun a => ?_⟩
    fin_cases a <;> norm_num [moved, defaultPointMass]
  have hm : MovedState g (standingModel ℝ).state moved.state := by
    refine ⟨?_, ?_, ?_, ?_, ?_, ?_, ⟨rfl, rfl⟩, ?_, ⟨rfl, rfl⟩⟩
    all_goals
      first
      | (funext a
         fin_cases a <;> simp [horizontal, moved, standingModel, ModelState.setParameters, g, PlaneMap.andThen, PlaneMap.mirrorImage, PlaneMap.turn,
           PlaneMap.translation, PlaneMap.point, PlaneMap.direction, defaultRigidBody, defaultPointMass])
      | simp [moved, standingModel, ModelState.setParameters, g, PlaneMap.andThen, PlaneMap.mirrorImage, PlaneMap.turn, PlaneMap.translation, PlaneMap.angle]
  refine ⟨ext, s0, s0', h1, h2, h0, h0', fun e => ?_, ?_⟩
  · have := congrArg (fun s : Program ℝ => s.model.state.base_state.position 0) e
    simp only [e0, e0'] at this
    have : (0 : ℝ) = 2 := this
    norm_num at this
  rcases C108_outcome (hq v) (hq v') (by unfold ProgramKind.step; rw [hv]) ⟨one_ne_zero, one_ne_zero⟩ real_circle h1 h1 h2 h2 h0 h0'
    (by rw [e0]; exact hsym) (by rw [e0, e0']; exact hm) (by rw [e0, e0']) (by rw [e0]; exact hR) (by rw [e0']; exact hR') u u' with h | h | ⟨h, -⟩
  · exact .inl h
  · exact .inr h
  · obtain ⟨r, hr, -⟩ := C87_run (tr := tr) (hq v) h1 h0 (d := 9900) rfl u
    exact absurd hr (h r)

end Humoto.Pepper
