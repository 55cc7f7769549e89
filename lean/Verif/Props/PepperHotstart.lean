import Verif.Lemmas.PepperModerate

/-!
# C107: hot starting, the solver and the contents of the memory do not change the motion of Pepper
-/

namespace Humoto.Pepper

open Spec Bridge

variable {K : Type} [Field K] [LinearOrder K] [IsStrictOrderedRing K]

section
variable {v v' : ProgramKind} {q : MPCParameters} {o : ProblemSetup K} {m : MotionParameters K} {n : ℕ} {s s' a a' : Program K}
  {last last' : Option ℕ} {ext ext' : Qpoases K} {tr : Trig K} {u u' : Memory K} {mpc mpc' : Mpc K}

/-! ## Two iterations -/

omit [LinearOrder K] [IsStrictOrderedRing K] in
theorem interval_unique {p : MPCParameters} {model : Model K} {mo : MotionParameters K} {theta : K} {iv iv' : Interval K}
    (h : IntervalFor tr p model mo theta iv) (h' : IntervalFor tr p model mo theta iv') : iv = iv' := by
  have t := h.turn.trans h'.turn.symm
  have r : iv.rotation = iv'.rotation := by rw [h.rotation, h'.rotation, t]
  have w : iv.base_vel_ref = iv'.base_vel_ref := by rw [h.velocity, h'.velocity, r]
  have e1 := h.cop_bounds.trans h'.cop_bounds.symm
  have e2 := h.velocity_bounds.trans h'.velocity_bounds.symm
  have e3 := h.acceleration_bounds.trans h'.acceleration_bounds.symm
  have e4 := h.body_bounds.trans h'.body_bounds.symm
  have e5 := h.position.trans h'.position.symm
  have e6 := h.base_height.trans h'.base_height.symm
  have e7 := h.body_height.trans h'.body_height.symm
  have e8 := h.base_mass.trans h'.base_mass.symm
  have e9 := h.body_mass.trans h'.body_mass.symm
  have e10 := h.duration_ms.trans h'.duration_ms.symm
  have e11 := h.duration.trans h'.duration.symm
  obtain ⟨_, _, _, _, _, _, _, _, _, _, _, _, _, _⟩ := iv
  obtain ⟨_, _, _, _, _, _, _, _, _, _, _, _, _, _⟩ := iv'
  simp only at *
  subst_vars
  rfl

/-- The horizon is determined by the model, by the parameters and by the motion. -/
theorem horizon_unique {model : Model K} {mo : MotionParameters K} {ivs ivs' : List (Interval K)} (h : HorizonFor tr q model [mo] ivs)
    (h' : HorizonFor tr q model [mo] ivs') : ivs = ivs' := by
  have hl : ivs.length = ivs'.length := h.1.trans h'.1.symm
  have key : ∀ i < ivs.length, ivs[i]? = ivs'[i]? := by
    intro i
    induction i with
    | zero =>
      intro hi
      obtain ⟨iv, e⟩ : ∃ iv, ivs[0]? = some iv := ⟨_, List.getElem?_eq_getElem hi⟩
      obtain ⟨iv', e'⟩ : ∃ iv, ivs'[0]? = some iv := ⟨_, List.getElem?_eq_getElem (hl ▸ hi)⟩
      obtain ⟨m1, t1, f1, s1, i1⟩ := h.2 0 iv e
      obtain ⟨m2, t2, f2, s2, i2⟩ := h'.2 0 iv' e'
      cases inForce_single f1
      cases inForce_single f2
      have s1 : t1 = model.state.base_state.rpy 2 := s1
      have s2 : t2 = model.state.base_state.rpy 2 := s2
      subst s1
      subst s2
      rw [e, e', interval_unique i1 i2]
    | succ i ih =>
      intro hi
      have hp := ih (by omega)
      obtain ⟨iv, e⟩ : ∃ iv, ivs[i + 1]? = some iv := ⟨_, List.getElem?_eq_getElem hi⟩
      obtain ⟨iv', e'⟩ : ∃ iv, ivs'[i + 1]? = some iv := ⟨_, List.getElem?_eq_getElem (hl ▸ hi)⟩
      obtain ⟨m1, t1, f1, ⟨p1, g1, rfl⟩, i1⟩ := h.2 (i + 1) iv e
      obtain ⟨m2, t2, f2, ⟨p2, g2, rfl⟩, i2⟩ := h'.2 (i + 1) iv' e'
      cases inForce_single f1
      cases inForce_single f2
      rw [g1, g2] at hp
      cases hp
      rw [e, e', interval_unique i1 i2]
  refine List.ext_getElem? fun i => ?_
  by_cases hi : i < ivs.length
  · exact key i hi
  · rw [List.getElem?_eq_none (by omega), List.getElem?_eq_none (by omega)]

/-- What a computed state does not take from the motion: vertical velocities and accelerations, the rotation, the masses. -/
structure FlatState (s : ModelState K) : Prop where
  base : s.base_state.velocity 2 = 0 ∧ s.base_state.acceleration 2 = 0
  body : s.body_state.velocity 2 = 0 ∧ s.body_state.acceleration 2 = 0
  rotation : s.base_state.angularVelocity = 0 ∧ s.base_state.angularAcceleration = 0
  masses : s.base_mass = 1634234 / 100000 ∧ s.body_mass = 123389 / 10000

theorem next_flat {T Ts : K} {p b d : Vec K} {h1 h2 th : K} {st : ModelState K}
    (h : Model.getNextStateFrom .default T Ts p b d h1 h2 th = .ok st) : FlatState st := by
  unfold Model.getNextStateFrom at h
  rw [bind_eq_ok] at h
  obtain ⟨c, -, e⟩ := h
  cases e
  exact ⟨⟨rfl, rfl⟩, ⟨rfl, rfl⟩, ⟨rfl, rfl⟩, ⟨rfl, rfl⟩⟩

theorem modelStateAt_flat {c : Mpc K} {model : Model K} {i : ℕ} {t : K} {st : ModelState K} (h : c.modelStateAt model i t = .ok st) :
    FlatState st := by
  unfold Mpc.modelStateAt at h
  simp only [bind_eq_ok] at h
  obtain ⟨_, -, _, -, _, -, _, -, _, -, _, -, _, -, e⟩ := h
  exact next_flat e

theorem advance_flat (h : s.advance v = .ok a) : ∃ st, a.model = s.model.updateState st ∧ FlatState st := by
  unfold Program.advance at h
  rw [bind_eq_ok] at h
  obtain ⟨⟨c, st⟩, h1, h2⟩ := h
  cases h2
  refine ⟨st, rfl, ?_⟩
  split at h1
  · simp only [bind_eq_ok] at h1
    obtain ⟨c1, -, st1, h3, h4⟩ := h1
    cases h4
    unfold Mpc.getModelStateMs at h3
    simp only [bind_eq_ok] at h3
    obtain ⟨_, -, _, -, e⟩ := h3
    exact modelStateAt_flat e
  · unfold Mpc.parseAndGetNextModelState at h1
    simp only [bind_eq_ok] at h1
    obtain ⟨_, -, c1, -, st1, h3, h4⟩ := h1
    cases h4
    unfold Mpc.initializeNextModelState at h3
    simp only [bind_eq_ok] at h3
    obtain ⟨_, -, _, -, _, -, e⟩ := h3
    exact next_flat e

theorem solve_model (h : s.solveProblem v ext u mpc m = .ok a) : a.model = s.model := by
  unfold Program.solveProblem at h
  rw [bind_eq_ok] at h
  obtain ⟨⟨p, sol, g, b⟩, -, h⟩ := h
  simp only at h
  split at h
  · rw [bind_eq_ok] at h
    obtain ⟨_, -, e⟩ := h
    cases e
    rfl
  · cases h

theorem iterate_flat (h : s.iterate v ext tr u = .ok (some a)) : ∃ st, a.model = s.model.updateState st ∧ FlatState st := by
  unfold Program.iterate at h
  rw [bind_eq_ok] at h
  obtain ⟨⟨c, st, mo⟩, -, h⟩ := h
  simp only at h
  split at h
  · simp only [bind_eq_ok] at h
    obtain ⟨s1, h1, s2, h2, h3⟩ := h
    cases h3
    rw [← solve_model h1]
    exact advance_flat h2
  · cases h

/-- The place to which an iteration leads is determined by the solution. -/
theorem state_unique {iv : Interval K} {prev t : K} {x c : Vec K} {st st' : ModelState K} (hT : iv.T ≠ 0) (h : StateWithin iv prev t x c st)
    (h' : StateWithin iv prev t x c st') (hf : FlatState st) (hf' : FlatState st') : st = st' := by
  have key : ∀ k < 4, ∀ p < 3, (Vec.ofList [st.base_state.position 0, st.base_state.velocity 0, st.base_state.acceleration 0,
     st.base_state.position 1, st.base_state.velocity 1, st.base_state.acceleration 1,
     st.body_state.position 0, st.body_state.velocity 0, st.body_state.acceleration 0,
     st.body_state.position 1, st.body_state.velocity 1, st.body_state.acceleration 1]).e (3 * k + p) =
     (Vec.ofList [st'.base_state.position 0, st'.base_state.velocity 0, st'.base_state.acceleration 0,
     st'.base_state.position 1, st'.base_state.velocity 1, st'.base_state.acceleration 1,
     st'.body_state.position 0, st'.body_state.velocity 0, st'.body_state.acceleration 0,
     st'.body_state.position 1, st'.body_state.velocity 1, st'.body_state.acceleration 1]).e (3 * k + p) := by
    intro k hk p hp
    obtain ⟨a0, a1, a2⟩ := PepperStep.eq hT h.motion hk
    obtain ⟨b0, b1, b2⟩ := PepperStep.eq hT h'.motion hk
    have hp' : p = 0 ∨ p = 1 ∨ p = 2 := by omega
    rcases hp' with rfl | rfl | rfl
    · exact a0.trans b0.symm
    · exact a1.trans b1.symm
    · exact a2.trans b2.symm
  have hb : st.base_state = st'.base_state := by
    have e1 := h.orientation.trans h'.orientation.symm
    have e2 := hf.rotation.1.trans hf'.rotation.1.symm
    have e3 := hf.rotation.2.trans hf'.rotation.2.symm
    have p : st.base_state.position = st'.base_state.position := by
      funext i
      fin_cases i
      · exact key 0 (by omega) 0 (by omega)
      · exact key 1 (by omega) 0 (by omega)
      · exact h.base_height.trans h'.base_height.symm
    have w : st.base_state.velocity = st'.base_state.velocity := by
      funext i
      fin_cases i
      · exact key 0 (by omega) 1 (by omega)
      · exact key 1 (by omega) 1 (by omega)
      · exact hf.base.1.trans hf'.base.1.symm
    have g : st.base_state.acceleration = st'.base_state.acceleration := by
      funext i
      fin_cases i
      · exact key 0 (by omega) 2 (by omega)
      · exact key 1 (by omega) 2 (by omega)
      · exact hf.base.2.trans hf'.base.2.symm
    generalize st.base_state = A at *
    generalize st'.base_state = B at *
    obtain ⟨_, _, _, _, _, _⟩ := A
    obtain ⟨_, _, _, _, _, _⟩ := B
    simp only at *
    subst_vars
    rfl
  have hd : st.body_state = st'.body_state := by
    have p : st.body_state.position = st'.body_state.position := by
      funext i
      fin_cases i
      · exact key 2 (by omega) 0 (by omega)
      · exact key 3 (by omega) 0 (by omega)
      · exact h.body_height.trans h'.body_height.symm
    have w : st.body_state.velocity = st'.body_state.velocity := by
      funext i
      fin_cases i
      · exact key 2 (by omega) 1 (by omega)
      · exact key 3 (by omega) 1 (by omega)
      · exact hf.body.1.trans hf'.body.1.symm
    have g : st.body_state.acceleration = st'.body_state.acceleration := by
      funext i
      fin_cases i
      · exact key 2 (by omega) 2 (by omega)
      · exact key 3 (by omega) 2 (by omega)
      · exact hf.body.2.trans hf'.body.2.symm
    generalize st.body_state = A at *
    generalize st'.body_state = B at *
    obtain ⟨_, _, _⟩ := A
    obtain ⟨_, _, _⟩ := B
    simp only at *
    subst_vars
    rfl
  have m1 := hf.masses.1.trans hf'.masses.1.symm
  have m2 := hf.masses.2.trans hf'.masses.2.symm
  obtain ⟨_, _, _, _⟩ := st
  obtain ⟨_, _, _, _⟩ := st'
  simp only at *
  subst_vars
  rfl

/-- Iterations in the same situation end in the same state, with the same solutions. -/
theorem pepper_same (hq : PepperParameters v q) (hstep : v'.step q = v.step q) (hg : o.baseJerkGain ≠ 0 ∧ o.bodyJerkGain ≠ 0)
    (htr : UnitCircle tr) (hR : ReasonableRobot s.model.robot_parameters s.model.state) (hs : SameRobot s s')
    (hi : s.iterate v ext tr u = .ok (some a)) (hi' : s'.iterate v' ext' tr u' = .ok (some a')) (hG : PepperIteration v tr q o u s mpc a)
    (hG' : PepperIteration v' tr q o u' s' mpc' a') : SameRobot a a' ∧ a'.solution.x = a.solution.x := by
  have hH := hG.horizon
  have hH' := hG'.horizon
  rw [hs.model, hs.motion] at hH'
  have hiv := horizon_unique hH hH'
  have hb' := hG'.best
  have hw' := hG'.moves
  rw [hs.model, ← hiv] at hb' hw'
  have hT := horizon_times hH hq.sampling
  have hx := pepper_unique hT (x0 := s.model.getMPCState) rfl hg (fun z hz => pepper_moderate htr hq.sampling hR hH hz) hG.best hb'
  have hl : a'.solution.x.length = a.solution.x.length := by rw [hG'.size, hG.size, hiv]
  have hsol : a'.solution.x = a.solution.x := by
    refine List.ext_getElem hl fun i h1 h2 => ?_
    have := hx i (by rw [← hG.size]; exact h2)
    unfold Spec.entries at this
    rw [List.getD_eq_getElem?_getD, List.getD_eq_getElem?_getD, List.getElem?_eq_getElem h2, List.getElem?_eq_getElem h1] at this
    exact this.symm
  obtain ⟨iv, e1, w1⟩ := hG.moves
  obtain ⟨iv', e2, w2⟩ := hw'
  cases e1.symm.trans e2
  obtain ⟨st, m1, f1⟩ := iterate_flat hi
  obtain ⟨st', m2, f2⟩ := iterate_flat hi'
  rw [hsol, hstep] at w2
  rw [m1] at w1
  rw [m2] at w2
  have hst := state_unique (hT iv (List.mem_of_getElem? e1)) w1 w2 f1 f2
  have hst : st = st' := hst
  refine ⟨⟨by rw [m1, m2, hst, hs.model], ?_⟩, hsol⟩
  rw [hG.motion, hG'.motion, hs.motion, hstep]

/-- If the solver solves all feasible problems, then it does not fail where another one succeeds. -/
theorem pepper_not_fails (hc : CompleteSolver ext) (hq : 0 < q.sampling_time_ms) (htr : UnitCircle tr)
    (hR : ReasonableRobot s.model.robot_parameters s.model.state) (hs : SameRobot s s') (hH : HorizonFor tr q s.model [s.motion] mpc.intervals)
    (hf : PepperFails ext o mpc s.model) (hG' : PepperIteration v' tr q o u' s' mpc' a') : False := by
  have hH' := hG'.horizon
  have hb' := hG'.best
  rw [hs.model, hs.motion] at hH'
  rw [hs.model, ← horizon_unique hH hH'] at hb'
  have hal : PepperFeasible mpc.intervals s.model.getMPCState (Spec.entries a'.solution.x) := fun X hX => (hb' X hX).1
  have hm := pepper_moderate htr hq hR hH hal
  rcases hf with hf | ⟨b, g, gs, hd, hst⟩
  · exact hf _ hm hal
  · exact hst (hc b g gs hd.accepted (hd.bounds trivial).1 (hd.bounds trivial).2 ⟨_, hd.complete _ hal hm⟩)

/-- A robot remains reasonable. -/
theorem pepper_reasonable (hq : PepperParameters v q) (htr : UnitCircle tr) (hR : ReasonableRobot s.model.robot_parameters s.model.state)
    (hG : PepperIteration v tr q o u s mpc a) (hm : a.model.state.base_mass = 1634234 / 100000 ∧ a.model.state.body_mass = 123389 / 10000) :
    ReasonableRobot a.model.robot_parameters a.model.state := by
  obtain ⟨iv, X, hiv, hT, hT0, hX, -, h1, h2⟩ := iteration_vec hq hG
  obtain ⟨_, _, -, -, hif⟩ := hG.horizon.2 0 iv hiv
  obtain ⟨iv', hiv', hw⟩ := hG.moves
  cases hiv.symm.trans hiv'
  obtain ⟨hA, -⟩ := hG.best X hX
  have hrob := hG.robot
  refine ⟨?_, ?_, ?_, ?_, ?_, ?_, fun b => ?_⟩
  · rw [hrob]; exact hR.velocity
  · rw [hrob]; exact hR.acceleration
  · rw [hrob]; exact hR.cop
  · rw [hrob]; exact hR.body
  · rw [hm.1, hm.2]; norm_num
  · rw [hw.base_height, hw.body_height, hif.base_height, hif.body_height]; exact hR.heights
  · have hN : 0 < mpc.intervals.length := hG.horizon.1 ▸ hq.horizon
    have hB := allowed_acceleration htr hR hG.horizon hA hN b
    have i0 := hR.start b
    have e1 := (PepperStep.eq hT0 h1 (k := b + 2) (by omega)).2.2
    have e2 := (PepperStep.eq hT0 h2 (k := b + 2) (by omega)).2.2
    have hd : a.model.state.body_state.acceleration b.castSucc = a.model.getMPCState.e (3 * (b + 2) + 2) := by fin_cases b <;> rfl
    have hc : s.model.state.body_state.acceleration b.castSucc = s.model.getMPCState.e (3 * (b + 2) + 2) := by fin_cases b <;> rfl
    rw [hd, e1]
    rw [hc] at i0
    rw [e2] at hB
    unfold accelerationAt at *
    generalize stepJerk iv.T s.model.getMPCState (controlAt mpc.intervals.length (Spec.entries a.solution.x) 0) (b + 2) = j at *
    generalize s.model.getMPCState.e (3 * (b + 2) + 2) = A at *
    have hs1 : (0 : K) ≤ (v.step q : K) / 1000 := by positivity
    have hs2 : (v.step q : K) / 1000 ≤ iv.T := by
      rw [hT]
      have : (v.step q : K) ≤ q.sampling_time_ms := by exact_mod_cast hq.step.2
      gcongr
    generalize (v.step q : K) / 1000 = τ at *
    rw [abs_le] at *
    rcases le_total 0 j with hj | hj
    · exact ⟨by nlinarith [i0.1], by nlinarith [hB.2]⟩
    · exact ⟨by nlinarith [hB.1], by nlinarith [i0.2]⟩

theorem pepper_after_reasonable (hq : PepperParameters v q) (hext : TrustedSolver ext) (htr : UnitCircle tr) {s0 : Program K}
    (h0 : PepperStart q o m s0) (hR : ReasonableRobot s0.model.robot_parameters s0.model.state) (h : PepperAfter v ext tr s0 n s) :
    ReasonableRobot s.model.robot_parameters s.model.state := by
  induction h with
  | start => exact hR
  | step h hs ih =>
    obtain ⟨mpc, hG, hm⟩ := pepper_made hq hext h0 h hs
    exact pepper_reasonable hq htr ih hG hm

/-! ## Runs -/

/-- Outcomes of two programs agree. -/
def SameOutcome : Res (Program K × ℕ) → Res (Program K × ℕ) → Prop
  | .ok (a, n), .ok (b, k) => SameRobot a b ∧ k = n
  | .error e, .error e' => e' = e
  | _, _ => False

theorem pepper_run_same (hq : PepperParameters v q) (hq' : PepperParameters v' q) (hstep : v'.step q = v.step q)
    (hg : o.baseJerkGain ≠ 0 ∧ o.bodyJerkGain ≠ 0) (htr : UnitCircle tr) (hext : TrustedSolver ext) (hext' : TrustedSolver ext')
    (hc : CompleteSolver ext) (hc' : CompleteSolver ext') : ∀ (left n : ℕ) {s s' : Program K} {last last' : Option ℕ} (u u' : ℕ → Memory K)
      {r : Res (Program K × ℕ)}, PepperInv v q o m n s last → PepperInv v' q o m n s' last' → SameRobot s s' →
      ReasonableRobot s.model.robot_parameters s.model.state → s.run v ext tr u left = some r →
      ∃ r', s'.run v' ext' tr u' left = some r' ∧ SameOutcome r r' := by
  have hcont : ∀ n, PepperContinues v' q m n ↔ PepperContinues v q m n := fun n => by unfold PepperContinues; rw [hstep]
  intro left
  induction left with
  | zero => intro n s s' _ _ u u' r _ _ _ _ h; cases h
  | succ left ih =>
    intro n s s' last last' u u' r hI hI' hs hR h
    obtain ⟨P1, P2⟩ := pepper_step hq hext hI (u 0) tr
    obtain ⟨P1', P2'⟩ := pepper_step hq' hext' hI' (u' 0) tr
    unfold Program.run at h ⊢
    by_cases hn : PepperContinues v q m n
    · rcases P2 hn with ⟨a, mpc, hi, hG, hJ, hm⟩ | ⟨hi, mpc, hu, hF⟩
      · rcases P2' ((hcont n).2 hn) with ⟨a', mpc', hi', hG', hJ', hm'⟩ | ⟨hi', mpc', hu', hF'⟩
        · rw [hi] at h
          rw [hi']
          simp only at h ⊢
          have hsame := (pepper_same hq hstep hg htr hR hs hi hi' hG hG').1
          cases hr : a.run v ext tr (fun i => u (i + 1)) left with
          | none => rw [hr] at h; cases h
          | some r1 =>
            obtain ⟨r1', hr', ho⟩ := ih (n + 1) (fun i => u (i + 1)) (fun i => u' (i + 1)) hJ hJ' hsame (pepper_reasonable hq htr hR hG hm) hr
            rw [hr] at h
            rw [hr']
            rcases r1 with e | ⟨b, k⟩ <;> rcases r1' with e' | ⟨b', k'⟩
            · cases h
              exact ⟨_, rfl, ho⟩
            · cases ho
            · cases ho
            · cases h
              exact ⟨_, rfl, ho.1, by rw [ho.2]⟩
        · exfalso
          obtain ⟨_, _, k1, -, k3⟩ := pepper_update hq' hI' (u' 0) tr
          cases hu'.symm.trans k1
          obtain ⟨-, -, -, hH, -, -⟩ := k3 rfl
          exact pepper_not_fails hc' hq.sampling htr (by rw [hs.model]; exact hR) ⟨hs.model.symm, hs.motion.symm⟩ hH hF' hG
      · rcases P2' ((hcont n).2 hn) with ⟨a', mpc', hi', hG', hJ', hm'⟩ | ⟨hi', mpc', hu', hF'⟩
        · exfalso
          obtain ⟨_, _, k1, -, k3⟩ := pepper_update hq hI (u 0) tr
          cases hu.symm.trans k1
          obtain ⟨-, -, -, hH, -, -⟩ := k3 rfl
          exact pepper_not_fails hc hq.sampling htr hR hs hH hF hG'
        · rw [hi] at h
          rw [hi']
          cases h
          exact ⟨_, rfl, rfl⟩
    · rw [P1 hn] at h
      rw [P1' (fun e => hn ((hcont n).1 e))]
      cases h
      exact ⟨_, rfl, hs, rfl⟩

end

/-! ## C107 -/

section
variable {v v' : ProgramKind} {q : MPCParameters} {o : ProblemSetup K} {m : MotionParameters K} {n : ℕ} {s0 s0' s s' : Program K}
  {ext ext' : Qpoases K} {tr : Trig K}

/-- **C107.** The best motion is unique at every iteration, if jerks have a cost: all variables, for every starting mode and memory. -/
theorem C107_unique (hq : PepperParameters v q) (hg : o.baseJerkGain ≠ 0 ∧ o.bodyJerkGain ≠ 0) (htr : UnitCircle tr)
    (hext : TrustedSolver ext) (h0 : PepperStart q o m s0) (hR : ReasonableRobot s0.model.robot_parameters s0.model.state)
    (h : PepperAfter v ext tr s0 n s) {u : Memory K} {mpc : Mpc K}
    (hu : s.mpc.update u.matrices tr u.horizon s.motion s.model = .ok (mpc, .ok)) {x y : ℕ → K}
    (hx : PepperBest o mpc.intervals s.model.getMPCState 0 (PepperModerate mpc.intervals) x)
    (hy : PepperBest o mpc.intervals s.model.getMPCState 0 (PepperModerate mpc.intervals) y) : ∀ i < 4 * mpc.intervals.length, x i = y i := by
  obtain ⟨⟨last, hI⟩, -⟩ := pepper_after_inv hq hext h0 h
  obtain ⟨_, _, k1, -, k3⟩ := pepper_update hq hI u tr
  cases hu.symm.trans k1
  obtain ⟨-, -, -, hH, -, -⟩ := k3 rfl
  exact pepper_unique (horizon_times hH hq.sampling) rfl hg
    (fun z hz => pepper_moderate htr hq.sampling (pepper_after_reasonable hq hext htr h0 hR h) hH hz) hx hy

/-- **C107.** Two programs begin with the same robot, motion and parameters. They may make different guesses, call different solvers, and
have anything in memory; the iterations advance by the same time. After the same number of iterations the robot is in the same state, the
same motion remains, and the last solutions are equal. -/
theorem C107_same (hq : PepperParameters v q) (hq' : PepperParameters v' q) (hstep : v'.step q = v.step q)
    (hg : o.baseJerkGain ≠ 0 ∧ o.bodyJerkGain ≠ 0) (htr : UnitCircle tr) (hext : TrustedSolver ext) (hext' : TrustedSolver ext')
    (h0 : PepperStart q o m s0) (h0' : PepperStart q o m s0') (hm : s0'.model = s0.model)
    (hR : ReasonableRobot s0.model.robot_parameters s0.model.state) (h : PepperAfter v ext tr s0 n s) (h' : PepperAfter v' ext' tr s0' n s') :
    SameRobot s s' ∧ (0 < n → s'.solution.x = s.solution.x) := by
  induction n generalizing s s' with
  | zero =>
    cases h
    cases h'
    exact ⟨⟨hm, h0'.motion.trans h0.motion.symm⟩, fun e => absurd e (lt_irrefl _)⟩
  | succ n ih =>
    obtain _ | @⟨_, a, _, u, ha, hs⟩ := h
    obtain _ | @⟨_, a', _, u', ha', hs'⟩ := h'
    obtain ⟨hw, -⟩ := ih ha ha'
    obtain ⟨mpc, hG, -⟩ := pepper_made hq hext h0 ha hs
    obtain ⟨mpc', hG', -⟩ := pepper_made hq' hext' h0' ha' hs'
    obtain ⟨h1, h2⟩ := pepper_same hq hstep hg htr (pepper_after_reasonable hq hext htr h0 hR ha) hw hs hs' hG hG'
    exact ⟨h1, fun _ => h2⟩

/-- **C107.** If both solvers solve all feasible problems, then the programs have the same outcome for every contents of the memory, for
motions with and without a duration: either both are stopped by an exception, or both make the same number of iterations and leave the robot
in the same state, or none of them terminates. -/
theorem C107_outcome (hq : PepperParameters v q) (hq' : PepperParameters v' q) (hstep : v'.step q = v.step q)
    (hg : o.baseJerkGain ≠ 0 ∧ o.bodyJerkGain ≠ 0) (htr : UnitCircle tr) (hext : TrustedSolver ext) (hext' : TrustedSolver ext')
    (hc : CompleteSolver ext) (hc' : CompleteSolver ext') (h0 : PepperStart q o m s0) (h0' : PepperStart q o m s0')
    (hm : s0'.model = s0.model) (hR : ReasonableRobot s0.model.robot_parameters s0.model.state) (u u' : ℕ → Memory K) :
    (∃ s s' k, PepperReturns v ext tr u s0 (.ok (s, k)) ∧ PepperReturns v' ext' tr u' s0' (.ok (s', k)) ∧ SameRobot s s') ∨
    (PepperReturns v ext tr u s0 (.error .thrown) ∧ PepperReturns v' ext' tr u' s0' (.error .thrown)) ∨
    ((∀ r, ¬ PepperReturns v ext tr u s0 r) ∧ ∀ r, ¬ PepperReturns v' ext' tr u' s0' r) := by
  have hsame : SameRobot s0 s0' := ⟨hm, h0'.motion.trans h0.motion.symm⟩
  by_cases hr : ∃ r, PepperReturns v ext tr u s0 r
  · obtain ⟨r, left, h⟩ := hr
    obtain ⟨r', h', ho⟩ := pepper_run_same hq hq' hstep hg htr hext hext' hc hc' left 0 u u' (pepper_start h0) (pepper_start h0') hsame hR h
    rcases r with e | ⟨a, k⟩ <;> rcases r' with e' | ⟨a', k'⟩
    · right; left
      have ho : e' = e := ho
      subst ho
      have : e' = .thrown := by
        rcases h0.proper with hun | ⟨hd, -⟩
        · exact Except.error.inj (C87_unlimited hq hext h0 hun u ⟨left, h⟩).1
        · obtain ⟨r, -, hu, hr⟩ := C87_run (tr := tr) hq hext h0 (d := m.duration_ms.toNat) (by omega) u
          have := hu _ ⟨left, h⟩
          rcases hr with ⟨_, rfl, -⟩ | ⟨rfl, -⟩
          · cases this
          · exact Except.error.inj this
      subst this
      exact ⟨⟨left, h⟩, ⟨left, h'⟩⟩
    · cases ho
    · cases ho
    · left
      obtain ⟨h1, rfl⟩ := ho
      exact ⟨a, a', _, ⟨left, h⟩, ⟨left, h'⟩, h1⟩
  · right; right
    refine ⟨fun r h => hr ⟨r, h⟩, fun r h => ?_⟩
    obtain ⟨left, h⟩ := h
    obtain ⟨r', h', -⟩ := pepper_run_same hq' hq hstep.symm hg htr hext' hext hc' hc left 0 u' u (pepper_start h0') (pepper_start h0)
      ⟨hsame.model.symm, hsame.motion.symm⟩ (by rw [hm]; exact hR) h
    exact hr ⟨r', left, h'⟩

end

/-! ### The hypotheses are met -/

theorem real_circle : UnitCircle (⟨Real.cos, Real.sin⟩ : Trig ℝ) := fun t => Real.cos_sq_add_sin_sq t

theorem standing_reasonable : ReasonableRobot (standingModel K).robot_parameters (standingModel K).state := by
  have h : ∀ a b, |boundsOf (1 : K) a b| ≤ 10 ^ 6 := by
    intro a b
    fin_cases a <;> fin_cases b <;> norm_num [boundsOf]
  refine ⟨h, h, h, h, ?_, ?_, fun a => ?_⟩
  · norm_num [standingModel, ModelState.setParameters]
  · show (1 : K) / 1000 ≤ 2 ∧ |(1 : K)| ≤ 1000
    norm_num
  · fin_cases a <;> norm_num [standingModel, ModelState.setParameters, defaultPointMass]

/-- The default state of the robot is reasonable, too. -/
theorem default_reasonable : ReasonableRobot (standingModel K).robot_parameters ModelState.default := by
  obtain ⟨h1, h2, h3, h4, -, -, -⟩ := standing_reasonable (K := K)
  refine ⟨h1, h2, h3, h4, ?_, ?_, fun a => ?_⟩
  · show (0 : K) < 123389 / 10000 ∧ (0 : K) ≤ 1634234 / 100000 ∧ (1634234 / 100000 : K) ≤ 1000 * (123389 / 10000)
    norm_num
  · show (1 : K) / 1000 ≤ 750001340031501 / 10 ^ 15 ∧ |(125564931735602 / 10 ^ 15 : K)| ≤ 1000
    rw [abs_of_nonneg (by positivity)]
    norm_num
  · have : |(0 : K)| ≤ 10 ^ 16 := by norm_num
    fin_cases a <;> exact this

/-- The robot is asked to move with a constant velocity while it turns. All pairs of programs which advance by the same time end in the same
way, with solvers which begin and proceed differently, and with anything in memory. -/
example (v v' : ProgramKind) (hv : v'.subsampling = v.subsampling) (u u' : ℕ → Memory ℝ) (ext' : Qpoases ℝ) (h3 : TrustedSolver ext')
    (h4 : CompleteSolver ext') : ∃ (ext : Qpoases ℝ) (s0 : Program ℝ), TrustedSolver ext ∧ CompleteSolver ext ∧
    PepperStart ⟨15, 100, 5⟩ ⟨.maintainVelocity, 1, 1, 1, 1, 1⟩ ⟨![1, 0], 0, 1, 9900, .maintainVelocity⟩ s0 ∧
    ((∃ s s' k, PepperReturns v ext ⟨Real.cos, Real.sin⟩ u s0 (.ok (s, k)) ∧ PepperReturns v' ext' ⟨Real.cos, Real.sin⟩ u' s0 (.ok (s', k)) ∧
      SameRobot s s') ∨
    (PepperReturns v ext ⟨Real.cos, Real.sin⟩ u s0 (.error .thrown) ∧ PepperReturns v' ext' ⟨Real.cos, Real.sin⟩ u' s0 (.error .thrown))) := by
  obtain ⟨ext, h1, h2⟩ := exists_solver
  have hq : ∀ v : ProgramKind, PepperParameters v ⟨15, 100, 5⟩ := by
    intro v
    refine ⟨by norm_num, by norm_num, by norm_num, ?_, fun _ => .inl (by norm_num)⟩
    unfold ProgramKind.step
    split <;> norm_num
  obtain ⟨s0, h0, hs⟩ := standing_program (K := ℝ) ⟨15, 100, 5⟩ (o := ⟨.maintainVelocity, 1, 1, 1, 1, 1⟩) (by simp)
    (m := ⟨![1, 0], 0, 1, 9900, .maintainVelocity⟩) (.inr (by norm_num))
  refine ⟨ext, s0, h1, h2, h0, ?_⟩
  rcases C107_outcome (hq v) (hq v') (by unfold ProgramKind.step; rw [hv]) ⟨one_ne_zero, one_ne_zero⟩ real_circle h1 h3 h2 h4 h0 h0 rfl
    (by rw [hs]; exact standing_reasonable) u u' with h | h | ⟨h, -⟩
  · exact .inl h
  · exact .inr h
  · obtain ⟨r, hr, -⟩ := C87_run (tr := ⟨Real.cos, Real.sin⟩) (hq v) h1 h0 (d := 9900) rfl u
    exact absurd hr (h r)

end Humoto.Pepper
