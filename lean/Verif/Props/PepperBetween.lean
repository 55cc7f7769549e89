import Verif.Props.PepperProgram
import Verif.Spec.PepperBetween
import Verif.Spec.PepperHotstart

/-!
# C113: Pepper between iterations
-/

namespace Humoto.Pepper

open Spec Bridge

variable {K : Type} [Field K] [LinearOrder K] [IsStrictOrderedRing K]

/-! ### Chords -/

theorem product_quarter {T t : K} : t * (T - t) ≤ T ^ 2 / 4 := by nlinarith [sq_nonneg (T - 2 * t)]

/-- A polynomial of the second degree differs from its chord by an eighth of its second derivative. -/
theorem chord_velocity {T t v a j v' a' l u al au : K} (hT : 0 < T) (h0 : 0 ≤ t) (h1 : t ≤ T) (hv : v' = velocityAt v a j T)
    (ha : a' = accelerationAt a j T) (hl : l ≤ v) (hu : v ≤ u) (hl' : l ≤ v') (hu' : v' ≤ u) (b1 : al ≤ a) (b2 : a ≤ au) (b1' : al ≤ a')
    (b2' : a' ≤ au) : l - T / 8 * (au - al) ≤ velocityAt v a j t ∧ velocityAt v a j t ≤ u + T / 8 * (au - al) := by
  unfold velocityAt accelerationAt at *
  have hq := product_quarter (T := T) (t := t)
  have hp : 0 ≤ t * (T - t) := mul_nonneg h0 (by linarith)
  have e : T * (v + a * t + j * t ^ 2 / 2) = (T - t) * v + t * v' - (T * j) * (t * (T - t)) / 2 := by
    rw [hv]; ring
  have hj1 : T * j ≤ au - al := by linarith [mul_comm T j]
  have hj2 : -(au - al) ≤ T * j := by linarith [mul_comm T j]
  have hd : 0 ≤ au - al := by linarith
  have k1 : (T * j) * (t * (T - t)) ≤ (au - al) * (T ^ 2 / 4) :=
    (mul_le_mul_of_nonneg_right hj1 hp).trans (mul_le_mul_of_nonneg_left hq hd)
  have k2 : -((au - al) * (T ^ 2 / 4)) ≤ (T * j) * (t * (T - t)) := by
    have := mul_le_mul_of_nonneg_right hj2 hp
    have := mul_le_mul_of_nonneg_left hq hd
    linarith
  have m1 := mul_le_mul_of_nonneg_left hl (sub_nonneg.2 h1)
  have m2 := mul_le_mul_of_nonneg_left hu (sub_nonneg.2 h1)
  have m3 := mul_le_mul_of_nonneg_left hl' h0
  have m4 := mul_le_mul_of_nonneg_left hu' h0
  constructor
  · refine le_of_mul_le_mul_left ?_ hT
    rw [e]
    nlinarith
  · refine le_of_mul_le_mul_left ?_ hT
    rw [e]
    nlinarith

theorem chord_acceleration {T t a j a' al au : K} (hT : 0 < T) (h0 : 0 ≤ t) (h1 : t ≤ T) (ha : a' = accelerationAt a j T)
    (b1 : al ≤ a) (b2 : a ≤ au) (b1' : al ≤ a') (b2' : a' ≤ au) : al ≤ accelerationAt a j t ∧ accelerationAt a j t ≤ au := by
  unfold accelerationAt at *
  have e : T * (a + j * t) = (T - t) * a + t * a' := by rw [ha]; ring
  have m1 := mul_le_mul_of_nonneg_left b1 (sub_nonneg.2 h1)
  have m2 := mul_le_mul_of_nonneg_left b2 (sub_nonneg.2 h1)
  have m3 := mul_le_mul_of_nonneg_left b1' h0
  have m4 := mul_le_mul_of_nonneg_left b2' h0
  constructor
  · refine le_of_mul_le_mul_left ?_ hT
    rw [e]
    linarith
  · refine le_of_mul_le_mul_left ?_ hT
    rw [e]
    linarith

/-- The same if the beginning is not within the bounds. -/
theorem chord_velocity_part {T t v a j v' a' l u al au x : K} (hT : 0 < T) (h0 : 0 ≤ t) (h1 : t ≤ T) (hv : v' = velocityAt v a j T)
    (ha : a' = accelerationAt a j T) (hl : l - x ≤ v) (hu : v ≤ u + x) (hl' : l ≤ v') (hu' : v' ≤ u) (b1 : al ≤ a) (b2 : a ≤ au)
    (b1' : al ≤ a') (b2' : a' ≤ au) :
    T * l - ((T - t) * x + t * (T - t) / 2 * (au - al)) ≤ T * velocityAt v a j t ∧
      T * velocityAt v a j t ≤ T * u + ((T - t) * x + t * (T - t) / 2 * (au - al)) := by
  unfold velocityAt accelerationAt at *
  have hp : 0 ≤ t * (T - t) := mul_nonneg h0 (by linarith)
  have e : T * (v + a * t + j * t ^ 2 / 2) = (T - t) * v + t * v' - (T * j) * (t * (T - t)) / 2 := by
    rw [hv]; ring
  have hj1 : T * j ≤ au - al := by linarith [mul_comm T j]
  have hj2 : -(au - al) ≤ T * j := by linarith [mul_comm T j]
  have k1 := mul_le_mul_of_nonneg_right hj1 hp
  have k2 := mul_le_mul_of_nonneg_right hj2 hp
  have m1 := mul_le_mul_of_nonneg_left hl (sub_nonneg.2 h1)
  have m2 := mul_le_mul_of_nonneg_left hu (sub_nonneg.2 h1)
  have m3 := mul_le_mul_of_nonneg_left hl' h0
  have m4 := mul_le_mul_of_nonneg_left hu' h0
  rw [e]
  constructor
  · nlinarith
  · nlinarith

/-- A polynomial of the third degree differs from its chord by an eighth of the greatest second derivative. -/
theorem chord_cubic {T t z0 z1 z A B l u r : K} (hT : 0 < T) (h0 : 0 ≤ t) (h1 : t ≤ T) (hA : |A| ≤ r) (hB : |B| ≤ r)
    (hz : T * z = (T - t) * z0 + t * z1 - t * (T - t) / 6 * (A * (2 * T - t) + B * (T + t))) (hl : l ≤ z0) (hu : z0 ≤ u) (hl' : l ≤ z1)
    (hu' : z1 ≤ u) : l - T ^ 2 / 8 * r ≤ z ∧ z ≤ u + T ^ 2 / 8 * r := by
  have hq := product_quarter (T := T) (t := t)
  have hp : 0 ≤ t * (T - t) := mul_nonneg h0 (by linarith)
  have hr : 0 ≤ r := (abs_nonneg A).trans hA
  obtain ⟨a1, a2⟩ := abs_le.1 hA
  obtain ⟨c1, c2⟩ := abs_le.1 hB
  have n1 := mul_le_mul_of_nonneg_right a2 (by linarith : 0 ≤ 2 * T - t)
  have n2 := mul_le_mul_of_nonneg_right a1 (by linarith : 0 ≤ 2 * T - t)
  have n3 := mul_le_mul_of_nonneg_right c2 (by linarith : 0 ≤ T + t)
  have n4 := mul_le_mul_of_nonneg_right c1 (by linarith : 0 ≤ T + t)
  have s1 : A * (2 * T - t) + B * (T + t) ≤ 3 * T * r := by nlinarith
  have s2 : -(3 * T * r) ≤ A * (2 * T - t) + B * (T + t) := by nlinarith
  generalize A * (2 * T - t) + B * (T + t) = S at *
  have hTr : 0 ≤ 3 * T * r := by positivity
  have k1 : t * (T - t) / 6 * S ≤ T ^ 2 / 4 / 6 * (3 * T * r) :=
    (mul_le_mul_of_nonneg_left s1 (by linarith)).trans (mul_le_mul_of_nonneg_right (by linarith) hTr)
  have k2 : -(T ^ 2 / 4 / 6 * (3 * T * r)) ≤ t * (T - t) / 6 * S := by
    have i1 := mul_le_mul_of_nonneg_left s2 (by linarith : 0 ≤ t * (T - t) / 6)
    have i2 := mul_le_mul_of_nonneg_right (by linarith : t * (T - t) / 6 ≤ T ^ 2 / 4 / 6) hTr
    linarith
  have m1 := mul_le_mul_of_nonneg_left hl (sub_nonneg.2 h1)
  have m2 := mul_le_mul_of_nonneg_left hu (sub_nonneg.2 h1)
  have m3 := mul_le_mul_of_nonneg_left hl' h0
  have m4 := mul_le_mul_of_nonneg_left hu' h0
  constructor
  · refine le_of_mul_le_mul_left ?_ hT
    rw [hz]
    nlinarith
  · refine le_of_mul_le_mul_left ?_ hT
    rw [hz]
    nlinarith

section
variable {T t : K} {s s' y : ModelState K}

theorem _root_.Humoto.Spec.OnTheWay.acceleration {b : Fin 2 → Fin 2 → K} (hT : 0 < T) (h0 : 0 ≤ t) (h1 : t ≤ T) (h : OnTheWay T t s s' y)
    (hs : WithinBounds b fun a => s.base_state.acceleration a.castSucc) (hs' : WithinBounds b fun a => s'.base_state.acceleration a.castSucc) :
    WithinBounds b fun a => y.base_state.acceleration a.castSucc := by
  intro a
  obtain ⟨j, ⟨-, -, e1⟩, -, -, e2⟩ := h.base a
  have := chord_acceleration hT h0 h1 e1 (hs a).1 (hs a).2 (hs' a).1 (hs' a).2
  rw [← e2] at this
  exact this

theorem _root_.Humoto.Spec.OnTheWay.velocity {b c : Fin 2 → Fin 2 → K} (hT : 0 < T) (h0 : 0 ≤ t) (h1 : t ≤ T) (h : OnTheWay T t s s' y)
    (hs : WithinBounds b fun a => s.base_state.acceleration a.castSucc) (hs' : WithinBounds b fun a => s'.base_state.acceleration a.castSucc)
    (hv : WithinBounds c fun a => s.base_state.velocity a.castSucc) (hv' : WithinBounds c fun a => s'.base_state.velocity a.castSucc) :
    AlmostWithin c (fun a => T / 8 * (b a 1 - b a 0)) fun a => y.base_state.velocity a.castSucc := by
  intro a
  obtain ⟨j, ⟨-, e0, e1⟩, -, e2, -⟩ := h.base a
  have := chord_velocity hT h0 h1 e0 e1 (hv a).1 (hv a).2 (hv' a).1 (hv' a).2 (hs a).1 (hs a).2 (hs' a).1 (hs' a).2
  rw [← e2] at this
  exact this

theorem _root_.Humoto.Spec.OnTheWay.pressure {b : Fin 2 → Fin 2 → K} {r : Fin 2 → K} (hT : 0 < T) (h0 : 0 ≤ t) (h1 : t ≤ T) (h : OnTheWay T t s s' y)
    (hp : SameParts s s') (hm : 0 < s.base_mass + s.body_mass) (hm' : 0 ≤ s.body_mass)
    (hs : WithinBounds b fun a => centreOfPressure s a.castSucc) (hs' : WithinBounds b fun a => centreOfPressure s' a.castSucc)
    (hr : ∀ a, |relativeAcceleration s a| ≤ r a ∧ |relativeAcceleration s' a| ≤ r a) :
    AlmostWithin b (fun a => T ^ 2 / 8 * (s.body_mass / (s.base_mass + s.body_mass) * r a)) fun a => centreOfPressure y a.castSucc := by
  intro a
  obtain ⟨j, ⟨p1, -, p3⟩, q1, -, q3⟩ := h.base a
  obtain ⟨d, ⟨x1, -, x3⟩, y1, -, y3⟩ := h.body a
  obtain ⟨r1, r2⟩ := hr a
  have hmu : 0 ≤ s.body_mass / (s.base_mass + s.body_mass) := div_nonneg hm' hm.le
  refine chord_cubic (A := s.body_mass / (s.base_mass + s.body_mass) * relativeAcceleration s a)
    (B := s.body_mass / (s.base_mass + s.body_mass) * relativeAcceleration s' a) hT h0 h1 ?_ ?_ ?_ (hs a).1 (hs a).2 (hs' a).1 (hs' a).2
  · rw [abs_mul, abs_of_nonneg hmu]
    exact mul_le_mul_of_nonneg_left r1 hmu
  · rw [abs_mul, abs_of_nonneg hmu]
    exact mul_le_mul_of_nonneg_left r2 hmu
  · simp only [centreOfPressure, relativeAcceleration, h.heights.1, h.heights.2, h.masses.1, h.masses.2, hp.heights.1, hp.heights.2, hp.masses.1,
      hp.masses.2]
    rw [p1, p3, q1, q3, x1, x3, y1, y3]
    unfold positionAt accelerationAt
    have hM := hm.ne'
    field_simp
    ring

end

/-! ### States which are reported after an iteration -/

section
variable {v : ProgramKind} {q : MPCParameters} {o : ProblemSetup K} {m : MotionParameters K} {n : ℕ} {s0 s s' : Program K}
  {ext : Qpoases K} {tr : Trig K} {u : Memory K}

theorem advance_parsed (h : s.advance v = .ok s') : s.mpc.parseSolution s.solution = .ok s'.mpc ∧ s'.solution = s.solution := by
  unfold Program.advance at h
  obtain ⟨⟨c, st⟩, h1, h2⟩ := bind_eq_ok.1 h
  cases h2
  refine ⟨?_, rfl⟩
  split at h1
  · obtain ⟨c', h3, h4⟩ := bind_eq_ok.1 h1
    obtain ⟨st', -, h6⟩ := bind_eq_ok.1 h4
    cases h6
    exact h3
  · unfold Mpc.parseAndGetNextModelState at h1
    obtain ⟨-, -, h1⟩ := bind_eq_ok.1 h1
    obtain ⟨c', h3, h4⟩ := bind_eq_ok.1 h1
    obtain ⟨st', -, h6⟩ := bind_eq_ok.1 h4
    cases h6
    exact h3

/-- After an iteration the controller reports the motion during its first interval. -/
theorem pepper_reports (hq : PepperParameters v q) (hext : TrustedSolver ext) (h0 : PepperStart q o m s0) (h : PepperAfter v ext tr s0 n s)
    (hs : s.iterate v ext tr u = .ok (some s')) :
    ∃ mpc, PepperIteration v tr q o u s mpc s' ∧
      (s'.model.state.base_mass = 1634234 / 100000 ∧ s'.model.state.body_mass = 123389 / 10000) ∧
      ∀ t : K, 0 ≤ t → t ≤ (q.sampling_time_ms : K) / 1000 → ∃ y iv, s'.mpc.getModelState s.model t = .ok y ∧
        (y.base_mass = 1634234 / 100000 ∧ y.body_mass = 123389 / 10000) ∧ mpc.intervals[0]? = some iv ∧
        StateWithin iv (s.model.state.base_state.rpy 2) t s.model.getMPCState (controlAt mpc.intervals.length (Spec.entries s'.solution.x) 0) y := by
  obtain ⟨⟨last, hI⟩, -⟩ := pepper_after_inv hq hext h0 h
  obtain ⟨mpc, hG, hm⟩ := pepper_made hq hext h0 h hs
  refine ⟨mpc, hG, hm, fun t ht0 ht1 => ?_⟩
  obtain ⟨mpc', st, hu, -, hok⟩ := pepper_update hq hI u tr
  cases hG.update.symm.trans hu
  obtain ⟨hpar, hflag, -, hH, hC, hU⟩ := hok rfl
  have hl : mpc.intervals.length = q.preview_horizon_length := hH.1
  have hTm : ∀ iv ∈ mpc.intervals, iv.T = (q.sampling_time_ms : K) / 1000 := by
    intro iv hiv
    obtain ⟨i, hi⟩ := List.getElem?_of_mem hiv
    obtain ⟨_, _, -, -, h⟩ := hH.2 i iv hi
    exact h.duration
  have hpos : (0 : K) < (q.sampling_time_ms : K) / 1000 := by
    have : (0 : K) < q.sampling_time_ms := by exact_mod_cast hq.sampling
    positivity
  have hT : ∀ iv ∈ mpc.intervals, iv.T ≠ 0 := fun iv hiv => by rw [hTm iv hiv]; exact hpos.ne'
  have hN : 0 < mpc.intervals.length := hl ▸ hq.horizon
  have hiv : mpc.intervals[0]? = some mpc.intervals[0] := List.getElem?_eq_getElem hN
  generalize mpc.intervals[0] = iv at hiv
  unfold Program.iterate at hs
  obtain ⟨⟨mpc2, st2, m2⟩, e1, hs⟩ := bind_eq_ok.1 hs
  unfold Mpc.updateAndShift at e1
  rw [hu, ok_bind] at e1
  simp only [if_true] at e1
  cases e1
  simp only [if_true] at hs
  obtain ⟨s1, e2, hs⟩ := bind_eq_ok.1 hs
  obtain ⟨s2, e3, hs⟩ := bind_eq_ok.1 hs
  cases hs
  rcases pepper_solve hq hext hI hpar hl hU (u := u) (shiftSingle mpc.parameters s.motion (v.step s.mpc.parameters)) with ⟨s3, es, hS⟩ | ⟨es, -⟩
  · cases es.symm.trans e2
    obtain ⟨p1, p2⟩ := advance_parsed e3
    have hX := simulation_simulates hT (x0 := s.model.getMPCState) rfl (Spec.entries s1.solution.x)
    rw [hS.controller] at p1
    obtain ⟨c, e, hP, i1, i2, -, i4⟩ := C71_profiles hC hS.solution hX
    cases e.symm.trans p1
    have hd : ∀ iv ∈ s'.mpc.intervals, 0 ≤ iv.T := by
      intro iv hiv
      rw [i1] at hiv
      rw [hTm iv hiv]
      exact hpos.le
    rw [← i1] at hP hX hiv
    obtain ⟨y, ey, hy⟩ := modelStateAt_ok hP hX (by rw [i2, hpar, i1, hl]) hiv (hT iv (by rw [← i1]; exact List.mem_of_getElem? hiv))
      (prev := s.model.state.base_state.rpy 2) rfl t
    refine ⟨y, iv, ?_, modelStateAt_masses ey, by rw [← i1]; exact hiv, ?_⟩
    · have hoff : intervalByOffset 0 s'.mpc.intervals t = .ok (0, t) := by
        refine ((C58_seconds_partial s'.mpc.intervals t hd ht0).1 0 t).2 ⟨?_, ?_, ht0, ?_, fun j hj => absurd hj (by omega)⟩
        · rw [List.length_map, i1]; exact hN
        · simp [startOf]
        · obtain ⟨l, hl⟩ : ∃ l, s'.mpc.intervals = iv :: l := by
            cases hci : s'.mpc.intervals with
            | nil => rw [hci] at hiv; cases hiv
            | cons a l => rw [hci] at hiv; cases hiv; exact ⟨l, rfl⟩
          have : iv.T = (q.sampling_time_ms : K) / 1000 := hTm iv (by rw [← i1]; exact List.mem_of_getElem? hiv)
          rw [hl]
          simpa [startOf, this] using ht1
      unfold Mpc.getModelState
      rw [assertThat_true i4, ok_bind, hoff, ok_bind]
      exact ey
    · rw [p2]
      rw [i1] at hy
      exact hy
  · cases es.symm.trans e2

theorem within_way {iv : Interval K} {prev T t : K} {st : Model K} {c : Vec K} {a b : ModelState K} (hT : iv.T ≠ 0)
    (ha : StateWithin iv prev T st.getMPCState c a) (hb : StateWithin iv prev t st.getMPCState c b)
    (hm : b.base_mass = a.base_mass ∧ b.body_mass = a.body_mass) : OnTheWay T t st.state a b := by
  refine ⟨fun i => ?_, fun i => ?_, ⟨by rw [ha.base_height, hb.base_height], by rw [ha.body_height, hb.body_height]⟩, hm⟩
  · have e1 := PepperStep.eq hT ha.motion (k := i) (by omega)
    have e2 := PepperStep.eq hT hb.motion (k := i) (by omega)
    refine ⟨stepJerk iv.T st.getMPCState c i, ?_⟩
    fin_cases i
    · exact ⟨e1, e2⟩
    · exact ⟨e1, e2⟩
  · have e1 := PepperStep.eq hT ha.motion (k := i + 2) (by omega)
    have e2 := PepperStep.eq hT hb.motion (k := i + 2) (by omega)
    refine ⟨stepJerk iv.T st.getMPCState c (i + 2), ?_⟩
    fin_cases i
    · exact ⟨e1, e2⟩
    · exact ⟨e1, e2⟩

/-- **C113.** After an iteration which advances by an interval, the controller reports for each time of this interval the state in which the
robot is on its way to the new state: it moves with constant jerks. -/
theorem C113_reported (hq : PepperParameters v q) (hext : TrustedSolver ext) (h0 : PepperStart q o m s0) (hstep : v.step q = q.sampling_time_ms)
    (h : PepperAfter v ext tr s0 n s) (hs : s.iterate v ext tr u = .ok (some s')) {t : K} (ht0 : 0 ≤ t)
    (ht1 : t ≤ (q.sampling_time_ms : K) / 1000) :
    ∃ y, s'.mpc.getModelState s.model t = .ok y ∧ OnTheWay ((q.sampling_time_ms : K) / 1000) t s.model.state s'.model.state y := by
  obtain ⟨mpc, hG, hm, hr⟩ := pepper_reports hq hext h0 h hs
  obtain ⟨y, iv, e, hy, hiv, hw⟩ := hr t ht0 ht1
  obtain ⟨iv', hiv', hw'⟩ := hG.moves
  cases hiv.symm.trans hiv'
  rw [hstep] at hw'
  exact ⟨y, e, within_way (horizon_times hG.horizon hq.sampling iv (List.mem_of_getElem? hiv)) hw' hw
    ⟨hy.1.trans hm.1.symm, hy.2.trans hm.2.symm⟩⟩

/-- **C113.** In all states which are reported for an iteration (but for the first one), the acceleration of the base is within its bounds,
and the velocity leaves its bounds by at most an eighth of the interval times the range of the acceleration. -/
theorem C113_base (hq : PepperParameters v q) (hext : TrustedSolver ext) (h0 : PepperStart q o m s0) (hstep : v.step q = q.sampling_time_ms)
    (h : PepperAfter v ext tr s0 (n + 1) s) (hs : s.iterate v ext tr u = .ok (some s')) {t : K} (ht0 : 0 ≤ t)
    (ht1 : t ≤ (q.sampling_time_ms : K) / 1000) {y : ModelState K} (hy : s'.mpc.getModelState s.model t = .ok y) :
    WithinBounds s0.model.robot_parameters.nominal_base_acceleration_bounds (fun a => y.base_state.acceleration a.castSucc) ∧
    AlmostWithin s0.model.robot_parameters.nominal_base_velocity_bounds
      (fun a => (q.sampling_time_ms : K) / 1000 / 8 * (s0.model.robot_parameters.nominal_base_acceleration_bounds a 1 -
        s0.model.robot_parameters.nominal_base_acceleration_bounds a 0)) fun a => y.base_state.velocity a.castSucc := by
  obtain ⟨y', e, hw⟩ := C113_reported hq hext h0 hstep h hs ht0 ht1
  cases e.symm.trans hy
  have hpos : (0 : K) < (q.sampling_time_ms : K) / 1000 := by
    have : (0 : K) < q.sampling_time_ms := by exact_mod_cast hq.sampling
    positivity
  have b1 := C87_safe hq hext h0 hstep h
  have b2 := C87_safe hq hext h0 hstep (.step h hs)
  exact ⟨hw.acceleration hpos ht0 ht1 b1.acceleration b2.acceleration,
    hw.velocity hpos ht0 ht1 b1.acceleration b2.acceleration b1.velocity b2.velocity⟩

/-- **C113.** In all states which are reported for an iteration (but for the first two), the centre of pressure leaves its bounds by at most
an eighth of the square of the interval times the share of the body in the mass times the greatest relative acceleration of the body at the
ends of the iteration. -/
theorem C113_cop (hq : PepperParameters v q) (hext : TrustedSolver ext) (h0 : PepperStart q o m s0) (hstep : v.step q = q.sampling_time_ms)
    (hm : 0 < n ∨ s0.model.state.base_mass = 1634234 / 100000 ∧ s0.model.state.body_mass = 123389 / 10000)
    (h : PepperAfter v ext tr s0 (n + 1) s) (hs : s.iterate v ext tr u = .ok (some s')) {t : K} (ht0 : 0 ≤ t)
    (ht1 : t ≤ (q.sampling_time_ms : K) / 1000) {y : ModelState K} (hy : s'.mpc.getModelState s.model t = .ok y) :
    AlmostWithin s0.model.robot_parameters.cop_bounds
      (fun a => ((q.sampling_time_ms : K) / 1000) ^ 2 / 8 * (s.model.state.body_mass / (s.model.state.base_mass + s.model.state.body_mass) *
        max |relativeAcceleration s.model.state a| |relativeAcceleration s'.model.state a|))
      fun a => centreOfPressure y a.castSucc := by
  obtain ⟨y', e, hw⟩ := C113_reported hq hext h0 hstep h hs ht0 ht1
  cases e.symm.trans hy
  have hpos : (0 : K) < (q.sampling_time_ms : K) / 1000 := by
    have : (0 : K) < q.sampling_time_ms := by exact_mod_cast hq.sampling
    positivity
  have hma : s.model.state.base_mass = 1634234 / 100000 ∧ s.model.state.body_mass = 123389 / 10000 := by
    cases h with
    | step h' hs' => exact (pepper_made hq hext h0 h' hs').choose_spec.2
  obtain ⟨mpc, hG, hms⟩ := pepper_made hq hext h0 h hs
  obtain ⟨iv, hiv, hw'⟩ := hG.moves
  obtain ⟨_, _, -, -, hif⟩ := hG.horizon.2 0 iv hiv
  refine hw.pressure hpos ht0 ht1 ⟨⟨?_, ?_⟩, ⟨?_, ?_⟩⟩ ?_ ?_ (C87_cop hq hext h0 hstep hm h) (C87_cop hq hext h0 hstep (.inl n.succ_pos) (.step h hs))
    fun a => ⟨le_max_left _ _, le_max_right _ _⟩
  · rw [hw'.base_height, hif.base_height]
  · rw [hw'.body_height, hif.body_height]
  · rw [hms.1, hma.1]
  · rw [hms.2, hma.2]
  · rw [hma.1, hma.2]; norm_num
  · rw [hma.2]; norm_num

/-- The state which is reported for the end of the interval is within the bounds on the base. -/
theorem pepper_end (hq : PepperParameters v q) (hext : TrustedSolver ext) (h0 : PepperStart q o m s0) (h : PepperAfter v ext tr s0 n s)
    (hs : s.iterate v ext tr u = .ok (some s')) :
    ∃ e, s'.mpc.getModelState s.model ((q.sampling_time_ms : K) / 1000) = .ok e ∧
      WithinBounds s0.model.robot_parameters.nominal_base_velocity_bounds (fun a => e.base_state.velocity a.castSucc) ∧
      WithinBounds s0.model.robot_parameters.nominal_base_acceleration_bounds (fun a => e.base_state.acceleration a.castSucc) ∧
      OnTheWay ((q.sampling_time_ms : K) / 1000) ((v.step q : K) / 1000) s.model.state e s'.model.state ∧
      ∀ t : K, 0 ≤ t → t ≤ (q.sampling_time_ms : K) / 1000 → ∃ y, s'.mpc.getModelState s.model t = .ok y ∧
        OnTheWay ((q.sampling_time_ms : K) / 1000) t s.model.state e y := by
  have hpos : (0 : K) < (q.sampling_time_ms : K) / 1000 := by
    have : (0 : K) < q.sampling_time_ms := by exact_mod_cast hq.sampling
    positivity
  obtain ⟨mpc, hG, hm, hr⟩ := pepper_reports hq hext h0 h hs
  obtain ⟨-, hpar⟩ := pepper_after_inv hq hext h0 h
  obtain ⟨iv, X, hiv, hT, hT0, hX, -, -, h2⟩ := iteration_vec hq hG
  obtain ⟨e, iv', ee, hme, hiv', hw⟩ := hr _ hpos.le le_rfl
  cases hiv.symm.trans hiv'
  obtain ⟨_, _, -, -, hif⟩ := hG.horizon.2 0 iv hiv
  obtain ⟨hA, -⟩ := hG.best X hX
  have hB := hA.acceleration 0 iv hiv
  have hV := hA.velocity 0 iv hiv
  rw [hif.acceleration_bounds, hpar] at hB
  rw [hif.velocity_bounds, hpar] at hV
  rw [hT] at h2
  have hw1 := hw.motion
  rw [hT] at hw1
  refine ⟨e, ee, fun a => ?_, fun a => ?_, ?_, fun t ht0 ht1 => ?_⟩
  · have e1 := (PepperStep.eq hpos.ne' hw1 (k := a) (by omega)).2.1
    have e2 := (PepperStep.eq hpos.ne' h2 (k := a) (by omega)).2.1
    have := hV a
    have hx : velocityQuantity iv (X 0) (X (0 + 1)) a = (X 1).e (3 * a + 1) := rfl
    rw [hx, e2, ← e1] at this
    fin_cases a <;> exact this
  · have e1 := (PepperStep.eq hpos.ne' hw1 (k := a) (by omega)).2.2
    have e2 := (PepperStep.eq hpos.ne' h2 (k := a) (by omega)).2.2
    have := hB a
    have hx : accelerationQuantity iv (X 0) (X (0 + 1)) a = (X 1).e (3 * a + 2) := rfl
    rw [hx, e2, ← e1] at this
    fin_cases a <;> exact this
  · obtain ⟨iv', hiv', hw'⟩ := hG.moves
    cases hiv.symm.trans hiv'
    exact within_way hT0 hw hw' ⟨hm.1.trans hme.1.symm, hm.2.trans hme.2.symm⟩
  · obtain ⟨y, iv', ey, hmy, hiv', hw'⟩ := hr t ht0 ht1
    cases hiv.symm.trans hiv'
    exact ⟨y, ey, within_way hT0 hw hw' ⟨hmy.1.trans hme.1.symm, hmy.2.trans hme.2.symm⟩⟩

/-- **C113.** If iterations advance by parts of intervals (or by whole intervals), and if the base is within the bounds on its velocity and
acceleration at the beginning, then after every number of iterations the velocity leaves its bounds by at most the half of what remains of the
interval times the range of the acceleration. -/
theorem C113_parts (hq : PepperParameters v q) (hext : TrustedSolver ext) (h0 : PepperStart q o m s0)
    (ha : WithinBounds s0.model.robot_parameters.nominal_base_acceleration_bounds fun a => s0.model.state.base_state.acceleration a.castSucc)
    (hv : WithinBounds s0.model.robot_parameters.nominal_base_velocity_bounds fun a => s0.model.state.base_state.velocity a.castSucc)
    (h : PepperAfter v ext tr s0 n s) :
    AlmostWithin s0.model.robot_parameters.nominal_base_velocity_bounds
      (fun a => ((q.sampling_time_ms : K) - v.step q) / 1000 / 2 * (s0.model.robot_parameters.nominal_base_acceleration_bounds a 1 -
        s0.model.robot_parameters.nominal_base_acceleration_bounds a 0)) fun a => s.model.state.base_state.velocity a.castSucc := by
  have hpos : (0 : K) < (q.sampling_time_ms : K) / 1000 := by
    have : (0 : K) < q.sampling_time_ms := by exact_mod_cast hq.sampling
    positivity
  have hs1 : (0 : K) ≤ (v.step q : K) / 1000 := by positivity
  have hs2 : (v.step q : K) / 1000 ≤ (q.sampling_time_ms : K) / 1000 := by
    have : (v.step q : K) ≤ q.sampling_time_ms := by exact_mod_cast hq.step.2
    gcongr
  induction h with
  | start =>
    intro a
    have hd : 0 ≤ s0.model.robot_parameters.nominal_base_acceleration_bounds a 1 -
        s0.model.robot_parameters.nominal_base_acceleration_bounds a 0 := by
      have := ha a
      linarith
    have : 0 ≤ ((q.sampling_time_ms : K) - v.step q) / 1000 / 2 := by
      rw [sub_div]
      linarith
    have := mul_nonneg this hd
    obtain ⟨i1, i2⟩ := hv a
    exact ⟨by linarith, by linarith⟩
  | @step n c d u h hs ih =>
    have hacc := C87_acceleration hq hext h0 ha h
    obtain ⟨e, -, ev, ea, hw, -⟩ := pepper_end hq hext h0 h hs
    intro a
    obtain ⟨j, ⟨-, e0, e1⟩, -, e2, -⟩ := hw.base a
    obtain ⟨i1, i2⟩ := chord_velocity_part hpos hs1 hs2 e0 e1 (ih a).1 (ih a).2 (ev a).1 (ev a).2 (hacc a).1 (hacc a).2 (ea a).1 (ea a).2
    rw [← e2] at i1 i2
    simp only [sub_div] at i1 i2 ⊢
    generalize (q.sampling_time_ms : K) / 1000 = T at *
    generalize (v.step q : K) / 1000 = τ at *
    constructor
    · refine le_of_mul_le_mul_left (le_trans (le_of_eq ?_) i1) hpos
      ring
    · refine le_of_mul_le_mul_left (le_trans i2 (le_of_eq ?_)) hpos
      ring

/-- **C113.** With parts of intervals as well, in all states which are reported for an iteration the acceleration of the base is within its
bounds, and the velocity leaves its bounds by at most the same number and an eighth of the interval times the range of the acceleration. -/
theorem C113_parts_reported (hq : PepperParameters v q) (hext : TrustedSolver ext) (h0 : PepperStart q o m s0)
    (ha : WithinBounds s0.model.robot_parameters.nominal_base_acceleration_bounds fun a => s0.model.state.base_state.acceleration a.castSucc)
    (hv : WithinBounds s0.model.robot_parameters.nominal_base_velocity_bounds fun a => s0.model.state.base_state.velocity a.castSucc)
    (h : PepperAfter v ext tr s0 n s) (hs : s.iterate v ext tr u = .ok (some s')) {t : K} (ht0 : 0 ≤ t)
    (ht1 : t ≤ (q.sampling_time_ms : K) / 1000) :
    ∃ y, s'.mpc.getModelState s.model t = .ok y ∧
    WithinBounds s0.model.robot_parameters.nominal_base_acceleration_bounds (fun a => y.base_state.acceleration a.castSucc) ∧
    AlmostWithin s0.model.robot_parameters.nominal_base_velocity_bounds
      (fun a => (((q.sampling_time_ms : K) - v.step q) / 1000 / 2 + (q.sampling_time_ms : K) / 1000 / 8) *
        (s0.model.robot_parameters.nominal_base_acceleration_bounds a 1 -
        s0.model.robot_parameters.nominal_base_acceleration_bounds a 0)) fun a => y.base_state.velocity a.castSucc := by
  have hpos : (0 : K) < (q.sampling_time_ms : K) / 1000 := by
    have : (0 : K) < q.sampling_time_ms := by exact_mod_cast hq.sampling
    positivity
  have hs2 : (v.step q : K) / 1000 ≤ (q.sampling_time_ms : K) / 1000 := by
    have : (v.step q : K) ≤ q.sampling_time_ms := by exact_mod_cast hq.step.2
    gcongr
  have hacc := C87_acceleration hq hext h0 ha h
  have hvel := C113_parts hq hext h0 ha hv h
  obtain ⟨e, -, ev, ea, -, hr⟩ := pepper_end hq hext h0 h hs
  obtain ⟨y, ey, hy⟩ := hr t ht0 ht1
  refine ⟨y, ey, hy.acceleration hpos ht0 ht1 hacc ea, fun a => ?_⟩
  obtain ⟨j, ⟨-, e0, e1⟩, -, e2, -⟩ := hy.base a
  obtain ⟨i1, i2⟩ := chord_velocity_part hpos ht0 ht1 e0 e1 (hvel a).1 (hvel a).2 (ev a).1 (ev a).2 (hacc a).1 (hacc a).2 (ea a).1 (ea a).2
  rw [← e2] at i1 i2
  have hd : 0 ≤ s0.model.robot_parameters.nominal_base_acceleration_bounds a 1 -
      s0.model.robot_parameters.nominal_base_acceleration_bounds a 0 := by
    have := hacc a
    linarith
  simp only [sub_div] at i1 i2 ⊢
  generalize s0.model.robot_parameters.nominal_base_acceleration_bounds a 1 -
    s0.model.robot_parameters.nominal_base_acceleration_bounds a 0 = D at *
  generalize (q.sampling_time_ms : K) / 1000 = T at *
  generalize (v.step q : K) / 1000 = τ at *
  have hx : 0 ≤ (T - τ) / 2 * D := mul_nonneg (by linarith) hd
  have k1 : (T - t) * ((T - τ) / 2 * D) ≤ T * ((T - τ) / 2 * D) := mul_le_mul_of_nonneg_right (by linarith) hx
  have k2 : t * (T - t) / 2 * D ≤ T ^ 2 / 4 / 2 * D :=
    mul_le_mul_of_nonneg_right (by linarith [product_quarter (T := T) (t := t)]) hd
  constructor
  · refine le_of_mul_le_mul_left (le_trans ?_ i1) hpos
    nlinarith
  · refine le_of_mul_le_mul_left (le_trans i2 ?_) hpos
    nlinarith

/-- The heights do not change. -/
theorem pepper_heights (hq : PepperParameters v q) (hext : TrustedSolver ext) (h0 : PepperStart q o m s0) (h : PepperAfter v ext tr s0 n s) :
    s.model.state.base_state.position 2 = s0.model.state.base_state.position 2 ∧
    s.model.state.body_state.position 2 = s0.model.state.body_state.position 2 := by
  induction h with
  | start => exact ⟨rfl, rfl⟩
  | step h hs ih =>
    obtain ⟨mpc, hG, -⟩ := pepper_made hq hext h0 h hs
    obtain ⟨iv, hiv, hw⟩ := hG.moves
    obtain ⟨_, _, -, -, hif⟩ := hG.horizon.2 0 iv hiv
    exact ⟨by rw [hw.base_height, hif.base_height, ih.1], by rw [hw.body_height, hif.body_height, ih.2]⟩

omit [IsStrictOrderedRing K] in
theorem within_extent [IsOrderedRing K] {b : Fin 2 → Fin 2 → K} {x : Fin 2 → K} (h : WithinBounds b x) (a : Fin 2) : |x a| ≤ extent b a := by
  obtain ⟨h1, h2⟩ := h a
  exact abs_le_max_abs_abs h1 h2

theorem turned_le {c s x y B0 B1 : K} (h : c ^ 2 + s ^ 2 = 1) (h0 : |c * x + s * y| ≤ B0) (h1 : |-s * x + c * y| ≤ B1) :
    |x| ≤ B0 + B1 ∧ |y| ≤ B0 + B1 := by
  have hc : |c| ≤ 1 := abs_le_one_iff_mul_self_le_one.2 (by nlinarith [sq_nonneg s])
  have hs : |s| ≤ 1 := abs_le_one_iff_mul_self_le_one.2 (by nlinarith [sq_nonneg c])
  have e1 : x = c * (c * x + s * y) - s * (-s * x + c * y) := by linear_combination (-x) * h
  have e2 : y = s * (c * x + s * y) + c * (-s * x + c * y) := by linear_combination (-y) * h
  have m : ∀ {k z B : K}, |k| ≤ 1 → |z| ≤ B → |k * z| ≤ B := fun {k z B} hk hz => by
    rw [abs_mul]
    nlinarith [abs_nonneg k, abs_nonneg z]
  constructor
  · rw [e1]
    exact (abs_sub _ _).trans (add_le_add (m hc h0) (m hs h1))
  · rw [e2]
    exact (abs_add_le _ _).trans (add_le_add (m hs h0) (m hc h1))

theorem relative_le {mb md hb hd xb ab xd ad z R Z A : K} (hmb : 0 ≤ mb) (hmd : 0 < md) (hhd : 0 < hd)
    (hz : z = (mb * (xb - hb * ab / (98 / 10)) + md * (xd - hd * ad / (98 / 10))) / (mb + md) - xb) (hR : |xd - xb| ≤ R) (hZ : |z| ≤ Z)
    (hA : |ab| ≤ A) : |ad - ab| ≤ 98 / 10 * (md * R + (mb + md) * Z) / (md * hd) + (mb * |hb| / (md * hd) + 1) * A := by
  have hM : 0 < mb + md := by linarith
  have hp : 0 < md * hd := mul_pos hmd hhd
  have e : ad - ab = 98 / 10 * (md * (xd - xb) - (mb + md) * z) / (md * hd) - (mb * hb / (md * hd) + 1) * ab := by
    rw [hz]
    field_simp
    ring
  rw [e]
  refine (abs_sub _ _).trans (add_le_add ?_ ?_)
  · rw [abs_div, abs_of_pos hp, abs_mul, abs_of_pos (by norm_num : (0 : K) < 98 / 10)]
    refine div_le_div_of_nonneg_right (mul_le_mul_of_nonneg_left ((abs_sub _ _).trans (add_le_add ?_ ?_)) (by norm_num)) hp.le
    · rw [abs_mul, abs_of_pos hmd]
      exact mul_le_mul_of_nonneg_left hR hmd.le
    · rw [abs_mul, abs_of_pos hM]
      exact mul_le_mul_of_nonneg_left hZ hM.le
  · rw [abs_mul]
    refine mul_le_mul ((abs_add_le _ _).trans ?_) hA (abs_nonneg _) ?_
    · rw [abs_div, abs_of_pos hp, abs_mul, abs_of_nonneg hmb, abs_one]
    · have : 0 ≤ mb * |hb| / (md * hd) := div_nonneg (mul_nonneg hmb (abs_nonneg _)) hp.le
      linarith

/-- **C113.** After every iteration (but for the first one) the acceleration of the body relative to the base is limited by a number which
depends only on the parameters of the robot and on the heights. -/
theorem C113_relative (hq : PepperParameters v q) (hext : TrustedSolver ext) (htr : UnitCircle tr) (h0 : PepperStart q o m s0)
    (hstep : v.step q = q.sampling_time_ms)
    (hm : 0 < n ∨ s0.model.state.base_mass = 1634234 / 100000 ∧ s0.model.state.body_mass = 123389 / 10000)
    (hh : 0 < s0.model.state.body_state.position 2) (h : PepperAfter v ext tr s0 (n + 1) s) (a : Fin 2) :
    |relativeAcceleration s.model.state a| ≤ greatestRelativeAcceleration s0.model.robot_parameters (s0.model.state.base_state.position 2)
      (s0.model.state.body_state.position 2) a := by
  have hma : s.model.state.base_mass = 1634234 / 100000 ∧ s.model.state.body_mass = 123389 / 10000 := by
    cases h with
    | step h' hs' => exact (pepper_made hq hext h0 h' hs').choose_spec.2
  obtain ⟨g1, g2⟩ := pepper_heights hq hext h0 h
  have hS := C87_safe hq hext h0 hstep h
  have hC := within_extent (C87_cop hq hext h0 hstep hm h) a
  have hA := within_extent hS.acceleration a
  have b0 := within_extent hS.body 0
  have b1 := within_extent hS.body 1
  have hR := turned_le (htr _) b0 b1
  have hR' : |s.model.state.body_state.position a.castSucc - s.model.state.base_state.position a.castSucc| ≤
      extent s0.model.robot_parameters.body_bounds 0 + extent s0.model.robot_parameters.body_bounds 1 := by
    fin_cases a
    · exact hR.1
    · exact hR.2
  refine relative_le (mb := 1634234 / 100000) (md := 123389 / 10000) (hb := s0.model.state.base_state.position 2)
    (hd := s0.model.state.body_state.position 2) (by norm_num) (by norm_num) hh ?_ hR' hC hA
  unfold centreOfPressure
  rw [hma.1, hma.2, g1, g2]

/-- **C113.** In all states which are reported for an iteration (but for the first two), the centre of pressure leaves its bounds by at most
a number which depends only on the length of the interval, the parameters of the robot and the heights, not on the motion. -/
theorem C113_uniform (hq : PepperParameters v q) (hext : TrustedSolver ext) (htr : UnitCircle tr) (h0 : PepperStart q o m s0)
    (hstep : v.step q = q.sampling_time_ms)
    (hm : 0 < n ∨ s0.model.state.base_mass = 1634234 / 100000 ∧ s0.model.state.body_mass = 123389 / 10000)
    (hh : 0 < s0.model.state.body_state.position 2) (h : PepperAfter v ext tr s0 (n + 1) s)
    (hs : s.iterate v ext tr u = .ok (some s')) {t : K} (ht0 : 0 ≤ t) (ht1 : t ≤ (q.sampling_time_ms : K) / 1000) {y : ModelState K}
    (hy : s'.mpc.getModelState s.model t = .ok y) :
    AlmostWithin s0.model.robot_parameters.cop_bounds
      (fun a => ((q.sampling_time_ms : K) / 1000) ^ 2 / 8 * (123389 / 10000 / (1634234 / 100000 + 123389 / 10000) *
        greatestRelativeAcceleration s0.model.robot_parameters (s0.model.state.base_state.position 2)
          (s0.model.state.body_state.position 2) a))
      fun a => centreOfPressure y a.castSucc := by
  have hma : s.model.state.base_mass = 1634234 / 100000 ∧ s.model.state.body_mass = 123389 / 10000 := by
    cases h with
    | step h' hs' => exact (pepper_made hq hext h0 h' hs').choose_spec.2
  intro a
  obtain ⟨i1, i2⟩ := C113_cop hq hext h0 hstep hm h hs ht0 ht1 hy a
  simp only [hma.1, hma.2] at i1 i2
  have hr := max_le (C113_relative hq hext htr h0 hstep hm hh h a) (C113_relative hq hext htr h0 hstep (.inl n.succ_pos) hh (.step h hs) a)
  have hk : ((q.sampling_time_ms : K) / 1000) ^ 2 / 8 * (123389 / 10000 / (1634234 / 100000 + 123389 / 10000) *
        max |relativeAcceleration s.model.state a| |relativeAcceleration s'.model.state a|) ≤
      ((q.sampling_time_ms : K) / 1000) ^ 2 / 8 * (123389 / 10000 / (1634234 / 100000 + 123389 / 10000) *
        greatestRelativeAcceleration s0.model.robot_parameters (s0.model.state.base_state.position 2)
          (s0.model.state.body_state.position 2) a) :=
    mul_le_mul_of_nonneg_left (mul_le_mul_of_nonneg_left hr (by norm_num)) (by positivity)
  exact ⟨by linarith, by linarith⟩

end

/-- A state in which the body and the base move together. -/
def together (p v a : Fin 2 → K) : ModelState K :=
  ⟨⟨![p 0, p 1, 1], ![v 0, v 1, 0], ![a 0, a 1, 0], 0, 0, 0⟩, ⟨![p 0, p 1, 2], ![v 0, v 1, 0], ![a 0, a 1, 0]⟩, 3, 4⟩

/-- **C113.** The bound on the velocity is the best possible: for a robot with symmetric bounds there is a motion with constant jerks between
states within the bounds, in the middle of which the velocity is that much greater than its bound. -/
theorem C113_sharp {T : K} (hT : 0 < T) (tr : Trig K) {p : RobotParameters K} (hp : MayStand p)
    (hv : ∀ a, p.nominal_base_velocity_bounds a 0 = -p.nominal_base_velocity_bounds a 1)
    (ha : ∀ a, p.nominal_base_acceleration_bounds a 0 = -p.nominal_base_acceleration_bounds a 1) :
    ∃ s s' y : ModelState K, PepperSafe tr p s ∧ PepperSafe tr p s' ∧ SameParts s s' ∧ OnTheWay T (T / 2) s s' y ∧
      ∀ a : Fin 2, y.base_state.velocity a.castSucc = p.nominal_base_velocity_bounds a 1 +
        T / 8 * (p.nominal_base_acceleration_bounds a 1 - p.nominal_base_acceleration_bounds a 0) := by
  set V : Fin 2 → K := fun a => p.nominal_base_velocity_bounds a 1 with hV
  set A : Fin 2 → K := fun a => p.nominal_base_acceleration_bounds a 1 with hA
  have hVp : ∀ a, 0 ≤ V a := fun a => (hp.velocity a).2
  have hAp : ∀ a, 0 ≤ A a := fun a => (hp.acceleration a).2
  refine ⟨together 0 V A, together (fun a => positionAt 0 (V a) (A a) (-2 * A a / T) T) V (fun a => -A a),
    together (fun a => positionAt 0 (V a) (A a) (-2 * A a / T) (T / 2)) (fun a => velocityAt (V a) (A a) (-2 * A a / T) (T / 2))
      (fun a => accelerationAt (A a) (-2 * A a / T) (T / 2)), ⟨?_, ?_, ?_⟩, ⟨?_, ?_, ?_⟩, ⟨⟨rfl, rfl⟩, rfl, rfl⟩, ⟨?_, ?_, ⟨rfl, rfl⟩, rfl, rfl⟩, ?_⟩
  · intro a
    have h1 := hVp a
    have h2 := hv a
    have : p.nominal_base_velocity_bounds a 0 ≤ V a := by rw [h2]; show -V a ≤ V a; linarith
    fin_cases a <;> exact ⟨this, le_rfl⟩
  · intro a
    have h1 := hAp a
    have h2 := ha a
    have : p.nominal_base_acceleration_bounds a 0 ≤ A a := by rw [h2]; show -A a ≤ A a; linarith
    fin_cases a <;> exact ⟨this, le_rfl⟩
  · intro a
    have := hp.body a
    fin_cases a <;> simpa [together] using this
  · intro a
    have h1 := hVp a
    have h2 := hv a
    have : p.nominal_base_velocity_bounds a 0 ≤ V a := by rw [h2]; show -V a ≤ V a; linarith
    fin_cases a <;> exact ⟨this, le_rfl⟩
  · intro a
    have h1 := hAp a
    have h2 := ha a
    have : -A a ≤ p.nominal_base_acceleration_bounds a 1 := by show -A a ≤ A a; linarith
    fin_cases a <;> exact ⟨h2.le, this⟩
  · intro a
    have := hp.body a
    fin_cases a <;> simpa [together] using this
  · intro a
    refine ⟨-2 * A a / T, ?_⟩
    have e1 : V a = velocityAt (V a) (A a) (-2 * A a / T) T := by unfold velocityAt; field_simp; ring
    have e2 : -A a = accelerationAt (A a) (-2 * A a / T) T := by unfold accelerationAt; field_simp; ring
    fin_cases a <;> exact ⟨⟨rfl, e1, e2⟩, rfl, rfl, rfl⟩
  · intro a
    refine ⟨-2 * A a / T, ?_⟩
    have e1 : V a = velocityAt (V a) (A a) (-2 * A a / T) T := by unfold velocityAt; field_simp; ring
    have e2 : -A a = accelerationAt (A a) (-2 * A a / T) T := by unfold accelerationAt; field_simp; ring
    fin_cases a <;> exact ⟨⟨rfl, e1, e2⟩, rfl, rfl, rfl⟩
  · intro a
    have : velocityAt (V a) (A a) (-2 * A a / T) (T / 2) =
        V a + T / 8 * (A a - p.nominal_base_acceleration_bounds a 0) := by
      rw [ha a]
      show _ = V a + T / 8 * (A a - -A a)
      unfold velocityAt
      field_simp
      ring
    fin_cases a <;> exact this

/-! ### The hypotheses are met -/

/-- In all programs, the last of 85 iterations of a motion of 9900 milliseconds. -/
example (v : ProgramKind) (tr : Trig ℝ) (w : ℕ → Memory ℝ) : ∃ (ext : Qpoases ℝ) (s0 s s' : Program ℝ) (u : Memory ℝ), TrustedSolver ext ∧
    PepperParameters v ⟨15, 100, 100⟩ ∧ PepperStart ⟨15, 100, 100⟩ ⟨.maintainVelocity, 1, 1, 1, 1, 1⟩ ⟨0, 0, 1, 9900, .maintainVelocity⟩ s0 ∧
    v.step ⟨15, 100, 100⟩ = 100 ∧ 0 < s0.model.state.body_state.position 2 ∧ PepperAfter v ext tr s0 (83 + 1) s ∧ s.iterate v ext tr u = .ok (some s') := by
  obtain ⟨ext, h1, h2⟩ := exists_solver
  have hstep : v.step ⟨15, 100, 100⟩ = 100 := by unfold ProgramKind.step; split <;> rfl
  have hq : PepperParameters v ⟨15, 100, 100⟩ := by
    refine ⟨by norm_num, by norm_num, by norm_num, by rw [hstep]; norm_num, fun _ => .inl (by norm_num)⟩
  obtain ⟨s0, h0, hs⟩ := standing_program (K := ℝ) ⟨15, 100, 100⟩ (o := ⟨.maintainVelocity, 1, 1, 1, 1, 1⟩) (by simp)
    (m := ⟨0, 0, 1, 9900, .maintainVelocity⟩) (.inr (by norm_num))
  have hst : StandsAt 0 s0.model.state := by rw [hs]; exact standing_stands
  have hmay : MayStand s0.model.robot_parameters := by rw [hs]; exact standing_may
  have hh : 0 < s0.model.state.body_state.position 2 := by
    rw [hs]
    show (0 : ℝ) < 2
    norm_num
  have hc := (C87_completes (tr := tr) hq h1 h2 h0 hst (by unfold AsksToStand; rw [if_neg (by simp)]) hmay
    ⟨one_ne_zero, one_ne_zero⟩ w).1
  obtain ⟨r, k1, -, ⟨s, rfl, k3⟩ | ⟨-, k2⟩⟩ := C87_run (tr := tr) hq h1 h0 (d := 9900) rfl w
  · have : pepperIterations v ⟨15, 100, 100⟩ 9900 = 83 + 1 + 1 := by unfold pepperIterations; rw [hstep]; rfl
    rw [this] at k3
    cases k3 with
    | step h hs => exact ⟨ext, s0, _, _, _, h1, hq, h0, hstep, hh, h, hs⟩
  · exact absurd k2 hc

/-- The last of 1681 iterations, which advance by five milliseconds. -/
example (a b : Bool) (tr : Trig ℝ) (w : ℕ → Memory ℝ) : ∃ (ext : Qpoases ℝ) (s0 s s' : Program ℝ) (u : Memory ℝ), TrustedSolver ext ∧
    PepperParameters ⟨a, b, true⟩ ⟨15, 100, 5⟩ ∧
    PepperStart ⟨15, 100, 5⟩ ⟨.maintainVelocity, 1, 1, 1, 1, 1⟩ ⟨0, 0, 1, 9900, .maintainVelocity⟩ s0 ∧
    WithinBounds s0.model.robot_parameters.nominal_base_acceleration_bounds (fun a => s0.model.state.base_state.acceleration a.castSucc) ∧
    WithinBounds s0.model.robot_parameters.nominal_base_velocity_bounds (fun a => s0.model.state.base_state.velocity a.castSucc) ∧
    PepperAfter ⟨a, b, true⟩ ext tr s0 1680 s ∧ s.iterate ⟨a, b, true⟩ ext tr u = .ok (some s') := by
  obtain ⟨ext, h1, h2⟩ := exists_solver
  have hq : PepperParameters ⟨a, b, true⟩ ⟨15, 100, 5⟩ :=
    ⟨by norm_num, by norm_num, by norm_num, by simp [ProgramKind.step], fun _ => .inl (by norm_num)⟩
  obtain ⟨s0, h0, hs⟩ := standing_program (K := ℝ) ⟨15, 100, 5⟩ (o := ⟨.maintainVelocity, 1, 1, 1, 1, 1⟩) (by simp)
    (m := ⟨0, 0, 1, 9900, .maintainVelocity⟩) (.inr (by norm_num))
  have hst : StandsAt 0 s0.model.state := by rw [hs]; exact standing_stands
  have hmay : MayStand s0.model.robot_parameters := by rw [hs]; exact standing_may
  have hc := (C87_completes (tr := tr) hq h1 h2 h0 hst (by unfold AsksToStand; rw [if_neg (by simp)]) hmay
    ⟨one_ne_zero, one_ne_zero⟩ w).1
  obtain ⟨r, k1, -, ⟨s, rfl, k3⟩ | ⟨-, k2⟩⟩ := C87_run (tr := tr) hq h1 h0 (d := 9900) rfl w
  · have : pepperIterations ⟨a, b, true⟩ ⟨15, 100, 5⟩ 9900 = 1680 + 1 := by norm_num [pepperIterations, ProgramKind.step]
    rw [this] at k3
    cases k3 with
    | step h hs =>
      refine ⟨ext, s0, _, _, _, h1, hq, h0, fun i => ?_, fun i => ?_, h, hs⟩
      · simp only [(hst.base i).2.2]
        exact hmay.acceleration i
      · simp only [(hst.base i).2.1]
        exact hmay.velocity i
  · exact absurd k2 hc

/-- The bounds of the standing robot are symmetric. -/
example : MayStand (standingModel ℚ).robot_parameters ∧
    (∀ a, (standingModel ℚ).robot_parameters.nominal_base_velocity_bounds a 0 = -(standingModel ℚ).robot_parameters.nominal_base_velocity_bounds a 1) ∧
    ∀ a, (standingModel ℚ).robot_parameters.nominal_base_acceleration_bounds a 0 =
      -(standingModel ℚ).robot_parameters.nominal_base_acceleration_bounds a 1 :=
  ⟨standing_may, fun a => by fin_cases a <;> rfl, fun a => by fin_cases a <;> rfl⟩

end Humoto.Pepper
