import Verif.Lemmas.Trajectory
import Mathlib.Data.Rat.Defs

/-!
# C29, C30: trajectories
-/

namespace Humoto

open Spec

set_option linter.unusedSectionVars false

variable {K : Type} [Field K] [LinearOrder K] [IsStrictOrderedRing K]

/-! ## C29 -/

/-- **C29.** A polynomial initialised with end values attains them and is at rest at the ends. -/
theorem C29_ends (a b : K) :
    (Cubic.ends a b).getPosition 0 = .ok a ∧ (Cubic.ends a b).getPosition 1 = .ok b ∧
    (Cubic.ends a b).getVelocity 0 = .ok 0 ∧ (Cubic.ends a b).getVelocity 1 = .ok 0 := by
  rw [Cubic.getPosition_ok _ ⟨le_rfl, zero_le_one⟩, Cubic.getPosition_ok _ ⟨zero_le_one, le_rfl⟩,
    Cubic.getVelocity_ok _ ⟨le_rfl, zero_le_one⟩, Cubic.getVelocity_ok _ ⟨zero_le_one, le_rfl⟩]
  unfold Cubic.value Cubic.rate Cubic.ends
  refine ⟨?_, ?_, ?_, ?_⟩ <;> congr 1 <;> ring

/-- **C29.** Between the ends the position stays between the end values. -/
theorem C29_between (a b t : K) (h0 : 0 ≤ t) (h1 : t ≤ 1) :
    ∃ p, (Cubic.ends a b).getPosition t = .ok p ∧ min a b ≤ p ∧ p ≤ max a b := by
  refine ⟨_, Cubic.getPosition_ok _ ⟨h0, h1⟩, ?_⟩
  rw [Cubic.ends_value]
  obtain ⟨e0, e1⟩ := Cubic.blend_mem h0 h1
  rcases le_total a b with h | h
  · rw [min_eq_left h, max_eq_right h]
    have := mul_nonneg (sub_nonneg.mpr h) e0
    have := mul_le_mul_of_nonneg_left e1 (sub_nonneg.mpr h)
    constructor <;> linarith
  · rw [min_eq_right h, max_eq_left h]
    have := mul_nonneg (sub_nonneg.mpr h) e0
    have := mul_le_mul_of_nonneg_left e1 (sub_nonneg.mpr h)
    constructor <;> nlinarith

/-- **C29**, part: a polynomial initialised with end values and velocities has the requested value and velocity at the start. -/
theorem C29_start_partial (a adot b bdot : K) :
    (Cubic.endsWithVelocities a adot b bdot).getPosition 0 = .ok a ∧
    (Cubic.endsWithVelocities a adot b bdot).getVelocity 0 = .ok adot := by
  rw [Cubic.getPosition_ok _ ⟨le_rfl, zero_le_one⟩, Cubic.getVelocity_ok _ ⟨le_rfl, zero_le_one⟩]
  unfold Cubic.value Cubic.rate Cubic.endsWithVelocities
  refine ⟨?_, ?_⟩ <;> congr 1 <;> ring

/-- **C29**: the requested value and velocity at the end are attained only when both velocities are zero. -/
theorem C29_end_partial (a adot b bdot : K) :
    ((Cubic.endsWithVelocities a adot b bdot).getPosition 1 = .ok b ∧
      (Cubic.endsWithVelocities a adot b bdot).getVelocity 1 = .ok bdot) ↔ adot = 0 ∧ bdot = 0 := by
  rw [Cubic.getPosition_ok _ ⟨zero_le_one, le_rfl⟩, Cubic.getVelocity_ok _ ⟨zero_le_one, le_rfl⟩]
  simp only [Except.ok.injEq]
  unfold Cubic.value Cubic.rate Cubic.endsWithVelocities
  simp only
  constructor
  · rintro ⟨h1, h2⟩
    have e1 : -2 * adot + 3 * bdot = 0 := by linarith
    have e2 : -6 * adot + 6 * bdot = 0 := by linarith
    constructor <;> linarith
  · rintro ⟨rfl, rfl⟩
    constructor <;> ring

/-- **C29** fails: from 0 to 1 with the velocity 1 at both ends (a straight line meets these conditions) the polynomial ends
in 2. -/
theorem C29_end_refuted : (Cubic.endsWithVelocities (0 : ℚ) 1 1 1).getPosition 1 = .ok 2 := by
  rw [Cubic.getPosition_ok _ ⟨zero_le_one, le_rfl⟩]
  unfold Cubic.value Cubic.endsWithVelocities
  norm_num

/-- **C29.** Reported velocity and acceleration are the first and the second derivative of the reported position for every
polynomial. -/
theorem C29_derivative (c : Cubic ℝ) :
    IsRateOf c.getPosition c.getVelocity (Set.Icc 0 1) ∧ IsRateOf c.getVelocity c.getAcceleration (Set.Icc 0 1) :=
  ⟨⟨c.value, c.rate, fun _ ht => ⟨c.getPosition_ok ht, c.getVelocity_ok ht⟩, fun t _ => c.value_hasDerivAt t⟩,
    ⟨c.rate, c.rate2, fun _ ht => ⟨c.getVelocity_ok ht, c.getAcceleration_ok ht⟩, fun t _ => c.rate_hasDerivAt t⟩⟩

/-- **C29.** The jerk is the derivative of the acceleration. -/
theorem C29_jerk (c : Cubic ℝ) : IsRateOf c.getAcceleration (fun _ => .ok c.getJerk) (Set.Icc 0 1) := by
  refine ⟨c.rate2, fun _ => c.getJerk, fun _ ht => ⟨c.getAcceleration_ok ht, rfl⟩, fun t _ => ?_⟩
  have h := (hasDerivAt_const t (2 * c.a2)).add ((hasDerivAt_id t).const_mul (6 * c.a3))
  refine h.congr_deriv ?_
  unfold Cubic.getJerk
  simp

/-- **C29.** Times outside of the unit interval and the undefined type are rejected. -/
theorem C29_reject (c : Cubic K) (t : K) :
    (¬ (0 ≤ t ∧ t ≤ 1) → ∀ ty, c.eval t ty = .error .thrown) ∧ c.eval t .undefined = .error .thrown := by
  refine ⟨?_, rfl⟩
  intro h ty
  cases ty <;> unfold Cubic.eval
  · rfl
  · unfold Cubic.getPosition; simp only; rw [assertThat_false (fun h' => h h'), error_bind]
  · unfold Cubic.getVelocity; simp only; rw [assertThat_false (fun h' => h h'), error_bind]
  · unfold Cubic.getAcceleration; simp only; rw [assertThat_false (fun h' => h h'), error_bind]

/-- **C29.** Evaluation at several points evaluates each of them in order. -/
theorem C29_points (c : Cubic K) (ty : EvaluationType) (ts ys : List K) :
    c.evalPoints ty ts = .ok ys ↔ ys.map Except.ok = ts.map (fun t => c.eval t ty) := by
  induction ts generalizing ys with
  | nil =>
    simp only [Cubic.evalPoints, List.map_nil, List.map_eq_nil_iff, Except.ok.injEq]
    exact eq_comm
  | cons t ts ih =>
    unfold Cubic.evalPoints
    cases h : c.eval t ty with
    | error e =>
      rw [error_bind]
      constructor
      · intro h'; cases h'
      · intro h'
        cases ys with
        | nil => simp at h'
        | cons y ys => simp [h] at h'
    | ok y =>
      rw [ok_bind]
      cases h2 : c.evalPoints ty ts with
      | error e =>
        rw [error_bind]
        constructor
        · intro h'; cases h'
        · intro h'
          cases ys with
          | nil => simp at h'
          | cons y' ys =>
            rw [List.map_cons, List.map_cons, List.cons.injEq] at h'
            have := (ih ys).mpr h'.2
            rw [h2] at this
            cases this
      | ok ys' =>
        rw [ok_bind, pure_eq_ok]
        have ih' := ih ys'
        rw [h2] at ih'
        have ih'' := ih'.mp rfl
        constructor
        · intro h'
          cases h'
          rw [List.map_cons, List.map_cons, ih'', h]
        · intro h'
          cases ys with
          | nil => simp at h'
          | cons y' ys =>
            rw [List.map_cons, List.map_cons, List.cons.injEq, h] at h'
            have h3 := (ih ys).mpr h'.2
            rw [h2] at h3
            cases h3
            cases h'.1
            rfl

/-- **C29.** Scaling maps the earliest point to 0, the latest point to 1, keeps the proportions of the intervals, and the result
can be evaluated. -/
theorem C29_scale (ts ss : List K) (h : Cubic.scale ts = some ss) :
    ss.length = ts.length ∧ ∃ k o : K, (ts ≠ [] → 0 < k) ∧ ss = ts.map (fun t => k * (t - o)) ∧ (∀ s ∈ ss, 0 ≤ s ∧ s ≤ 1) ∧
      (ts ≠ [] → (0 : K) ∈ ss ∧ (1 : K) ∈ ss) := by
  unfold Cubic.scale at h
  cases hlo : ts.min? with
  | none =>
    rw [List.min?_eq_none_iff] at hlo
    subst hlo
    simp only [List.min?_nil, Option.some.injEq] at h
    subst h
    exact ⟨rfl, 0, 0, fun h => absurd rfl h, rfl, by simp, fun h => absurd rfl h⟩
  | some lo =>
    cases hhi : ts.max? with
    | none =>
      rw [List.max?_eq_none_iff] at hhi
      subst hhi
      simp at hlo
    | some hi =>
      rw [hlo, hhi] at h
      simp only at h
      split at h
      · cases h
      · rename_i hne
        cases h
        rw [List.min?_eq_some_iff] at hlo
        rw [List.max?_eq_some_iff] at hhi
        have hlt : lo < hi := lt_of_le_of_ne (hlo.2 hi hhi.1) (Ne.symm hne)
        have hd : 0 < hi - lo := sub_pos.mpr hlt
        refine ⟨by simp, 1 / (hi - lo), lo, fun _ => by positivity, ?_, ?_, fun _ => ⟨?_, ?_⟩⟩
        · refine List.map_congr_left fun t _ => ?_
          rw [div_mul_eq_mul_div, one_mul]
        · intro s hs
          rw [List.mem_map] at hs
          obtain ⟨t, ht, rfl⟩ := hs
          have l1 := hlo.2 t ht
          have l2 := hhi.2 t ht
          exact ⟨div_nonneg (by linarith) hd.le, (div_le_one hd).mpr (by linarith)⟩
        · exact List.mem_map.mpr ⟨lo, hlo.1, by simp⟩
        · exact List.mem_map.mpr ⟨hi, hhi.1, by rw [div_self hd.ne']⟩

/-- **C29.** Scaling is possible unless all points are equal. -/
theorem C29_scale_defined (ts : List K) (h : ∃ a ∈ ts, ∃ b ∈ ts, a ≠ b) : ∃ ss, Cubic.scale ts = some ss := by
  obtain ⟨a, ha, b, hb, hab⟩ := h
  unfold Cubic.scale
  cases hlo : ts.min? with
  | none => exact ⟨[], by simp⟩
  | some lo =>
    cases hhi : ts.max? with
    | none => exact ⟨[], by simp⟩
    | some hi =>
      rw [List.min?_eq_some_iff] at hlo
      rw [List.max?_eq_some_iff] at hhi
      refine ⟨_, if_neg ?_⟩
      intro he
      have ea : a = lo := le_antisymm (he ▸ hhi.2 a ha) (hlo.2 a ha)
      have eb : b = lo := le_antisymm (he ▸ hhi.2 b hb) (hlo.2 b hb)
      exact hab (ea.trans eb.symm)

example : Cubic.scale [(3 : ℚ), 1, 5] = some [1 / 2, 0, 1] := by
  simp [Cubic.scale, List.min?, List.max?]; norm_num

example : ∃ p, (Cubic.ends (1 : ℚ) 3).getPosition (1 / 2) = .ok p ∧ p = 2 := by
  refine ⟨_, Cubic.getPosition_ok _ ⟨by norm_num, by norm_num⟩, ?_⟩
  norm_num [Cubic.value, Cubic.ends]

/-! ## C30 -/

/-- **C30.** The trajectory between two points starts in the first point at rest, reaches the step height in the middle, and
ends in the second point at rest. -/
theorem C30_ends (f0 : FootTrajectory K) (a b : Fin 3 → K) (h : K) (hb : b 2 ≤ a 2 + h) :
    ∃ f m, f0.between a b h = .ok f ∧ f.eval 0 .position = .ok a ∧ f.eval 0 .velocity = .ok 0 ∧ f.eval 1 .position = .ok b ∧
      f.eval 1 .velocity = .ok 0 ∧ f.eval (1 / 2) .position = .ok m ∧ m 2 = a 2 + h := by
  unfold FootTrajectory.between
  rw [assertThat_true hb, ok_bind]
  have r0 : (0 : K) ≤ 0 ∧ (0 : K) ≤ 1 := ⟨le_rfl, zero_le_one⟩
  have r1 : (0 : K) ≤ 1 ∧ (1 : K) ≤ 1 := ⟨zero_le_one, le_rfl⟩
  have rh : (0 : K) ≤ 1 / 2 ∧ (1 / 2 : K) ≤ 1 := ⟨by norm_num, by norm_num⟩
  refine ⟨_, _, rfl, ?_, ?_, ?_, ?_, FootTrajectory.eval_position _ rh, ?_⟩
  · rw [FootTrajectory.eval_position _ r0]
    congr 1
    funext i
    fin_cases i
    · norm_num [Cubic.value, Cubic.ends]
    · norm_num [Cubic.value, Cubic.ends]
    · norm_num [FootTrajectory.height, Cubic.value, Cubic.ends]; rfl
  · rw [FootTrajectory.eval_velocity _ r0]
    congr 1
    funext i
    fin_cases i
    all_goals norm_num [FootTrajectory.heightRate, Cubic.rate, Cubic.ends]
  · rw [FootTrajectory.eval_position _ r1]
    congr 1
    funext i
    fin_cases i
    · norm_num [Cubic.value, Cubic.ends]; ring
    · norm_num [Cubic.value, Cubic.ends]; ring
    · show FootTrajectory.height _ 1 = b 2
      norm_num [FootTrajectory.height, Cubic.value, Cubic.ends]; ring
  · rw [FootTrajectory.eval_velocity _ r1]
    congr 1
    funext i
    fin_cases i
    · norm_num [Cubic.rate, Cubic.ends]; ring
    · norm_num [Cubic.rate, Cubic.ends]; ring
    · norm_num [FootTrajectory.heightRate, Cubic.rate, Cubic.ends]; ring
  · show FootTrajectory.height _ (1 / 2) = a 2 + h
    norm_num [FootTrajectory.height, Cubic.value, Cubic.ends]; ring

/-- **C30.** A final position above the step height is rejected by all variants. -/
theorem C30_reject (f0 : FootTrajectory K) (a b adot bdot : Fin 3 → K) (s s' : RigidBodyState K) (h : K) :
    (¬ b 2 ≤ a 2 + h → f0.between a b h = .error .thrown ∧ f0.betweenWithVelocities a adot b bdot h = .error .thrown) ∧
    (¬ s'.position 2 ≤ s.position 2 + h → FootTrajectory.betweenStates s s' h = .error .thrown) := by
  unfold FootTrajectory.between FootTrajectory.betweenWithVelocities FootTrajectory.betweenStates
  refine ⟨fun hb => ?_, fun hb => ?_⟩
  · rw [assertThat_false hb]; exact ⟨rfl, rfl⟩
  · rw [assertThat_false hb]; rfl

/-- **C30.** The foot never goes below both end points and never above the step height. -/
theorem C30_height (f0 f : FootTrajectory K) (a b : Fin 3 → K) (h : K) (hh : 0 ≤ h) (hf : f0.between a b h = .ok f) (t : K)
    (h0 : 0 ≤ t) (h1 : t ≤ 1) : ∃ z, f.evalz t .position = .ok z ∧ min (a 2) (b 2) ≤ z ∧ z ≤ a 2 + h := by
  unfold FootTrajectory.between at hf
  by_cases hb : b 2 ≤ a 2 + h
  · rw [assertThat_true hb, ok_bind, pure_eq_ok] at hf
    cases hf
    refine ⟨_, FootTrajectory.evalz_position _ ⟨h0, h1⟩, ?_⟩
    unfold FootTrajectory.height
    have hr := FootTrajectory.half_range ⟨h0, h1⟩
    split
    · rename_i ht
      obtain ⟨e0, e1⟩ := Cubic.blend_mem (hr.1 ht).1 (hr.1 ht).2
      simp only
      rw [Cubic.ends_value]
      have := mul_nonneg hh e0
      have := mul_le_mul_of_nonneg_left e1 hh
      have := min_le_left (a 2) (b 2)
      constructor <;> nlinarith
    · rename_i ht
      obtain ⟨e0, e1⟩ := Cubic.blend_mem (hr.2 ht).1 (hr.2 ht).2
      simp only
      rw [Cubic.ends_value]
      have hd : 0 ≤ h + a 2 - b 2 := by linarith
      have := mul_nonneg hd e0
      have := mul_le_mul_of_nonneg_left e1 hd
      have := min_le_right (a 2) (b 2)
      constructor <;> nlinarith
  · rw [assertThat_false hb, error_bind] at hf
    cases hf

/-- **C30**, part: in the horizontal plane velocity and acceleration are the derivatives of position and velocity, for every way
to initialise the trajectory; the same holds for the orientation. -/
theorem C30_horizontal_partial (f : FootTrajectory ℝ) (i : Fin 3) (hi : i ≠ 2) :
    IsRateOf (fun t => (f.eval t .position).map (· i)) (fun t => (f.eval t .velocity).map (· i)) (Set.Icc 0 1) ∧
    IsRateOf (fun t => (f.eval t .velocity).map (· i)) (fun t => (f.eval t .acceleration).map (· i)) (Set.Icc 0 1) ∧
    IsRateOf (fun t => f.theta.eval t .position) (fun t => f.theta.eval t .velocity) (Set.Icc 0 1) ∧
    IsRateOf (fun t => f.theta.eval t .velocity) (fun t => f.theta.eval t .acceleration) (Set.Icc 0 1) := by
  refine ⟨?_, ?_, C29_derivative f.theta⟩
  · refine ⟨fun t => if i = 0 then f.x.value t else f.y.value t, fun t => if i = 0 then f.x.rate t else f.y.rate t,
      fun t ht => ⟨?_, ?_⟩, fun t _ => ?_⟩
    · simp only; rw [FootTrajectory.eval_position _ ht]; fin_cases i <;> simp_all [Except.map]
    · simp only; rw [FootTrajectory.eval_velocity _ ht]; fin_cases i <;> simp_all [Except.map]
    · split
      · exact f.x.value_hasDerivAt t
      · exact f.y.value_hasDerivAt t
  · refine ⟨fun t => if i = 0 then f.x.rate t else f.y.rate t, fun t => if i = 0 then f.x.rate2 t else f.y.rate2 t,
      fun t ht => ⟨?_, ?_⟩, fun t _ => ?_⟩
    · simp only; rw [FootTrajectory.eval_velocity _ ht]; fin_cases i <;> simp_all [Except.map]
    · simp only
      unfold FootTrajectory.eval FootTrajectory.evalz
      have hr := FootTrajectory.half_range ht
      simp only [Cubic.eval]
      rw [Cubic.getAcceleration_ok _ ht, Cubic.getAcceleration_ok _ ht, ok_bind, ok_bind]
      split
      · rename_i h'
        rw [Cubic.getAcceleration_ok _ (hr.1 h'), ok_bind]
        fin_cases i <;> simp_all [Except.map, pure_eq_ok]
      · rename_i h'
        rw [Cubic.getAcceleration_ok _ (hr.2 h'), ok_bind]
        fin_cases i <;> simp_all [Except.map, pure_eq_ok]
    · split
      · exact f.x.rate_hasDerivAt t
      · exact f.y.rate_hasDerivAt t

/-- **C30**, part: the vertical velocity is the derivative with respect to time *divided by two*. -/
theorem C30_vertical_partial (f0 f : FootTrajectory ℝ) (a b : Fin 3 → ℝ) (h : ℝ) (hf : f0.between a b h = .ok f) :
    IsRateOf (fun t => f.evalz t .position) (fun t => (f.evalz t .velocity).map (2 * ·)) (Set.Icc 0 1) := by
  unfold FootTrajectory.between at hf
  by_cases hb : b 2 ≤ a 2 + h
  · rw [assertThat_true hb, ok_bind, pure_eq_ok] at hf
    cases hf
    refine ⟨FootTrajectory.height _, fun t => 2 * FootTrajectory.heightRate _ t, fun t ht => ⟨FootTrajectory.evalz_position _ ht, ?_⟩,
      fun t _ => FootTrajectory.height_hasDerivAt _ ?_ ?_ t⟩
    · simp only
      rw [FootTrajectory.evalz_velocity _ ht]
      rfl
    · norm_num [Cubic.value, Cubic.ends]; ring
    · norm_num [Cubic.rate, Cubic.ends]; ring
  · rw [assertThat_false hb, error_bind] at hf
    cases hf

/-- **C30** fails for the vertical direction: a step of the height 1 in place. -/
theorem C30_vertical_refuted : ∃ f, FootTrajectory.default.between (0 : Fin 3 → ℝ) 0 1 = .ok f ∧
    ¬ IsRateOf (fun t => f.evalz t .position) (fun t => f.evalz t .velocity) (Set.Ioo 0 1) := by
  have hb : (0 : Fin 3 → ℝ) 2 ≤ (0 : Fin 3 → ℝ) 2 + 1 := by simp
  have hf : ∃ f, FootTrajectory.default.between (0 : Fin 3 → ℝ) 0 1 = .ok f := by
    unfold FootTrajectory.between
    rw [assertThat_true hb]
    exact ⟨_, rfl⟩
  obtain ⟨f, hf⟩ := hf
  refine ⟨f, hf, ?_⟩
  obtain ⟨F, G, hFG, hd⟩ := C30_vertical_partial _ f _ _ _ hf
  rintro ⟨F', G', hFG', hd'⟩
  have hm : (1 / 4 : ℝ) ∈ Set.Ioo (0 : ℝ) 1 := ⟨by norm_num, by norm_num⟩
  have hmc : (1 / 4 : ℝ) ∈ Set.Icc (0 : ℝ) 1 := ⟨by norm_num, by norm_num⟩
  have e : F' =ᶠ[nhds (1 / 4)] F := by
    filter_upwards [Ioo_mem_nhds hm.1 hm.2] with s hs
    have h1 := (hFG' s hs).1
    have h2 := (hFG s ⟨hs.1.le, hs.2.le⟩).1
    rw [h1] at h2
    exact Except.ok.inj h2
  have hu := (hd' _ hm).unique ((hd _ hmc).congr_of_eventuallyEq e)
  have hv := (hFG' _ hm).2
  have hv2 := (hFG _ hmc).2
  simp only at hv hv2
  rw [hv] at hv2
  have hg := Except.ok.inj hv2
  have h0 : G' (1 / 4) = 0 := by linarith [hg, hu]
  unfold FootTrajectory.between at hf
  rw [assertThat_true hb, ok_bind, pure_eq_ok] at hf
  cases hf
  rw [FootTrajectory.evalz_velocity _ hmc] at hv
  have hv' := Except.ok.inj hv
  rw [h0] at hv'
  norm_num [FootTrajectory.heightRate, Cubic.rate, Cubic.ends] at hv'

/-- **C30**, part: the trajectory between two states has the requested positions and orientations at the ends when the states are
at rest. -/
theorem C30_states_partial (a b s : RigidBodyState K) (h : K) (hb : b.position 2 ≤ a.position 2 + h) (ha0 : a.velocity = 0)
    (hb0 : b.velocity = 0) (hwa : a.angularVelocity 2 = 0) (hwb : b.angularVelocity 2 = 0) :
    ∃ f s0 s1, FootTrajectory.betweenStates a b h = .ok f ∧ f.evalState s 0 = .ok s0 ∧ f.evalState s 1 = .ok s1 ∧
      s0.position = a.position ∧ s0.velocity = 0 ∧ s0.rpy 2 = a.rpy 2 ∧ s0.angularVelocity 2 = 0 ∧
      s1.position = b.position ∧ s1.velocity = 0 ∧ s1.rpy 2 = b.rpy 2 ∧ s1.angularVelocity 2 = 0 := by
  have r0 : (0 : K) ≤ 0 ∧ (0 : K) ≤ 1 := ⟨le_rfl, zero_le_one⟩
  have r1 : (0 : K) ≤ 1 ∧ (1 : K) ≤ 1 := ⟨zero_le_one, le_rfl⟩
  have hz : ∀ x y : K, Cubic.endsWithVelocities x 0 y 0 = Cubic.ends x y := by
    intro x y; unfold Cubic.endsWithVelocities Cubic.ends; simp
  unfold FootTrajectory.betweenStates
  rw [assertThat_true hb, ok_bind, ha0, hb0, hwa, hwb]
  simp only [Pi.zero_apply, hz]
  have hacc : ∀ (f : FootTrajectory K) (t : K), 0 ≤ t ∧ t ≤ 1 → ∃ v, f.eval t .acceleration = .ok v := by
    intro f t ht
    unfold FootTrajectory.eval FootTrajectory.evalz
    have hr := FootTrajectory.half_range ht
    simp only [Cubic.eval]
    rw [Cubic.getAcceleration_ok _ ht, Cubic.getAcceleration_ok _ ht, ok_bind, ok_bind]
    split
    · rename_i h'; rw [Cubic.getAcceleration_ok _ (hr.1 h')]; exact ⟨_, rfl⟩
    · rename_i h'; rw [Cubic.getAcceleration_ok _ (hr.2 h')]; exact ⟨_, rfl⟩
  obtain ⟨v0, hv0⟩ := hacc ⟨.ends (a.position 0) (b.position 0), .ends (a.position 1) (b.position 1),
    .ends (a.position 2) (a.position 2 + h), .ends (h + a.position 2) (b.position 2), .ends (a.rpy 2) (b.rpy 2)⟩ 0 r0
  obtain ⟨v1, hv1⟩ := hacc ⟨.ends (a.position 0) (b.position 0), .ends (a.position 1) (b.position 1),
    .ends (a.position 2) (a.position 2 + h), .ends (h + a.position 2) (b.position 2), .ends (a.rpy 2) (b.rpy 2)⟩ 1 r1
  obtain ⟨f', m, hf', p0, u0, p1, u1, -, -⟩ := C30_ends ⟨.default, .default, .default, .default, .ends (a.rpy 2) (b.rpy 2)⟩
    a.position b.position h hb
  unfold FootTrajectory.between at hf'
  rw [assertThat_true hb, ok_bind, pure_eq_ok] at hf'
  cases hf'
  obtain ⟨t1, t2, t3, t4⟩ := C29_ends (a.rpy 2) (b.rpy 2)
  have q : ∀ (f : FootTrajectory K) (t : K) (p v u : Fin 3 → K) (th w : K), 0 ≤ t ∧ t ≤ 1 → f.eval t .position = .ok p →
      f.eval t .velocity = .ok v → f.eval t .acceleration = .ok u → f.theta.getPosition t = .ok th →
      f.theta.getVelocity t = .ok w → ∃ s', f.evalState s t = .ok s' ∧ s'.position = p ∧ s'.velocity = v ∧ s'.rpy 2 = th ∧
        s'.angularVelocity 2 = w := by
    intro f t p v u th w ht e1 e2 e3 e4 e5
    unfold FootTrajectory.evalState
    rw [e1, e2, e3]
    simp only [ok_bind, Cubic.eval]
    rw [e4, e5, Cubic.getAcceleration_ok _ ht]
    exact ⟨_, rfl, rfl, rfl, by simp, by simp⟩
  obtain ⟨s0, g0, g1, g2, g3, g4⟩ := q _ 0 _ _ _ _ _ r0 p0 u0 hv0 t1 t3
  obtain ⟨s1, k0, k1, k2, k3, k4⟩ := q _ 1 _ _ _ _ _ r1 p1 u1 hv1 t2 t4
  exact ⟨_, s0, s1, rfl, g0, k0, g1, g2, g3, g4, k1, k2, k3, k4⟩

/-- **C30** fails for trajectories with velocities at the ends: a motion in the direction x from 0 to 1 with the velocity 1 at
both ends arrives in 2. -/
theorem C30_end_refuted : ∃ f p, FootTrajectory.default.betweenWithVelocities (0 : Fin 3 → ℚ) ![1, 0, 0] ![1, 0, 0] ![1, 0, 0] 0 = .ok f ∧
    f.eval 1 .position = .ok p ∧ p 0 = 2 := by
  have hb : (![1, 0, 0] : Fin 3 → ℚ) 2 ≤ (0 : Fin 3 → ℚ) 2 + 0 := by simp
  unfold FootTrajectory.betweenWithVelocities
  rw [assertThat_true hb, ok_bind]
  refine ⟨_, _, rfl, FootTrajectory.eval_position _ ⟨zero_le_one, le_rfl⟩, ?_⟩
  norm_num [Cubic.value, Cubic.endsWithVelocities]

/-- A step 0.2 forward and 0.05 up with the height 0.1. -/
example : ∃ f m, FootTrajectory.default.between (0 : Fin 3 → ℚ) ![1 / 5, 0, 1 / 20] (1 / 10) = .ok f ∧
    f.eval (1 / 2) .position = .ok m ∧ m 2 = 1 / 10 := by
  obtain ⟨f, m, h1, -, -, -, -, h2, h3⟩ := C30_ends FootTrajectory.default (0 : Fin 3 → ℚ) ![1 / 5, 0, 1 / 20] (1 / 10) (by
    simp; norm_num)
  exact ⟨f, m, h1, h2, by simpa using h3⟩

end Humoto
