import Verif.Lemmas.WpgStability

/-!
# Walking pattern generator: distances and number of steps in a plan
-/

namespace Humoto.Wpg

open Spec Spec.Wpg PointMass6z

section
variable {p : FSMParams} {N T : ℕ} {q : MPCParameters} {o : ProblemSetup} {nan : ℝ} {n : ℕ} {s : LoopState}
  {side : StanceType} {k : ℕ} {w : WalkParameters} {mpc : Mpc} {junkH : ℕ → Interval} {junk : ℕ → ℕ → ℕ → ℕ → ℝ} {junkI : ℕ → ℕ → ℕ}

theorem allowed_within (hp : LoopParameters p N T) (hq : MPCParameters.make N T T T = .ok q) (hI : LoopInv p N T q n s side k)
    (hu : UpdateReturns nan junkH junk junkI s.model s.fsm w s.mpc (.ok (mpc, .ok))) (hf : SaneFeet s.model.params) {x : ℕ → ℝ}
    (hx : AllowedMotion o mpc.horizon s.model x) : StepsWithin mpc.horizon x := by
  have hR := updated_ready (loop_updated hp hq hI hu).1
  have h := hx.steps
  split_ifs at h
  · refine C81_fixed_within (fun k hk s1 hs1 a => ?_) h
    obtain ⟨t, ht, -⟩ := horizon_bounds hp hq hI hu (hR.steps k hk).2 hs1
    exact footBounds_ordered hf.step.1 hf.distances.1 ht a
  · exact h

/-- Distances in a plan. -/
theorem plan_near (hp : LoopParameters p N T) (hq : MPCParameters.make N T T T = .ok q) (hI : LoopInv p N T q n s side k)
    (hu : UpdateReturns nan junkH junk junkI s.model s.fsm w s.mpc (.ok (mpc, .ok))) (hf : SaneFeet s.model.params) {x : ℕ → ℝ}
    (hx : AllowedMotion o mpc.horizon s.model x) {P cop : ℕ → Fin 2 → ℝ} {X : ℕ → Fin 6 → ℝ}
    (hX : Prediction mpc.horizon s.model x P cop X) :
    (∀ j < mpc.horizon.variable_steps.length, ∀ a, |P (j + 1) a - P j a| ≤ reach s.model.params) ∧
    ∀ i < mpc.horizon.intervals.n, ∀ a, |cop i a - P (stepsBy mpc.horizon i) a| ≤ sole s.model.params := by
  have hR := updated_ready (loop_updated hp hq hI hu).1
  have hW := allowed_within hp hq hI hu hf hx
  constructor
  · intro j hj a
    obtain ⟨k, s1, e1, e2⟩ := hR.step hj
    have hk := hR.steps k (List.mem_of_getElem? e1)
    obtain ⟨s0, e0⟩ := hR.states (k - 1) (by omega)
    obtain ⟨t, ht, -⟩ := horizon_bounds hp hq hI hu hk.2 e2
    have hb := footBounds_reach hf ht
    have h := hW j k s1 e1 e2
    exact turned_bound (hX.footsteps.step j k s0 e1 e0) (abs_of_bounds (h 0).1 (h 0).2 (hb 0).1 (hb 1).1)
      (abs_of_bounds (h 1).1 (h 1).2 (hb 0).2 (hb 1).2) a
  · intro i hi a
    obtain ⟨s1, e1⟩ := hR.states i hi
    obtain ⟨t, -, hB⟩ := horizon_bounds hp hq hI hu hi e1
    obtain ⟨b0, b1⟩ := copBounds_sole hf t
    have h := hx.cop i s1 hi e1
    rw [hB] at h
    have := turned_bound (hX.pressure i s1 hi e1) (abs_of_bounds (h 0).1 (h 0).2 (b0 0) (b0 1)) (abs_of_bounds (h 1).1 (h 1).2 (b1 0) (b1 1)) a
    refine this.trans (le_of_eq ?_)
    unfold sole
    ring

theorem support_distance {P : ℕ → Fin 2 → ℝ} {L : ℕ} {r : ℝ} {a : Fin 2} (h : ∀ j < L, |P (j + 1) a - P j a| ≤ r) :
    ∀ j ≤ L, |P j a - P 0 a| ≤ j * r := by
  intro j
  induction j with
  | zero => intro _; simp
  | succ j ih =>
    intro hj
    have h1 := ih (by omega)
    have h2 := h j (by omega)
    have : P (j + 1) a - P 0 a = (P (j + 1) a - P j a) + (P j a - P 0 a) := by ring
    rw [this]
    refine (abs_add_le _ _).trans ?_
    push_cast
    linarith

/-- Duration of the stances by the end of a step. -/
theorem run_sum (hp : LoopParameters p N T) {f : FSM} (h : MachineInv p T side k f) {r : ℕ → FSM} {m : ℕ} (hr : EndsAt f (N * T) r m) :
    ∀ j, 2 * j + k % 2 < m → j * (p.tdsMs + p.ssMs) + T ≤ ∑ i ∈ Finset.range (2 * j + k % 2 + 1), remaining (r i) := by
  have hrem := fun {i} (hi : i ≤ m) => run_remaining hp h hr.run hi
  have hsum : ∀ i < m, remaining (r i) < N * T := fun i hi =>
    lt_of_le_of_lt (Finset.single_le_sum (f := fun i => remaining (r i)) (fun _ _ => Nat.zero_le _) (Finset.mem_range.2 hi)) hr.before
  have hmid : ∀ i < m, 0 < i → (k + i) % 2 = 0 → p.ssMs ≤ remaining (r i) := by
    intro i hi h0 hpar
    match i, h0 with
    | i + 1, _ =>
      have hI := runTo_inv h.ok h.inv hr.run hi.le
      have ht := (shiftStance_time (hr.run.2 i (by omega))).1
      have hu : (r (i + 1)).cur.type ≠ .undefined := by rw [hI.type]; exact (walkType_legal h.ok).defined _
      have hd := hsum _ hi
      unfold Spec.remaining at hd ⊢
      rw [ht, Nat.sub_zero, hI.duration, if_neg (by omega)] at hd ⊢
      cases e : (r (i + 1)).cur.type with
      | undefined => exact absurd e hu
      | ds => rw [e] at hd; simp only [dur] at hd; have := hp.last.2; omega
      | lss => exact le_rfl
      | rss => exact le_rfl
      | tds =>
        exfalso
        rw [hI.type] at e
        unfold walkType at e
        rw [if_neg (by omega)] at e
        split_ifs at e with h1 h2 h3
        · omega
        · exact (single_ne (sideAt_single (h.ok.side (not_noSteps h1)) _)).1 e
  have hT : ∀ i ≤ m, T ≤ remaining (r i) := fun i hi => (hrem hi).2
  have htds := hp.transition
  have hk : k % 2 = 0 ∨ k % 2 = 1 := by omega
  generalize hd : k % 2 = d at hk
  intro j
  induction j with
  | zero =>
    intro hj
    rw [Nat.zero_mul, Nat.zero_add]
    refine (hT 0 (by omega)).trans ?_
    exact Finset.single_le_sum (f := fun i => remaining (r i)) (fun _ _ => Nat.zero_le _) (Finset.mem_range.2 (by omega))
  | succ j ih =>
    intro hj
    have ih := ih (by omega)
    rw [show 2 * (j + 1) + d + 1 = 2 * j + d + 1 + 1 + 1 by ring, Finset.sum_range_succ, Finset.sum_range_succ, Nat.succ_mul]
    have h1 := hT (2 * j + d + 1) (by omega)
    have h2 := hT (2 * j + d + 1 + 1) (by omega)
    rcases hk with rfl | rfl
    · have h3 := hmid (2 * j + 0 + 2) (by omega) (by omega) (by omega)
      omega
    · have h3 := hmid (2 * j + 1 + 2) (by omega) (by omega) (by omega)
      omega

/-- The number of steps in a horizon. -/
theorem steps_number (hp : LoopParameters p N T) (hq : MPCParameters.make N T T T = .ok q) (h : LoopInv p N T q n s side k)
    (hu : UpdateReturns nan junkH junk junkI s.model s.fsm w s.mpc (.ok (mpc, .ok))) :
    mpc.horizon.variable_steps.length ≤ maxSteps p N T := by
  obtain ⟨e1, e2, -, e3, -⟩ := C55_derived hq
  have hpar := h.parameters
  have hM := h.machine
  have hN63 : s.mpc.parameters.preview_horizon_length < 2 ^ 63 := by rw [hpar, e1]; exact hp.horizon.2
  have hN : 0 < N * T := Nat.mul_pos (by have := hp.horizon.1; omega) hp.sampling
  obtain ⟨hc, hmp, -, l, hl, hW⟩ := C75_matrices hM.reach hp.proper hM.inside hN63 (by rw [hpar, e3]; exact hp.sampling) h.height hu
  obtain ⟨H, m, hH, -, hmpc⟩ := update_ok hu
  obtain ⟨l', hl', ho, -⟩ := C51_outcome hM.reach hp.proper hM.inside (q := s.mpc.parameters) hN63
    (by rw [hpar, e1, e2]; exact hN) nan junkH s.mpc.horizon s.model w
  have hcomp := (ho.1 ⟨H, hH⟩).1
  cases preview_unique hl hl'
  rw [hpar, e1, e2] at hcomp hW
  rw [e3] at hW
  obtain ⟨r, m, he, hs⟩ := steps_count hp hM hcomp hW
  generalize mpc.horizon.variable_steps.length = L at *
  unfold maxSteps
  rcases Nat.eq_zero_or_pos L with rfl | hL
  · exact Nat.zero_le _
  · have h1 := (hs (L - 1)).1 (by omega)
    have h2 := run_sum hp hM he (L - 1) h1
    have h3 : ∑ i ∈ Finset.range (2 * (L - 1) + k % 2 + 1), remaining (r i) ≤ ∑ i ∈ Finset.range m, remaining (r i) :=
      Finset.sum_le_sum_of_subset (Finset.range_mono (by omega))
    have h4 := he.before
    have h5 : 0 < p.tdsMs + p.ssMs := by have := hp.single.2; omega
    have h6 : L - 1 ≤ N * T / (p.tdsMs + p.ssMs) := by
      rw [Nat.le_div_iff_mul_le h5]
      omega
    omega

/-- The centres of pressure of a plan are not far from the support of the robot. -/
theorem pressure_near (hp : LoopParameters p N T) (hq : MPCParameters.make N T T T = .ok q) (hI : LoopInv p N T q n s side k)
    (hu : UpdateReturns nan junkH junk junkI s.model s.fsm w s.mpc (.ok (mpc, .ok))) (hf : SaneFeet s.model.params) {x : ℕ → ℝ}
    (hx : AllowedMotion o mpc.horizon s.model x) {P cop : ℕ → Fin 2 → ℝ} {X : ℕ → Fin 6 → ℝ}
    (hX : Prediction mpc.horizon s.model x P cop X) (a : Fin 2) :
    ∀ i < mpc.horizon.intervals.n, |cop i a - s.model.current_support_position a| ≤ farthest s.model.params (maxSteps p N T) := by
  obtain ⟨h1, h2⟩ := plan_near hp hq hI hu hf hx hX
  have hr := reach_nonneg hf
  intro i hi
  have h3 := h2 i hi a
  have h4 := support_distance (a := a) (fun j hj => h1 j hj a) _ (stepsBy_le mpc.horizon i)
  rw [hX.footsteps.start] at h4
  have h5 : ((stepsBy mpc.horizon i : ℕ) : ℝ) ≤ maxSteps p N T := by
    exact_mod_cast (stepsBy_le mpc.horizon i).trans (steps_number hp hq hI hu)
  unfold farthest
  have h6 := mul_le_mul_of_nonneg_right h5 hr
  have : cop i a - s.model.current_support_position a = (cop i a - P (stepsBy mpc.horizon i) a) +
    (P (stepsBy mpc.horizon i) a - s.model.current_support_position a) := by ring
  rw [this]
  exact (abs_add_le _ _).trans (by linarith)

end

end Humoto.Wpg
