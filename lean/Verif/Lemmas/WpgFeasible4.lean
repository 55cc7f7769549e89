import Verif.Lemmas.WpgFeasible3

/-!
# Walking pattern generator: the rest of a motion is allowed in the next iteration
-/

namespace Humoto.Wpg

open Spec Spec.Wpg PointMass6z

/-- The rest of a solution: the centre of pressure stays where it is at the end, the steps which have been made are removed. -/
def shiftedSolution (N d : ℕ) (x : ℕ → ℝ) (v : ℕ) : ℝ :=
  if v < 2 * N then if v + 2 < 2 * N then x (v + 2) else x v else x (v + 2 * d)

theorem shifted_cop {N d : ℕ} {x : ℕ → ℝ} {i : ℕ} (hi : i < N) (a : Fin 2) :
    shiftedSolution N d x (2 * i + a) = x (2 * min (i + 1) (N - 1) + a) := by
  unfold shiftedSolution
  have ha := a.2
  rw [if_pos (by omega)]
  split
  · congr 1
    omega
  · congr 1
    omega

theorem shifted_step {N d : ℕ} {x : ℕ → ℝ} (v : ℕ) : shiftedSolution N d x (2 * N + v) = x (2 * N + (v + 2 * d)) := by
  unfold shiftedSolution
  rw [if_neg (by omega)]
  congr 1
  omega

theorem turned_unique {θ : ℝ} {v r r' : Fin 2 → ℝ} (h : IsTurned θ v r) (h' : IsTurned θ v r') : r = r' := by
  funext a
  fin_cases a
  · exact h.1.trans h'.1.symm
  · exact h.2.trans h'.2.symm

/-- The centre of pressure remains in the capture point. -/
theorem capture_stays {h T : ℝ} (hh : 0 < h) (hT : 0 < T) {x x' : Fin 6 → ℝ} {u : Fin 2 → ℝ} (hm : Moves h T T x u x') (a : Fin 2)
    (hz : IsPressure h x a (u a)) (hc : IsCapturePointVelocity h x a 0) : IsCapturePointVelocity h x' a 0 := by
  obtain ⟨hp, l, m, m', hl0, hl1, -, hm', e, -⟩ := interval_axis hh hT hm a hz
  have hmz : m' = u a := by
    obtain ⟨t, -, -, rfl⟩ := hm'
    ring
  have hw := getOmega_pos h hh
  have hw2 : getOmega h ^ 2 * h = gravity := (omega_frequency hh).2
  -- the velocity of the capture point in terms of its distance to the centre of pressure
  have key : ∀ y : Fin 6 → ℝ, IsPressure h y a (u a) → velocityOf y a + y (if a = 0 then 2 else 5) / getOmega h =
      getOmega h * (positionOf y a + velocityOf y a / getOmega h - u a) := by
    intro y hy
    have h1 : y (if a = 0 then 2 else 5) * h = gravity * (positionOf y a - u a) := hy
    have h2 : y (if a = 0 then 2 else 5) = getOmega h ^ 2 * (positionOf y a - u a) := by
      rw [← hw2] at h1
      have : h * (y (if a = 0 then 2 else 5) - getOmega h ^ 2 * (positionOf y a - u a)) = 0 := by linear_combination h1
      have := (mul_eq_zero.1 this).resolve_left hh.ne'
      linarith
    rw [h2]
    field_simp
    ring
  obtain ⟨w, hw1, hw2', hw3⟩ := hc
  have hww : w = getOmega h := frequency_unique hh ⟨hw1, hw2'⟩
  subst hww
  refine ⟨getOmega h, hw1, hw2', ?_⟩
  have h3 : 0 = velocityOf x a + x (if a = 0 then 2 else 5) / getOmega h := hw3
  rw [key x hz] at h3
  have h4 := (mul_eq_zero.1 h3.symm).resolve_left hw.ne'
  show 0 = velocityOf x' a + x' (if a = 0 then 2 else 5) / getOmega h
  rw [key x' hp]
  rw [hmz] at e
  have h5 : l * (positionOf x' a + velocityOf x' a / getOmega h - u a) = 0 := by linear_combination h4 - e
  rw [(mul_eq_zero.1 h5).resolve_left hl0.ne', mul_zero]

section
variable {p : FSMParams} {N T : ℕ} {q : MPCParameters} {n : ℕ} {nan : ℝ} {s s' : LoopState} {mpc : Mpc} {st : ModelState}
  {x : ℕ → ℝ} {P cop : ℕ → Fin 2 → ℝ} {X : ℕ → Fin 6 → ℝ} {side : StanceType} {k k' : ℕ} {w : WalkParameters}

theorem Iteration.made (hp : LoopParameters p N T) (h : Iteration p N T q n nan s s' mpc st x P cop X side k k' w) {l : List Stance}
    (hP : Planned p N T side n k s.model w mpc.horizon l) :
    (1 ∈ mpc.horizon.variable_steps ↔ Planned.made k k' = 1) ∧ (s'.fsm.cur.type = .tds ↔ Planned.made k k' = 1) ∧ Planned.made k k' ≤ 1 := by
  have hM := h.before.machine
  have hM' := h.after.machine
  have hN := hp.horizon.1
  have hTp := hp.sampling
  have hcase := h.parity
  have hle : Planned.made k k' ≤ 1 := by
    unfold Planned.made
    rcases hcase with ⟨rfl, -⟩ | ⟨rfl, -⟩ <;> omega
  refine ⟨⟨fun h1 => ?_, fun h1 => ?_⟩, ?_, hle⟩
  · by_contra hne
    obtain ⟨j, hj⟩ := List.mem_iff_getElem?.1 h1
    obtain ⟨-, -, hz, hjn, ht⟩ := (hP.steps j 1).1 hj
    have h2 := restMs_even hz hjn
    have h3 := h.after.time
    have h4 := (hM'.remaining hp).2
    have h5 := restMs_antitone (p := p) (show k' ≤ 2 * ((k + 1) / 2 + j) by
      unfold Planned.made at hne
      rcases hcase with ⟨rfl, -⟩ | ⟨rfl, -⟩ <;> omega)
    omega
  · obtain ⟨hk', hk⟩ : k' = k + 1 ∧ k % 2 = 0 := by
      unfold Planned.made at h1
      rcases hcase with ⟨rfl, -⟩ | ⟨rfl, -⟩ <;> omega
    obtain ⟨hz, hkn⟩ : ¬ NoSteps p p.numSteps ∧ k < 2 * p.numSteps + 2 := by
      rcases hcase with ⟨e, -⟩ | ⟨-, e1, e2⟩
      · omega
      · exact ⟨e1, e2⟩
    have hrem : remaining s.fsm = T := by
      rcases h.cases with ⟨e, -⟩ | ⟨-, e, -⟩
      · omega
      · exact e
    refine List.mem_of_getElem? ((hP.steps 0 1).2 ⟨by omega, by omega, hz, by omega, ?_⟩)
    have h2 := restMs_even hz (show (k + 1) / 2 + 0 ≤ p.numSteps by omega)
    have h3 := h.before.time
    rw [show 2 * ((k + 1) / 2 + 0) = k by omega] at h2
    rw [hrem] at h3
    rw [Nat.add_mul, Nat.one_mul]
    omega
  · rw [hM'.inv.type, walkType_parity hM'.ok hM'.pos.1 hM'.pos.2]
    unfold Planned.made
    rcases hcase with ⟨rfl, e, -⟩ | ⟨rfl, -⟩ <;> omega

/-- The rest of a motion. -/
theorem Iteration.continued (hp : LoopParameters p N T) (h : Iteration p N T q n nan s s' mpc st x P cop X side k k' w) {l l' : List Stance}
    (hP : Planned p N T side n k s.model w mpc.horizon l) {w' : WalkParameters} {H' : Horizon}
    (hP' : Planned p N T side (n + 1) k' s'.model w' H' l') (hw : w'.theta_increment = w.theta_increment)
    (hI : TurnInv p side w.theta_increment k s.model) (hsup : s'.model.current_support_position = if s'.fsm.cur.type = .tds then P 1 else P 0)
    (hno : N - 1 ∉ H'.variable_steps) {o : ProblemSetup} (hx : AllowedMotion o mpc.horizon s.model x) :
    AllowedMotion o H' s'.model (shiftedSolution N (Planned.made k k') x) := by
  obtain ⟨hm, hm2, hm1⟩ := h.made hp hP
  have hN := hp.horizon.1
  have hk : k' = k ∨ k' = k + 1 := by rcases h.parity with ⟨e, -⟩ | ⟨e, -⟩ <;> omega
  have hsz := hP.follows.size
  have hsz' := hP'.follows.size
  have hby := hP.next_stepsBy hP' hk hm hm1
  have hby' : ∀ i < N, stepsBy mpc.horizon (min (i + 1) (N - 1)) = stepsBy H' i + Planned.made k k' := by
    intro i hi
    by_cases hlast : i + 1 < N
    · rw [min_eq_left (by omega)]
      exact hby i hlast
    · rw [min_eq_right (by omega), show i = N - 2 + 1 by omega, show N - 1 = N - 2 + 1 by omega, hby (N - 2) (by omega),
        stepsBy_next hP'.follows.sorted, if_neg (by rw [show N - 2 + 1 = N - 1 by omega]; exact hno), Nat.add_zero]
  have hstate : ∀ (i : ℕ) (a' : WalkState), i < N → H'.getWalkState i = .ok a' →
      ∃ a, mpc.horizon.getWalkState (min (i + 1) (N - 1)) = .ok a ∧ Agree a a' := by
    intro i a' hi ha'
    have hi' : min (i + 1) (N - 1) < N := by omega
    obtain ⟨a, ha⟩ := hP.exists_state hi'
    refine ⟨a, (hP.state hi').2 ha, ?_⟩
    rw [hP'.state hi] at ha'
    rw [hby' i hi] at ha
    exact h.agree hp hP hP' hw hI _ ha ha'
  have hstep : ∀ j a, H'.variable_steps[j]? = some a → 0 < a ∧ a + 1 < N ∧ mpc.horizon.variable_steps[j + Planned.made k k']? = some (a + 1) := by
    intro j a ha
    rcases (hP.next_step hP' hk).1 ha with ⟨h1, ⟨h2, h3⟩ | ⟨h2, -⟩⟩
    · exact ⟨h1, h2, h3⟩
    · refine absurd ?_ hno
      rw [show N - 1 = a by omega]
      exact List.mem_of_getElem? ha
  have hX := h.predicted
  refine ⟨?_, ?_, fun ht P' cop' X' hX' a => ?_⟩
  · have hs := hx.steps
    split at hs
    · rename_i ho
      rw [if_pos ho]
      intro j c a' hj ha'
      obtain ⟨h1, h2, h3⟩ := hstep j c hj
      obtain ⟨a, ha, hag⟩ := hstate c a' (by omega) ha'
      rw [min_eq_left (by omega)] at ha
      obtain ⟨g1, g2⟩ := hs _ _ a h3 ha
      rw [hsz] at g1 g2
      rw [hsz', hag.feet, hag.type]
      constructor
      · rw [shifted_step, ← g1]
        congr 1
        omega
      · rw [Nat.add_assoc, shifted_step, ← g2]
        congr 1
        omega
    · rename_i ho
      rw [if_neg ho]
      intro j c a' hj ha' b
      obtain ⟨h1, h2, h3⟩ := hstep j c hj
      obtain ⟨a, ha, hag⟩ := hstate c a' (by omega) ha'
      rw [min_eq_left (by omega)] at ha
      have g := hs _ _ a h3 ha b
      rw [hsz, show 2 * N + 2 * (j + Planned.made k k') + (b : ℕ) = 2 * N + (2 * j + b + 2 * Planned.made k k') by omega] at g
      rw [hsz', hag.feet, Nat.add_assoc, shifted_step]
      exact g
  · intro i a' hi ha' b
    rw [hsz'] at hi
    obtain ⟨a, ha, hag⟩ := hstate i a' hi ha'
    rw [hag.cop, shifted_cop hi]
    exact hx.cop _ a (by rw [hsz]; omega) ha b
  · -- the supports
    have hPP : ∀ j ≤ H'.variable_steps.length, P' j = P (j + Planned.made k k') := by
      intro j
      induction j with
      | zero =>
        intro _
        rw [hX'.footsteps.start, hsup, Nat.zero_add]
        by_cases hd : Planned.made k k' = 1
        · rw [if_pos (hm2.2 hd), hd]
        · rw [if_neg fun e => hd (hm2.1 e), show Planned.made k k' = 0 by omega]
      | succ j ih =>
        intro hj
        obtain ⟨c, hc⟩ : ∃ c, H'.variable_steps[j]? = some c := ⟨_, List.getElem?_eq_getElem (by omega)⟩
        obtain ⟨h1, h2, h3⟩ := hstep j c hc
        obtain ⟨a', ha'⟩ := hP'.exists_state (show c - 1 < N by omega)
        rw [← hP'.state (by omega)] at ha'
        obtain ⟨a, ha, hag⟩ := hstate (c - 1) a' (by omega) ha'
        rw [min_eq_left (by omega), show c - 1 + 1 = c + 1 - 1 by omega] at ha
        have g' := hX'.footsteps.step j c a' hc ha'
        have g := hX.footsteps.step _ _ a h3 ha
        beta_reduce at g g'
        rw [hsz', shifted_step, shifted_step, hag.theta] at g'
        rw [hsz, show 2 * (j + Planned.made k k') = 2 * j + 2 * Planned.made k k' by omega,
          show 2 * j + 2 * Planned.made k k' + 1 = 2 * j + 1 + 2 * Planned.made k k' by omega] at g
        have := turned_unique g' g
        rw [ih (by omega)] at this
        rw [show j + 1 + Planned.made k k' = j + Planned.made k k' + 1 by omega]
        exact sub_left_inj.1 this
    have hcop : ∀ i < N, cop' i = cop (min (i + 1) (N - 1)) := by
      intro i hi
      obtain ⟨a', ha'⟩ := hP'.exists_state hi
      rw [← hP'.state hi] at ha'
      obtain ⟨a, ha, hag⟩ := hstate i a' hi ha'
      have g' := hX'.pressure i a' (by rw [hsz']; exact hi) ha'
      have g := hX.pressure _ a (by rw [hsz]; omega) ha
      have c0 := shifted_cop (d := Planned.made k k') (x := x) hi 0
      have c1 := shifted_cop (d := Planned.made k k') (x := x) hi 1
      simp only [Fin.val_zero, Fin.val_one, Nat.add_zero] at c0 c1
      rw [c0, c1, hag.theta, hPP _ (stepsBy_le _ _), ← hby' i hi] at g'
      exact sub_left_inj.1 (turned_unique g' g)
    have hh : 0 < s.model.getCoMHeight := h.before.height
    have hheight := h.stepped.height
    have htime : ∀ i < N, (H'.intervals.e i).T = (T : ℝ) / 1000 := fun i hi => by have := hP'.times i hi; linarith
    have htime' : ∀ i < N, (mpc.horizon.intervals.e i).T = (T : ℝ) / 1000 := fun i hi => by have := hP.times i hi; linarith
    have hTp : (0 : ℝ) < (T : ℝ) / 1000 := div_pos (Nat.cast_pos.2 hp.sampling) (by norm_num)
    have hXX : ∀ i < N, X' i = X (i + 1) := by
      intro i
      induction i with
      | zero =>
        intro _
        rw [hX'.start, h.stepped.state]
      | succ i ih =>
        intro hi
        have g' := hX'.motion i (by rw [hsz']; omega)
        have g := hX.motion (i + 1) (by rw [hsz]; exact hi)
        rw [hheight, htime i (by omega), ih (by omega), hcop i (by omega), min_eq_left (by omega)] at g'
        rw [htime' (i + 1) hi] at g
        rw [(moves_iff hh hTp.ne' _ _ _ _).1 g', ← (moves_iff hh hTp.ne' _ _ _ _).1 g]
    have hend := hx.terminal ht P cop X hX a
    rw [hsz] at hend
    rw [hsz', hheight]
    have glast := hX'.motion (N - 1) (by rw [hsz']; omega)
    rw [hheight, htime (N - 1) (by omega), hXX (N - 1) (by omega), hcop (N - 1) (by omega), min_eq_right (by omega),
      show N - 1 + 1 = N by omega] at glast
    have gprev := hX.motion (N - 1) (by rw [hsz]; omega)
    rw [htime' (N - 1) (by omega), show N - 1 + 1 = N by omega] at gprev
    obtain ⟨z, hz⟩ := pressure_exists (h := s.model.getCoMHeight) (X (N - 1)) a
    exact capture_stays hh hTp glast a (interval_axis hh hTp gprev a hz).1 hend

end

end Humoto.Wpg
