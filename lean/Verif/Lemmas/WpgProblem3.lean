import Verif.Lemmas.WpgProblem2

/-!
# Walking pattern generator: meaning of the optimization problem
-/

namespace Humoto.Wpg

open Spec Spec.Wpg

theorem sum_pairs (f : ℕ → ℝ) (N : ℕ) :
    ∑ r ∈ Finset.range (2 * N), f r = ∑ i ∈ Finset.range N, ∑ a : Fin 2, f (2 * i + a) := by
  induction N with
  | zero => rfl
  | succ N ih =>
    rw [Finset.sum_range_succ, ← ih, show 2 * (N + 1) = 2 * N + 1 + 1 by omega, Finset.sum_range_succ, Finset.sum_range_succ,
      Fin.sum_univ_two, add_assoc]
    rfl

theorem isZmp_unique {h c a z z' : ℝ} (h1 : IsZmp PointMass6z.gravity h c a z) (h2 : IsZmp PointMass6z.gravity h c a z') : z = z' := by
  unfold IsZmp at h1 h2
  have hg : PointMass6z.gravity ≠ 0 := by unfold PointMass6z.gravity; norm_num
  have := mul_left_cancel₀ hg (h1.symm.trans h2)
  linarith

theorem isCopVelocity_unique {h T : ℝ} (hT : 0 < T) {x : Fin 6 → ℝ} {u : Fin 2 → ℝ} {a : Fin 2} {v v' : ℝ} (h1 : IsCopVelocity h T x u a v)
    (h2 : IsCopVelocity h T x u a v') : v = v' := by
  obtain ⟨z, hz, e⟩ := h1
  obtain ⟨z', hz', e'⟩ := h2
  cases isZmp_unique hz hz'
  exact mul_right_cancel₀ hT.ne' (e.trans e'.symm)

theorem isTurned_zero {θ : ℝ} {v : Fin 2 → ℝ} (h : IsTurned θ v 0) : v 0 = 0 ∧ v 1 = 0 := by
  obtain ⟨h0, h1⟩ := h
  simp only [Pi.zero_apply] at h0 h1
  have := Real.sin_sq_add_cos_sq θ
  constructor
  · linear_combination (-v 0) * this - Real.cos θ * h0 - Real.sin θ * h1
  · linear_combination (-v 1) * this + Real.sin θ * h0 - Real.cos θ * h1

section
variable {model : Model} {mpc : Mpc} {o : ProblemSetup}

/-- Only the zero solution has no residuals, up to the constant terms. -/
theorem walk_determined (h : Ready model mpc) {cp cv : Ctr ℝ} {gp gv : ℝ} (hp : CopPositionTask mpc.horizon gp cp) (htp : cp.ctype = .gib0)
    (hv : CopVelocityTask mpc.horizon model gv cv) (htv : cv.ctype = .ab) (hgp : gp ≠ 0) (hgv : gv ≠ 0) {x : ℕ → ℝ}
    (hx : ∀ i < rows cp, lhs cp x i = 0) (hx' : ∀ i < rows cv, lhs cv x i = 0) : ∀ j < problemSize mpc, x j = 0 := by
  have hcop : ∀ i < 2 * mpc.horizon.intervals.n, x i = 0 := by
    intro i hi
    have e := hp.value x i hi
    unfold rowResidual target at e
    rw [hx i (by rw [hp.size]; exact hi), htp] at e
    simp only [sub_zero] at e
    exact (mul_eq_zero.1 e.symm).resolve_left hgp
  obtain ⟨P, cop, X, hX, -⟩ := C75_motion h.consistent x
  obtain ⟨P0, cop0, X0, hX0, -⟩ := C75_motion h.consistent (fun _ => 0)
  have hl0 : ∀ i, lhs cv (fun _ => 0) i = 0 := by
    intro i
    unfold lhs
    rw [htv]
    simp
  have hstep : ∀ i < mpc.horizon.intervals.n, X i = X0 i → cop i = cop0 i := by
    intro i hi e
    ext a
    obtain ⟨v, e1, z, hz, hvz⟩ := hv.value x P cop X hX i hi a
    obtain ⟨v0, e2, z0, hz0, hvz0⟩ := hv.value _ P0 cop0 X0 hX0 i hi a
    have hr : 2 * i + (a : ℕ) < rows cv := by rw [hv.size]; omega
    unfold rowResidual at e1 e2
    rw [hx' _ hr] at e1
    rw [hl0] at e2
    have : v = v0 := mul_left_cancel₀ hgv (e1.symm.trans e2)
    rw [e] at hz
    cases isZmp_unique hz hz0
    subst this
    linarith
  have hXX : ∀ i ≤ mpc.horizon.intervals.n, X i = X0 i := by
    intro i
    induction i with
    | zero => exact fun _ => hX.start.trans hX0.start.symm
    | succ i ih =>
      intro hi
      have e := ih (by omega)
      have h1 := (moves_iff h.consistent.height (h.consistent.times i hi).1.ne' _ _ _ _).1 (hX.motion i hi)
      have h2 := (moves_iff h.consistent.height (h.consistent.times i hi).1.ne' _ _ _ _).1 (hX0.motion i hi)
      rw [h1, h2, hstep i hi e, e]
  have hPP : ∀ i < mpc.horizon.intervals.n, P (stepsBy mpc.horizon i) = P0 (stepsBy mpc.horizon i) := by
    intro i hi
    obtain ⟨s, hs⟩ := h.states i hi
    have h1 := hX.pressure i s hi hs
    have h2 := hX0.pressure i s hi hs
    rw [hcop _ (by omega), hcop _ (by omega), hstep i hi (hXX i hi.le)] at h1
    ext a
    have e0 := h1.1.trans h2.1.symm
    have e1 := h1.2.trans h2.2.symm
    simp only [Pi.sub_apply] at e0 e1
    fin_cases a
    · exact sub_right_inj.1 e0
    · exact sub_right_inj.1 e1
  have hsteps : ∀ j ≤ mpc.horizon.variable_steps.length, P j = P0 j := by
    intro j hj
    cases j with
    | zero => exact hX.footsteps.start.trans hX0.footsteps.start.symm
    | succ j =>
      have hk : mpc.horizon.variable_steps[j]? = some mpc.horizon.variable_steps[j] := List.getElem?_eq_getElem hj
      have hr := h.steps _ (List.getElem_mem hj)
      have e := hPP _ hr.2
      have hsb := stepsBy_before h.sorted (fun k hk => (h.steps k hk).1) hk
      have hsn := stepsBy_next h.sorted (mpc.horizon.variable_steps[j] - 1)
      rw [show mpc.horizon.variable_steps[j] - 1 + 1 = mpc.horizon.variable_steps[j] by omega, hsb, if_pos (List.getElem_mem hj)] at hsn
      rwa [hsn] at e
  intro j hj
  by_cases hjc : j < 2 * mpc.horizon.intervals.n
  · exact hcop j hjc
  · obtain ⟨k, hk⟩ : ∃ k, j = 2 * mpc.horizon.intervals.n + k := ⟨j - 2 * mpc.horizon.intervals.n, by omega⟩
    have hkk : k / 2 < mpc.horizon.variable_steps.length := by unfold problemSize at hj; omega
    have hget : mpc.horizon.variable_steps[k / 2]? = some mpc.horizon.variable_steps[k / 2] := List.getElem?_eq_getElem hkk
    have hr := h.steps _ (List.getElem_mem hkk)
    obtain ⟨s, hs⟩ := h.states (mpc.horizon.variable_steps[k / 2] - 1) (by omega)
    have h1 := hX.footsteps.step _ _ s hget hs
    have h2 := hX0.footsteps.step _ _ s hget hs
    have hz : P0 (k / 2 + 1) - P0 (k / 2) = 0 := by
      ext a
      fin_cases a
      · exact h2.1.trans (by simp)
      · exact h2.2.trans (by simp)
    rw [hsteps _ hkk, hsteps _ hkk.le, hz] at h1
    obtain ⟨z0, z1⟩ := isTurned_zero h1
    rcases Nat.mod_two_eq_zero_or_one k with e | e
    · rw [hk, show k = 2 * (k / 2) by omega]
      exact z0
    · rw [hk, show k = 2 * (k / 2) + 1 by omega]
      exact z1

/-- A sum of squared residuals. -/
theorem residualSq_eq (c : Ctr ℝ) (x : ℕ → ℝ) {N : ℕ} (hN : rows c = 2 * N) :
    residualSq c x = ∑ i ∈ Finset.range N, ∑ a : Fin 2, rowResidual c x (2 * i + a) ^ 2 := by
  unfold residualSq
  rw [hN]
  exact sum_pairs (fun r => rowResidual c x r ^ 2) N

/-- The objective. -/
theorem walk_cost (h : Ready model mpc) {cv cm cp : Ctr ℝ} (hv : CopVelocityTask mpc.horizon model o.copVelocityGain cv)
    (hm : ComVelocityTask mpc.horizon model o.comVelocityGain cm) (hp : CopPositionTask mpc.horizon o.copPositionGain cp) (x : ℕ → ℝ) (c : ℝ) :
    IsCost o mpc.horizon model x c ↔ c = residualSq cv x + (residualSq cm x + residualSq cp x) := by
  have key : ∀ P cop X V, Prediction mpc.horizon model x P cop X →
      (∀ i < mpc.horizon.intervals.n, ∀ a : Fin 2,
        IsCopVelocity model.getCoMHeight (mpc.horizon.intervals.e i).T (X i) (cop i) a (V i a)) →
      walkCost o mpc.horizon x X V = residualSq cv x + (residualSq cm x + residualSq cp x) := by
    intro P cop X V hX hV
    rw [residualSq_eq cv x hv.size, residualSq_eq cm x hm.size, residualSq_eq cp x hp.size, ← Finset.sum_add_distrib, ← Finset.sum_add_distrib]
    unfold walkCost
    refine Finset.sum_congr rfl fun i hi => ?_
    have hi := Finset.mem_range.1 hi
    rw [← Finset.sum_add_distrib, ← Finset.sum_add_distrib]
    refine Finset.sum_congr rfl fun a _ => ?_
    obtain ⟨v, e, hv'⟩ := hv.value x P cop X hX i hi a
    rw [isCopVelocity_unique (h.consistent.times i hi).1 hv' (hV i hi a)] at e
    rw [e, hm.value x P cop X hX i hi a, hp.value x _ (by omega)]
    ring
  constructor
  · rintro ⟨P, cop, X, V, hX, hV, rfl⟩
    exact key P cop X V hX hV
  · rintro rfl
    obtain ⟨P, cop, X, hX, -⟩ := C75_motion h.consistent x
    have : ∀ i (a : Fin 2), ∃ v, i < mpc.horizon.intervals.n →
        IsCopVelocity model.getCoMHeight (mpc.horizon.intervals.e i).T (X i) (cop i) a v := by
      intro i a
      by_cases hi : i < mpc.horizon.intervals.n
      · obtain ⟨v, -, hv'⟩ := hv.value x P cop X hX i hi a
        exact ⟨v, fun _ => hv'⟩
      · exact ⟨0, fun hh => absurd hh hi⟩
    choose V hV using this
    exact ⟨P, cop, X, V, hX, fun i hi a => hV i a hi, (key P cop X V hX fun i hi a => hV i a hi).symm⟩

/-- The terminal constraint. -/
theorem walk_capturable (h : Ready model mpc) {c : Ctr ℝ} {gain : ℝ} (hg : gain ≠ 0) (ht : TerminalTask mpc.horizon model gain c)
    (hab : c.ctype = .ab) (x : ℕ → ℝ) : Satisfied c x ↔ Capturable mpc.horizon model x := by
  obtain ⟨t, nv, d⟩ := c
  cases hab
  rw [satisfied_ab]
  constructor
  · intro hx P cop X hX a
    obtain ⟨v, h1, h2⟩ := ht.value x P cop X hX a
    rw [hx a (by rw [ht.size]; exact a.2)] at h1
    rwa [(mul_eq_zero.1 h1.symm).resolve_left hg] at h2
  · intro hx i hi
    rw [ht.size] at hi
    obtain ⟨P, cop, X, hX, -⟩ := C75_motion h.consistent x
    obtain ⟨v, h1, w, hw, hwh, hv⟩ := ht.value x P cop X hX ⟨i, hi⟩
    obtain ⟨w', hw', hwh', hv'⟩ := hx P cop X hX ⟨i, hi⟩
    have hww : w' = w := by
      have e : w' ^ 2 = w ^ 2 := mul_right_cancel₀ h.consistent.height.ne' (hwh'.trans hwh.symm)
      exact (pow_left_inj₀ hw'.le hw.le two_ne_zero).1 e
    rw [hww, ← hv] at hv'
    rw [← hv', mul_zero] at h1
    exact h1

end

end Humoto.Wpg
