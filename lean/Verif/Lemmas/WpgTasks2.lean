import Verif.Lemmas.WpgTasks

/-!
# Lemmas on the tasks of the walking pattern generator: matrices
-/

namespace Humoto.Wpg

open Spec Spec.Wpg

/-- Selection of rows which stay within the matrix. -/
theorem selector_eval {A : Mat ℝ} (h : 0 < A.rows) {m : ℕ} (hm : A.rows = 3 * m) : ∃ V B, velocitySelector.mul A = .ok V ∧
    V.toMat = .ok B ∧ B.rows = m ∧ B.cols = A.cols ∧ ∀ i < m, ∀ j < A.cols, B.e i j = A.e (3 * i + 1) j := by
  have hlt : ∀ i < m, ∀ j < A.cols, 1 + i * 3 + j * A.rows < A.rows * A.cols := by
    intro i hi j hj
    have h1 : 1 + i * 3 < A.rows := by omega
    have h2 : (j + 1) * A.rows ≤ A.cols * A.rows := Nat.mul_le_mul_right _ hj
    rw [Nat.mul_comm A.rows A.cols]
    rw [Nat.add_mul, Nat.one_mul] at h2
    omega
  have hr : (A.rows - 1 + 3 - 1) / 3 = m := by omega
  refine ⟨⟨A, 1, m, A.cols, A.rows, 3⟩, ⟨m, A.cols, fun i j => A.e ((1 + i * 3 + j * A.rows) % A.rows) ((1 + i * 3 + j * A.rows) / A.rows)⟩,
    ?_, ?_, rfl, rfl, ?_⟩
  · unfold velocitySelector SelectionMatrix.mul selectRows
    simp only
    rw [require_true (by omega : 1 ≤ A.rows ∧ 0 < 3), ok_bind, hr]
    rfl
  · unfold MapView.toMat
    rw [require_true hlt, ok_bind]
    rfl
  · intro i hi j hj
    show A.e ((1 + i * 3 + j * A.rows) % A.rows) ((1 + i * 3 + j * A.rows) / A.rows) = _
    rw [Nat.add_mul_mod_self_right, Nat.mod_eq_of_lt (by omega), Nat.add_mul_div_right _ _ h, Nat.div_eq_of_lt (by omega)]
    congr 1 <;> omega

theorem vec_get_ok {α : Type} {v : Vec α} {i : ℕ} (h : i < v.n) : v.get i = .ok (v.e i) := if_pos h

theorem ofFin_e {n : ℕ} (v : Fin n → ℝ) (a : Fin n) : (ofFin v).e a = v a := dif_pos a.2

section
variable {model : Model} {mpc : Mpc}

theorem referenceVelocities_ok (h : Ready model mpc) (junk : ℕ → ℝ) : ∃ r, referenceVelocities junk (TaskEnv.of model mpc) = .ok r ∧
    r.n = 2 * mpc.horizon.intervals.n ∧
    ∀ i < mpc.horizon.intervals.n, ∀ a : Fin 2, r.e (2 * i + a) = (mpc.horizon.intervals.e i).cvel_ref a := by
  have hN : (TaskEnv.of model mpc).mpc.parameters.preview_horizon_length = mpc.horizon.intervals.n := h.consistent.size.1
  unfold referenceVelocities
  rw [hN]
  obtain ⟨y, hy, hP⟩ := forRange_inv (n := mpc.horizon.intervals.n) (s := (⟨mpc.horizon.intervals.n * 2, junk⟩ : Vec ℝ))
    (body := fun v i => do
      let iv ← mpc.horizon.intervals.get i
      v.setSegment (i * 2) 2 (ofFin iv.cvel_ref))
    (fun m r => r.n = 2 * mpc.horizon.intervals.n ∧
      ∀ i < m, ∀ a : Fin 2, r.e (2 * i + a) = (mpc.horizon.intervals.e i).cvel_ref a)
    ⟨Nat.mul_comm _ _, fun i hi => absurd hi (Nat.not_lt_zero i)⟩ (by
    rintro i r hi ⟨h1, h2⟩
    rw [vec_get_ok hi, ok_bind]
    refine ⟨_, Vec.setSegment_ok (by omega) rfl, h1, fun j hj a => ?_⟩
    have ha := a.2
    show (if i * 2 ≤ 2 * j + a.1 ∧ 2 * j + a.1 < i * 2 + 2 then (ofFin _).e (2 * j + a.1 - i * 2) else _) = _
    by_cases hji : j = i
    · subst hji
      rw [if_pos (by omega), show 2 * j + a.1 - j * 2 = a.1 by omega, ofFin_e]
    · rw [if_neg (by omega)]
      exact h2 j (by omega) a)
  exact ⟨y, hy, hP⟩

/-- The axis as a number. -/
theorem velocityOf_eq (x : Fin 6 → ℝ) (a : Fin 2) : velocityOf x a = x ⟨3 * a + 1, by omega⟩ := by
  fin_cases a <;> rfl

theorem comVelocity_ok (h : Ready model mpc) (junk : ℕ → ℝ) (gain : ℝ) (d : CtrData ℝ) :
    ∃ d', comVelocityForm junk gain (TaskEnv.of model mpc) d = .ok d' ∧
      WellFormed (⟨.ab, 2 * mpc.horizon.intervals.n + 2 * mpc.horizon.variable_steps.length, d'⟩ : Ctr ℝ) ∧
      ComVelocityTask mpc.horizon model gain
        ⟨.ab, 2 * mpc.horizon.intervals.n + 2 * mpc.horizon.variable_steps.length, d'⟩ := by
  obtain ⟨s1, s2, s3, -⟩ := h.consistent.matrices.sizes
  have hpos := h.consistent.size.2
  obtain ⟨r, hr, hrn, hre⟩ := referenceVelocities_ok h junk
  obtain ⟨V, B, hV, hB, hBr, hBc, hBe⟩ := selector_eval (A := mpc.matrices.S) (m := 2 * mpc.horizon.intervals.n)
    (by omega) (by omega)
  obtain ⟨V', B', hV', hB', hBr', hBc', hBe'⟩ := selector_eval (A := mpc.matrices.s.toMat) (m := 2 * mpc.horizon.intervals.n)
    (show 0 < mpc.matrices.s.n by omega) (show mpc.matrices.s.n = _ by omega)
  have e : comVelocityForm junk gain (TaskEnv.of model mpc) d = .ok
      { d with A := Kron.scale gain B, b := ⟨B'.rows, fun i => -gain * (B'.e i 0 - r.e i)⟩ } := by
    unfold comVelocityForm
    rw [hr, ok_bind]
    have f1 : velocitySelector.mul (TaskEnv.of model mpc).mpc.matrices.S = .ok V := hV
    have f2 : velocitySelector.mul (TaskEnv.of model mpc).mpc.matrices.s.toMat = .ok V' := hV'
    rw [f1, ok_bind, hB, ok_bind, f2, ok_bind, hB', ok_bind, require_true (by omega), ok_bind]
    rfl
  refine ⟨_, e, ⟨?_, ?_⟩, hBr, ?_⟩
  · show B'.rows = B.rows
    omega
  · show 0 < B.cols ∧ B.cols = 2 * mpc.horizon.intervals.n + 2 * mpc.horizon.variable_steps.length
    omega
  · intro x P cop X hX i hi a
    have ha := a.2
    have hs := h.consistent.matrices.states x P cop X hX i hi ⟨3 * a + 1, by omega⟩
    unfold AffineRow at hs
    unfold rowResidual
    show ∑ j ∈ Finset.range B.cols, gain * B.e (2 * i + a) j * x j - -gain * (B'.e (2 * i + a) 0 - r.e (2 * i + a)) = _
    rw [velocityOf_eq, ← hs, hre i hi a, hBe' (2 * i + a) (by omega) 0 (by show 0 < 1; omega)]
    have e1 : ∑ j ∈ Finset.range B.cols, gain * B.e (2 * i + a) j * x j =
        gain * ∑ j ∈ Finset.range mpc.matrices.S.cols, mpc.matrices.S.e (6 * i + (3 * a + 1)) j * x j := by
      rw [Finset.mul_sum, hBc]
      refine Finset.sum_congr rfl fun j hj => ?_
      rw [hBe (2 * i + a) (by omega) j (Finset.mem_range.1 hj), show 3 * (2 * i + a.1) + 1 = 6 * i + (3 * a + 1) by omega]
      ring
    rw [e1]
    show _ - -gain * (mpc.matrices.s.e (3 * (2 * i + a.1) + 1) - _) = _
    rw [show 3 * (2 * i + a.1) + 1 = 6 * i + (3 * a.1 + 1) by omega]
    ring

theorem copVelocity_ok (h : Ready model mpc) (junk : ℕ → ℕ → ℝ) (gain : ℝ) (d : CtrData ℝ) :
    ∃ d', copVelocityForm junk gain (TaskEnv.of model mpc) d = .ok d' ∧
      WellFormed (⟨.ab, 2 * mpc.horizon.intervals.n + 2 * mpc.horizon.variable_steps.length, d'⟩ : Ctr ℝ) ∧
      CopVelocityTask mpc.horizon model gain
        ⟨.ab, 2 * mpc.horizon.intervals.n + 2 * mpc.horizon.variable_steps.length, d'⟩ := by
  obtain ⟨-, -, -, s1, s2, s3, -⟩ := h.consistent.matrices.sizes
  have hpos := h.consistent.size.2
  have hS : (TaskEnv.of model mpc).mpc.matrices.Sdz = mpc.matrices.Sdz := rfl
  have hs : (TaskEnv.of model mpc).mpc.matrices.sdz = mpc.matrices.sdz := rfl
  obtain ⟨d', e, h1, h2, h3, h4, h5⟩ : ∃ d', copVelocityForm junk gain (TaskEnv.of model mpc) d = .ok d' ∧
      d'.A.rows = 2 * mpc.horizon.intervals.n ∧ d'.A.cols = 2 * mpc.horizon.intervals.n + 2 * mpc.horizon.variable_steps.length ∧
      d'.b.n = 2 * mpc.horizon.intervals.n ∧ (∀ i < 2 * mpc.horizon.intervals.n, ∀ j < d'.A.cols,
        d'.A.e i j = gain * mpc.matrices.Sdz.e i j) ∧ ∀ i, d'.b.e i = -gain * mpc.matrices.sdz.e i := by
    unfold copVelocityForm getMatrixPart setMatrixPart
    rw [h.cop, h.footpos, h.nvars, hS, hs]
    simp only
    rw [block_ok (by omega) (by omega), ok_bind]
    unfold Mat.setBlock
    rw [if_pos ⟨by simp only; omega, by simp only; omega, rfl, rfl⟩, ok_bind]
    simp only
    rw [block_ok (by omega) (by omega), ok_bind, if_pos ⟨by omega, by omega, rfl, rfl⟩, ok_bind]
    refine ⟨_, rfl, s1, rfl, s3, fun i hi j hj => ?_, fun i => rfl⟩
    simp only [Kron.scale] at hj ⊢
    by_cases hj1 : j < mpc.horizon.intervals.n * 2
    · rw [if_neg (by omega), if_pos (by omega)]
      simp
    · rw [if_pos (by omega)]
      congr 2 <;> omega
  refine ⟨d', e, ⟨?_, ?_⟩, h1, ?_⟩
  · show d'.b.n = d'.A.rows
    omega
  · show 0 < d'.A.cols ∧ d'.A.cols = 2 * mpc.horizon.intervals.n + 2 * mpc.horizon.variable_steps.length
    omega
  · intro x P cop X hX i hi a
    have ha := a.2
    obtain ⟨v, hv, hc⟩ := h.consistent.matrices.velocities x P cop X hX i hi a
    refine ⟨v, ?_, hc⟩
    unfold AffineRow at hv
    unfold rowResidual
    show ∑ j ∈ Finset.range d'.A.cols, d'.A.e (2 * i + a) j * x j - d'.b.e (2 * i + a) = _
    rw [h5, ← hv]
    have e1 : ∑ j ∈ Finset.range d'.A.cols, d'.A.e (2 * i + a) j * x j =
        gain * ∑ j ∈ Finset.range mpc.matrices.Sdz.cols, mpc.matrices.Sdz.e (2 * i + a) j * x j := by
      rw [Finset.mul_sum, show d'.A.cols = mpc.matrices.Sdz.cols by omega]
      refine Finset.sum_congr rfl fun j hj => ?_
      rw [h4 (2 * i + a) (by omega) j (by have := Finset.mem_range.1 hj; omega)]
      ring
    rw [e1]
    ring

theorem dcpv6_sum (w : ℝ) (a : ℕ) (ha : a < 2) (f : ℕ → ℝ) : ∑ k ∈ Finset.range 6, (ofMatrix (getDcpv6 w)).e a k * f k =
    f (3 * a + 1) + 1 / w * f (3 * a + 2) := by
  obtain rfl | rfl : a = 0 ∨ a = 1 := by omega
  · simp [Finset.sum_range_succ, ofMatrix, getDcpv6]
  · simp [Finset.sum_range_succ, ofMatrix, getDcpv6]

theorem terminal_ok (h : Ready model mpc) (gain : ℝ) (d : CtrData ℝ) :
    ∃ d', terminalForm gain (TaskEnv.of model mpc) d = .ok d' ∧
      WellFormed (⟨.ab, 2 * mpc.horizon.intervals.n + 2 * mpc.horizon.variable_steps.length, d'⟩ : Ctr ℝ) ∧
      TerminalTask mpc.horizon model gain
        ⟨.ab, 2 * mpc.horizon.intervals.n + 2 * mpc.horizon.variable_steps.length, d'⟩ := by
  obtain ⟨s1, s2, s3, -⟩ := h.consistent.matrices.sizes
  have hpos := h.consistent.size.2
  have hN : (TaskEnv.of model mpc).mpc.parameters.preview_horizon_length = mpc.horizon.intervals.n := h.consistent.size.1
  have hI : (TaskEnv.of model mpc).mpc.horizon.intervals = mpc.horizon.intervals := rfl
  have hS : (TaskEnv.of model mpc).mpc.matrices.S = mpc.matrices.S := rfl
  have hs : (TaskEnv.of model mpc).mpc.matrices.s = mpc.matrices.s := rfl
  obtain ⟨n, hn⟩ : ∃ n, mpc.horizon.intervals.n = n + 1 := ⟨mpc.horizon.intervals.n - 1, by omega⟩
  generalize hw : (mpc.horizon.intervals.e n).omega = w
  obtain ⟨d', e, h1, h2, h3, h4, h5⟩ : ∃ d', terminalForm gain (TaskEnv.of model mpc) d = .ok d' ∧
      d'.A.rows = 2 ∧ d'.A.cols = 2 * mpc.horizon.intervals.n + 2 * mpc.horizon.variable_steps.length ∧
      d'.b.n = 2 ∧ (∀ i < 2, ∀ j, d'.A.e i j = gain * (mpc.matrices.S.e (6 * n + (3 * i + 1)) j +
        1 / w * mpc.matrices.S.e (6 * n + (3 * i + 2)) j)) ∧
      ∀ i < 2, d'.b.e i = -gain * (mpc.matrices.s.e (6 * n + (3 * i + 1)) + 1 / w * mpc.matrices.s.e (6 * n + (3 * i + 2))) := by
    unfold terminalForm
    rw [hN, hI, hS, hs, h.nvars, require_true hpos, ok_bind, vec_get_ok (by omega), ok_bind]
    simp only [ok_bind]
    rw [show mpc.horizon.intervals.n - 1 = n by omega, hw, block_ok (by omega) (by omega), ok_bind, mul_ok rfl, ok_bind,
      block_ok (A := mpc.matrices.s.toMat) (show n * 6 + 6 ≤ mpc.matrices.s.n by omega) (show 0 + 1 ≤ 1 by omega), ok_bind, mul_ok rfl, ok_bind]
    refine ⟨_, rfl, rfl, rfl, rfl, fun i hi j => ?_, fun i hi => ?_⟩
    · show ∑ k ∈ Finset.range 6, gain * (ofMatrix (getDcpv6 w)).e i k * mpc.matrices.S.e (n * 6 + k) (0 + j) = _
      rw [← dcpv6_sum w i hi fun k => mpc.matrices.S.e (6 * n + k) j, Finset.mul_sum]
      refine Finset.sum_congr rfl fun k _ => ?_
      rw [Nat.mul_comm n 6, Nat.zero_add]
      ring
    · show ∑ k ∈ Finset.range 6, -gain * (ofMatrix (getDcpv6 w)).e i k * mpc.matrices.s.e (n * 6 + k) = _
      rw [← dcpv6_sum w i hi fun k => mpc.matrices.s.e (6 * n + k), Finset.mul_sum]
      refine Finset.sum_congr rfl fun k _ => ?_
      rw [Nat.mul_comm n 6]
      ring
  refine ⟨d', e, ⟨?_, ?_⟩, h1, ?_⟩
  · show d'.b.n = d'.A.rows
    omega
  · show 0 < d'.A.cols ∧ d'.A.cols = 2 * mpc.horizon.intervals.n + 2 * mpc.horizon.variable_steps.length
    omega
  · intro x P cop X hX a
    have ha := a.2
    have hw' := h.omega n (by omega)
    have hh := h.consistent.height
    have hg : (0 : ℝ) < PointMass6z.gravity / model.getCoMHeight := div_pos (by norm_num [PointMass6z.gravity]) hh
    have hv := h.consistent.matrices.states x P cop X hX n (by omega) ⟨3 * a + 1, by omega⟩
    have hc := h.consistent.matrices.states x P cop X hX n (by omega) ⟨3 * a + 2, by omega⟩
    unfold AffineRow at hv hc
    have ea : ∀ y : Fin 6 → ℝ, y (if a = 0 then 1 else 4) = y ⟨3 * a + 1, by omega⟩ ∧
        y (if a = 0 then 2 else 5) = y ⟨3 * a + 2, by omega⟩ := by
      intro y
      fin_cases a <;> exact ⟨rfl, rfl⟩
    refine ⟨_, ?_, w, ?_, ?_, rfl⟩
    · rw [(ea (X mpc.horizon.intervals.n)).1, (ea (X mpc.horizon.intervals.n)).2, hn, ← hv, ← hc]
      unfold rowResidual
      show ∑ j ∈ Finset.range d'.A.cols, d'.A.e a j * x j - d'.b.e a = _
      rw [h5 a ha]
      have e1 : ∑ j ∈ Finset.range d'.A.cols, d'.A.e a j * x j =
          gain * (∑ j ∈ Finset.range mpc.matrices.S.cols, mpc.matrices.S.e (6 * n + (3 * a + 1)) j * x j +
            1 / w * ∑ j ∈ Finset.range mpc.matrices.S.cols, mpc.matrices.S.e (6 * n + (3 * a + 2)) j * x j) := by
        rw [Finset.mul_sum, ← Finset.sum_add_distrib, Finset.mul_sum, show d'.A.cols = mpc.matrices.S.cols by omega]
        refine Finset.sum_congr rfl fun j hj => ?_
        rw [h4 a ha]
        ring
      rw [e1]
      ring
    · rw [← hw, hw']
      exact Real.sqrt_pos.2 hg
    · rw [← hw, hw']
      unfold PointMass6z.getOmega
      rw [Real.sq_sqrt hg.le, div_mul_cancel₀ _ hh.ne']

end

end Humoto.Wpg
