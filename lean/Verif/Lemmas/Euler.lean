import Verif.Lemmas.Rotary

/-!
# Extraction of Euler angles
-/

namespace Humoto

open Spec Matrix

theorem atan2_unit (x y : ℝ) (h : x * x + y * y = 1) : Real.cos (atan2 y x) = x ∧ Real.sin (atan2 y x) = y := by
  have hn : ‖(⟨x, y⟩ : ℂ)‖ = 1 := by
    rw [Complex.norm_def, Complex.normSq_mk, h, Real.sqrt_one]
  have h0 : (⟨x, y⟩ : ℂ) ≠ 0 := by
    intro h0; rw [h0, norm_zero] at hn; exact one_ne_zero hn.symm
  unfold atan2
  rw [Complex.cos_arg h0, Complex.sin_arg, hn]
  simp

/-- Polar coordinates. -/
theorem atan2_polar (x y : ℝ) : x = Real.sqrt (x * x + y * y) * Real.cos (atan2 y x) ∧
    y = Real.sqrt (x * x + y * y) * Real.sin (atan2 y x) := by
  have hn : ‖(⟨x, y⟩ : ℂ)‖ = Real.sqrt (x * x + y * y) := by rw [Complex.norm_def, Complex.normSq_mk]
  by_cases h0 : (⟨x, y⟩ : ℂ) = 0
  · have hx : x = 0 := congrArg Complex.re h0
    have hy : y = 0 := congrArg Complex.im h0
    subst hx hy
    simp
  · have hn0 : Real.sqrt (x * x + y * y) ≠ 0 := by rw [← hn]; exact norm_ne_zero_iff.mpr h0
    unfold atan2
    rw [Complex.cos_arg h0, Complex.sin_arg, hn]
    simp only
    constructor <;> rw [mul_div_cancel₀ _ hn0]

/-- Both choices of the first two angles are correct. -/
theorem eigenFirstAngles_spec (a c s c2 : ℝ) (flip : Bool) (h2 : c2 = Real.sqrt (c * c + a * a))
    (h1 : c * c + a * a + s * s = 1) :
    c = Real.cos (eigenFirstAngles a c s c2 flip).2 * Real.cos (eigenFirstAngles a c s c2 flip).1 ∧
    a = Real.cos (eigenFirstAngles a c s c2 flip).2 * Real.sin (eigenFirstAngles a c s c2 flip).1 ∧
    s = Real.sin (eigenFirstAngles a c s c2 flip).2 := by
  obtain ⟨p1, p2⟩ := atan2_polar c a
  rw [← h2] at p1 p2
  have hq : c2 * c2 = c * c + a * a := by
    rw [h2]; exact Real.mul_self_sqrt (by nlinarith [mul_self_nonneg c, mul_self_nonneg a])
  obtain ⟨q1, q2⟩ := atan2_unit c2 s (by linarith)
  obtain ⟨q3, q4⟩ := atan2_unit (-c2) s (by linarith)
  unfold eigenFirstAngles
  simp only
  split
  · split
    · simp only
      rw [q3, q4, Real.cos_sub_pi, Real.sin_sub_pi]
      refine ⟨?_, ?_, rfl⟩
      · linarith
      · linarith
    · simp only
      rw [q3, q4, Real.cos_add_pi, Real.sin_add_pi]
      refine ⟨?_, ?_, rfl⟩
      · linarith
      · linarith
  · simp only
    rw [q1, q2]
    exact ⟨p1, p2, rfl⟩

/-- A rotation is determined by the first column and the third angle. -/
theorem euler_core (R : Mat3 ℝ) (hR : IsRotation R) (y p : ℝ) (h0 : R 0 0 = Real.cos p * Real.cos y)
    (h1 : R 1 0 = Real.cos p * Real.sin y) (h2 : -R 2 0 = Real.sin p) :
    R = axisRotation 2 y * axisRotation 1 p *
      axisRotation 0 (atan2 (Real.sin y * R 0 2 - Real.cos y * R 1 2) (Real.cos y * R 1 1 - Real.sin y * R 0 1)) := by
  have hz := axisRotation_rotation 2 y
  have hy := axisRotation_rotation 1 p
  obtain ⟨P, hP⟩ : ∃ P, P = (axisRotation 1 p).transpose * ((axisRotation 2 y).transpose * R) := ⟨_, rfl⟩
  have hPr : IsRotation P := by rw [hP]; exact hy.transpose.mul (hz.transpose.mul hR)
  have hRP : R = axisRotation 2 y * axisRotation 1 p * P := by
    rw [hP, Matrix.mul_assoc, ← Matrix.mul_assoc (axisRotation 1 p), hy.right_inv, Matrix.one_mul, ← Matrix.mul_assoc,
      hz.right_inv, Matrix.one_mul]
  have sc := Real.sin_sq_add_cos_sq y
  have sp := Real.sin_sq_add_cos_sq p
  have e00 : P 0 0 = 1 := by
    rw [hP]
    simp [axisRotation, Matrix.mul_apply, Fin.sum_univ_three]
    rw [h0, h1]
    linear_combination (Real.cos p * Real.cos p) * sc + Real.sin p * h2 + sp
  have e10 : P 1 0 = 0 := by
    rw [hP]
    simp [axisRotation, Matrix.mul_apply, Fin.sum_univ_three]
    rw [h0, h1]
    ring
  have e20 : P 2 0 = 0 := by
    rw [hP]
    simp [axisRotation, Matrix.mul_apply, Fin.sum_univ_three]
    rw [h0, h1]
    linear_combination (Real.cos p * Real.sin p) * sc - Real.cos p * h2
  have e11 : P 1 1 = Real.cos y * R 1 1 - Real.sin y * R 0 1 := by
    rw [hP]
    simp [axisRotation, Matrix.mul_apply, Fin.sum_univ_three]
    ring
  have e12 : P 1 2 = -(Real.sin y * R 0 2 - Real.cos y * R 1 2) := by
    rw [hP]
    simp [axisRotation, Matrix.mul_apply, Fin.sum_univ_three]
    ring
  have row : ∀ i, P i 0 * P i 0 + P i 1 * P i 1 + P i 2 * P i 2 = 1 := by
    intro i
    have := congrFun (congrFun hPr.right_inv i) i
    simpa [Matrix.mul_apply, Fin.sum_univ_three, Matrix.one_apply] using this
  have r0 := row 0
  rw [e00] at r0
  have e01 : P 0 1 = 0 := by nlinarith [mul_self_nonneg (P 0 1), mul_self_nonneg (P 0 2)]
  have e02 : P 0 2 = 0 := by nlinarith [mul_self_nonneg (P 0 1), mul_self_nonneg (P 0 2)]
  have r1 := row 1
  rw [e10] at r1
  have ha := hPr.adj
  rw [adjugate_fin_three] at ha
  have e22 : P 2 2 = P 1 1 := by
    have := congrFun (congrFun ha 1) 1
    simp [e00, e02] at this
    exact this
  have e21 : P 2 1 = -P 1 2 := by
    have := congrFun (congrFun ha 2) 1
    simp [e00, e01] at this
    linarith
  obtain ⟨c1, c2⟩ := atan2_unit (P 1 1) (-P 1 2) (by linarith)
  have hr : atan2 (Real.sin y * R 0 2 - Real.cos y * R 1 2) (Real.cos y * R 1 1 - Real.sin y * R 0 1) =
      atan2 (-P 1 2) (P 1 1) := by rw [e11, e12, neg_neg]
  rw [hr]
  have hX : P = axisRotation 0 (atan2 (-P 1 2) (P 1 1)) := by
    ext i j
    fin_cases i <;> fin_cases j <;> simp [axisRotation, c1, c2, e00, e01, e02, e10, e20, e21, e22]
  rw [← hX]
  exact hRP

/-- Exchange of the axes x and z. -/
def exchange (R : Mat3 ℝ) : Mat3 ℝ := fun i j => R (Fin.rev i) (Fin.rev j)

theorem exchange_mul (A B : Mat3 ℝ) : exchange (A * B) = exchange A * exchange B := by
  ext i j
  simp only [exchange, Matrix.mul_apply, Fin.sum_univ_three]
  have h0 : Fin.rev (0 : Fin 3) = 2 := rfl
  have h1 : Fin.rev (1 : Fin 3) = 1 := rfl
  have h2 : Fin.rev (2 : Fin 3) = 0 := rfl
  rw [h0, h1, h2]
  ring

theorem exchange_exchange (A : Mat3 ℝ) : exchange (exchange A) = A := by
  ext i j
  simp [exchange]

theorem exchange_rotation {A : Mat3 ℝ} (h : IsRotation A) : IsRotation (exchange A) := by
  refine ⟨?_, ?_⟩
  · have : (exchange A).transpose * exchange A = exchange (A.transpose * A) := by
      rw [exchange_mul]; rfl
    rw [this, h.1]
    ext i j
    simp [exchange, Matrix.one_apply]
  · have hd := h.2
    rw [det_fin_three] at hd ⊢
    have h0 : Fin.rev (0 : Fin 3) = 2 := rfl
    have h1 : Fin.rev (1 : Fin 3) = 1 := rfl
    have h2 : Fin.rev (2 : Fin 3) = 0 := rfl
    simp only [exchange, h0, h1, h2]
    linear_combination hd

theorem exchange_axis (k : Fin 3) (a : ℝ) : exchange (axisRotation k a) = axisRotation (Fin.rev k) (-a) := by
  ext i j
  fin_cases k <;> fin_cases i <;> fin_cases j <;> simp [exchange, axisRotation]

theorem col_unit (R : Mat3 ℝ) (hR : IsRotation R) (j : Fin 3) : R 0 j * R 0 j + R 1 j * R 1 j + R 2 j * R 2 j = 1 := by
  have := congrFun (congrFun hR.1 j) j
  simpa [Matrix.mul_apply, Fin.sum_univ_three, Matrix.one_apply] using this

theorem row_unit (R : Mat3 ℝ) (hR : IsRotation R) (i : Fin 3) : R i 0 * R i 0 + R i 1 * R i 1 + R i 2 * R i 2 = 1 := by
  have := congrFun (congrFun hR.right_inv i) i
  simpa [Matrix.mul_apply, Fin.sum_univ_three, Matrix.one_apply] using this

theorem eigen_zyx (R : Mat3 ℝ) (hR : IsRotation R) :
    R = axisRotation 2 (eigenEulerAngles R 2 1 0 0) * axisRotation 1 (eigenEulerAngles R 2 1 0 1) *
      axisRotation 0 (eigenEulerAngles R 2 1 0 2) := by
  have c0 := col_unit R hR 0
  have r2 := row_unit R hR 2
  obtain ⟨h0, h1, h2⟩ := eigenFirstAngles_spec (R 1 0) (R 0 0) (-R 2 0) (Real.sqrt (R 2 2 * R 2 2 + R 2 1 * R 2 1)) true
    (by congr 1; linarith) (by linarith)
  exact euler_core R hR _ _ h0 h1 h2

theorem eigen_xyz (R : Mat3 ℝ) (hR : IsRotation R) :
    R = axisRotation 0 (eigenEulerAngles R 0 1 2 0) * axisRotation 1 (eigenEulerAngles R 0 1 2 1) *
      axisRotation 2 (eigenEulerAngles R 0 1 2 2) := by
  have c0 := col_unit R hR 2
  have r2 := row_unit R hR 0
  obtain ⟨h0, h1, h2⟩ := eigenFirstAngles_spec (R 1 2) (R 2 2) (-R 0 2) (Real.sqrt (R 0 0 * R 0 0 + R 0 1 * R 0 1)) false
    (by congr 1; linarith) (by linarith)
  have h := congrArg exchange (euler_core (exchange R) (exchange_rotation hR) _ _ h0 h1 h2)
  rw [exchange_exchange, exchange_mul, exchange_mul, exchange_axis, exchange_axis, exchange_axis] at h
  exact h

end Humoto
