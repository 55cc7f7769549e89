import Verif.Lemmas.Euler

/-!
# C33, C34: cross products and rotations
-/

namespace Humoto

open Spec Matrix

set_option linter.unusedSectionVars false

/-! ## C33 -/

section

variable {K : Type} [CommRing K]

/-- **C33.** Multiplication by the matrix from the left is the vector product, in both implementations: by the function and by the
explicit matrix. -/
theorem C33_product (v w : Fin 3 → K) :
    (CrossProductMatrix.mk v).multiplyRight w = vectorProduct v w ∧ (CrossProductMatrix.mk v).eval.mulVec w = vectorProduct v w :=
  ⟨rfl, skew_mulVec v w⟩

/-- **C33.** The product of a matrix with the cross product matrix: each row multiplied by the vector. -/
theorem C33_left {n : ℕ} (v : Fin 3 → K) (A : Matrix (Fin n) (Fin 3) K) (i : Fin n) :
    (CrossProductMatrix.mk v).multiplyLeft A i = vectorProduct (A i) v := by
  unfold CrossProductMatrix.multiplyLeft
  funext j
  rw [Matrix.mul_apply, Fin.sum_univ_three]
  fin_cases j <;> simp [vectorProduct, CrossProductMatrix.eval] <;> ring

/-- **C33.** Multiplication from the left and from the right agree with each other: `(A * [v]) w = A ([v] * w)`. -/
theorem C33_agree {n : ℕ} (v w : Fin 3 → K) (A : Matrix (Fin n) (Fin 3) K) :
    ((CrossProductMatrix.mk v).multiplyLeft A).mulVec w = A.mulVec ((CrossProductMatrix.mk v).multiplyRight w) := by
  rw [(C33_product v w).1, ← (C33_product v w).2]
  unfold CrossProductMatrix.multiplyLeft
  rw [mulVec_mulVec]

/-- **C33.** The matrix is skew symmetric and annihilates the vector. -/
theorem C33_skew (v : Fin 3 → K) :
    (CrossProductMatrix.mk v).eval.transpose = -(CrossProductMatrix.mk v).eval ∧ (CrossProductMatrix.mk v).multiplyRight v = 0 ∧
    (CrossProductMatrix.mk v).eval.mulVec v = 0 := by
  have h : vectorProduct v v = 0 := by
    funext i
    fin_cases i <;> simp [vectorProduct] <;> ring
  exact ⟨skew_transpose v, h, (skew_mulVec v v).trans h⟩

/-- **C33.** The matrix determines the vector. -/
theorem C33_injective (v w : Fin 3 → K) (h : (CrossProductMatrix.mk v).eval = (CrossProductMatrix.mk w).eval) : v = w := by
  have h1 := congrFun (congrFun h 2) 1
  have h2 := congrFun (congrFun h 0) 2
  have h3 := congrFun (congrFun h 1) 0
  simp [CrossProductMatrix.eval] at h1 h2 h3
  funext i
  fin_cases i
  · exact h1
  · exact h2
  · exact h3

example : (CrossProductMatrix.mk ![1, 0, 0] : CrossProductMatrix ℤ).multiplyRight ![0, 1, 0] = ![0, 0, 1] := by decide

end

/-! ## C34 -/

/-- **C34.** Matrices built from Euler angles are rotations. -/
theorem C34_euler_rotation (e : Fin 3 → ℝ) (ty : EulerType) (R : Mat3 ℝ) (h : convertEulerAnglesToMatrix e ty = .ok R) :
    IsRotation R := by
  cases ty with
  | undefined => cases h
  | rpy =>
    cases h
    exact ((axisRotation_rotation _ _).mul (axisRotation_rotation _ _)).mul (axisRotation_rotation _ _)
  | ypr =>
    cases h
    exact ((axisRotation_rotation _ _).mul (axisRotation_rotation _ _)).mul (axisRotation_rotation _ _)

/-- **C34.** Roll, pitch and yaw: the matrix is the product of the rotation about z by yaw, about y by pitch, and about x by
roll. The other type has the reversed order. -/
theorem C34_euler_meaning (e : Fin 3 → ℝ) (X Y Z : Mat3 ℝ) (hX : TurnsAbout 0 (e 0) X) (hY : TurnsAbout 1 (e 1) Y)
    (hZ : TurnsAbout 2 (e 2) Z) :
    convertEulerAnglesToMatrix e .rpy = .ok (Z * Y * X) ∧ convertEulerAnglesToMatrix e .ypr = .ok (X * Y * Z) := by
  rw [turns_unique hX (axisRotation_turns 0 _), turns_unique hY (axisRotation_turns 1 _),
    turns_unique hZ (axisRotation_turns 2 _)]
  exact ⟨rfl, rfl⟩

/-- **C34.** Angles extracted from a rotation matrix give this matrix back, for every extraction function of Eigen which meets its
documentation, both types of angles, and every rotation including the singular ones. -/
theorem C34_extract (ea : Mat3 ℝ → Fin 3 → Fin 3 → Fin 3 → (Fin 3 → ℝ)) (hea : ExtractsAngles ea) (R : Mat3 ℝ) (hR : IsRotation R)
    (ty : EulerType) (hty : ty ≠ .undefined) :
    ∃ e, convertMatrixToEulerAngles ea R ty = .ok e ∧ convertEulerAnglesToMatrix e ty = .ok R := by
  cases ty with
  | undefined => exact absurd rfl hty
  | ypr =>
    obtain ⟨A, B, C, hA, hB, hC, h⟩ := hea R hR 0 2 (Or.inl ⟨rfl, rfl⟩)
    exact ⟨_, rfl, by rw [(C34_euler_meaning _ A B C hA hB hC).2, ← h]⟩
  | rpy =>
    obtain ⟨A, B, C, hA, hB, hC, h⟩ := hea R hR 2 0 (Or.inr ⟨rfl, rfl⟩)
    have h0 : Fin.rev (0 : Fin 3) = 2 := rfl
    have h1 : Fin.rev (1 : Fin 3) = 1 := rfl
    have h2 : Fin.rev (2 : Fin 3) = 0 := rfl
    refine ⟨fun i => ea R 2 1 0 (Fin.rev i), rfl, ?_⟩
    rw [(C34_euler_meaning (fun i => ea R 2 1 0 (Fin.rev i)) C B A (by simp only [h0]; exact hC) (by simp only [h1]; exact hB)
      (by simp only [h2]; exact hA)).1, ← h]

/-- **C34.** The algorithm of Eigen 3.2 and 3.3 meets the documentation. -/
theorem C34_eigen : ExtractsAngles eigenEulerAngles := by
  intro R hR a0 a2 h
  rcases h with ⟨rfl, rfl⟩ | ⟨rfl, rfl⟩
  · exact ⟨_, _, _, axisRotation_turns _ _, axisRotation_turns _ _, axisRotation_turns _ _, eigen_xyz R hR⟩
  · exact ⟨_, _, _, axisRotation_turns _ _, axisRotation_turns _ _, axisRotation_turns _ _, eigen_zyx R hR⟩

/-- **C34.** Conversion of one type of angles to another keeps the rotation. -/
theorem C34_convert (ea : Mat3 ℝ → Fin 3 → Fin 3 → Fin 3 → (Fin 3 → ℝ)) (hea : ExtractsAngles ea) (e : Fin 3 → ℝ)
    (src dst : EulerType) (hs : src ≠ .undefined) (hd : dst ≠ .undefined) :
    ∃ e' R, convertEulerAngles ea e src dst = .ok e' ∧ convertEulerAnglesToMatrix e src = .ok R ∧
      convertEulerAnglesToMatrix e' dst = .ok R := by
  have h : ∃ R, convertEulerAnglesToMatrix e src = .ok R := by
    cases src
    · exact absurd rfl hs
    · exact ⟨_, rfl⟩
    · exact ⟨_, rfl⟩
  obtain ⟨R, hR⟩ := h
  obtain ⟨e', h1, h2⟩ := C34_extract ea hea R (C34_euler_rotation e src R hR) dst hd
  refine ⟨e', R, ?_, hR, h2⟩
  unfold convertEulerAngles
  rw [hR, ok_bind, h1]

/-- **C34**, part: the angles themselves are recovered from the matrix away from the singularity when yaw is not negative. -/
theorem C34_angles_partial (e : Fin 3 → ℝ) (hy : 0 ≤ e 2 ∧ e 2 ≤ Real.pi) (hp : -(Real.pi / 2) < e 1 ∧ e 1 < Real.pi / 2)
    (hr : -Real.pi < e 0 ∧ e 0 ≤ Real.pi) : convertEulerAngles eigenEulerAngles e .rpy .rpy = .ok e := by
  have cp : 0 < Real.cos (e 1) := Real.cos_pos_of_mem_Ioo hp
  have pi := Real.pi_pos
  have sy := Real.sin_sq_add_cos_sq (e 2)
  have sp := Real.sin_sq_add_cos_sq (e 1)
  have sr := Real.sin_sq_add_cos_sq (e 0)
  have polar : ∀ (r a : ℝ), 0 < r → -Real.pi < a → a ≤ Real.pi → atan2 (r * Real.sin a) (r * Real.cos a) = a := by
    intro r a h0 h1 h2
    unfold atan2
    have := Complex.arg_mul_cos_add_sin_mul_I h0 ⟨h1, h2⟩
    refine Eq.trans ?_ this
    congr 1
    apply Complex.ext
    · simp [Complex.cos_ofReal_re, Complex.sin_ofReal_re]
    · simp [Complex.cos_ofReal_re, Complex.sin_ofReal_re]
  obtain ⟨R, hR⟩ : ∃ R, R = axisRotation 2 (e 2) * axisRotation 1 (e 1) * axisRotation 0 (e 0) := ⟨_, rfl⟩
  have e00 : R 0 0 = Real.cos (e 1) * Real.cos (e 2) := by
    rw [hR]; simp [axisRotation, Matrix.mul_apply, Fin.sum_univ_three]; ring
  have e10 : R 1 0 = Real.cos (e 1) * Real.sin (e 2) := by
    rw [hR]; simp [axisRotation, Matrix.mul_apply, Fin.sum_univ_three]; ring
  have e20 : -R 2 0 = Real.sin (e 1) := by
    rw [hR]; simp [axisRotation, Matrix.mul_apply, Fin.sum_univ_three]
  have e21 : R 2 1 = Real.cos (e 1) * Real.sin (e 0) := by
    rw [hR]; simp [axisRotation, Matrix.mul_apply, Fin.sum_univ_three]
  have e22 : R 2 2 = Real.cos (e 1) * Real.cos (e 0) := by
    rw [hR]; simp [axisRotation, Matrix.mul_apply, Fin.sum_univ_three]
  have e3 : Real.sin (e 2) * R 0 2 - Real.cos (e 2) * R 1 2 = Real.sin (e 0) := by
    rw [hR]; simp [axisRotation, Matrix.mul_apply, Fin.sum_univ_three]
    linear_combination Real.sin (e 0) * sy
  have e4 : Real.cos (e 2) * R 1 1 - Real.sin (e 2) * R 0 1 = Real.cos (e 0) := by
    rw [hR]; simp [axisRotation, Matrix.mul_apply, Fin.sum_univ_three]
    linear_combination Real.cos (e 0) * sy
  have hc2 : Real.sqrt (R 2 2 * R 2 2 + R 2 1 * R 2 1) = Real.cos (e 1) := by
    rw [e21, e22]
    have : Real.cos (e 1) * Real.cos (e 0) * (Real.cos (e 1) * Real.cos (e 0)) +
        Real.cos (e 1) * Real.sin (e 0) * (Real.cos (e 1) * Real.sin (e 0)) = Real.cos (e 1) * Real.cos (e 1) := by
      linear_combination (Real.cos (e 1) * Real.cos (e 1)) * sr
    rw [this, Real.sqrt_mul_self cp.le]
  have hf : eigenFirstAngles (R 1 0) (R 0 0) (-R 2 0) (Real.sqrt (R 2 2 * R 2 2 + R 2 1 * R 2 1)) true = (e 2, e 1) := by
    unfold eigenFirstAngles
    rw [hc2, e20, e00, e10, polar _ _ cp (by linarith) hy.2]
    have hn : ¬ ((true = true ∧ e 2 < 0) ∨ (true = false ∧ 0 < e 2)) := by
      rintro (⟨-, h⟩ | ⟨h, -⟩)
      · linarith
      · cases h
    show (if (true = true ∧ e 2 < 0) ∨ (true = false ∧ 0 < e 2) then _ else (e 2, _)) = _
    rw [if_neg hn]
    have := polar 1 (e 1) one_pos (by linarith) (by linarith)
    rw [one_mul, one_mul] at this
    rw [this]
  have h : convertEulerAngles eigenEulerAngles e .rpy .rpy = .ok (fun i => eigenEulerAngles R 2 1 0 (Fin.rev i)) := by rw [hR]; rfl
  rw [h]
  congr 1
  have he : eigenEulerAngles R 2 1 0 = ![e 2, e 1, atan2 (Real.sin (e 2) * R 0 2 - Real.cos (e 2) * R 1 2)
      (Real.cos (e 2) * R 1 1 - Real.sin (e 2) * R 0 1)] := by
    have e2 : eigenEulerAngles R 2 1 0 = ![(eigenFirstAngles (R 1 0) (R 0 0) (-R 2 0) (Real.sqrt (R 2 2 * R 2 2 + R 2 1 * R 2 1)) true).1,
        (eigenFirstAngles (R 1 0) (R 0 0) (-R 2 0) (Real.sqrt (R 2 2 * R 2 2 + R 2 1 * R 2 1)) true).2, atan2
        (Real.sin (eigenFirstAngles (R 1 0) (R 0 0) (-R 2 0) (Real.sqrt (R 2 2 * R 2 2 + R 2 1 * R 2 1)) true).1 * R 0 2 -
          Real.cos (eigenFirstAngles (R 1 0) (R 0 0) (-R 2 0) (Real.sqrt (R 2 2 * R 2 2 + R 2 1 * R 2 1)) true).1 * R 1 2)
        (Real.cos (eigenFirstAngles (R 1 0) (R 0 0) (-R 2 0) (Real.sqrt (R 2 2 * R 2 2 + R 2 1 * R 2 1)) true).1 * R 1 1 -
          Real.sin (eigenFirstAngles (R 1 0) (R 0 0) (-R 2 0) (Real.sqrt (R 2 2 * R 2 2 + R 2 1 * R 2 1)) true).1 * R 0 1)] := rfl
    rw [e2, hf]
  rw [he, e3, e4]
  have hr' := polar 1 (e 0) one_pos hr.1 hr.2
  rw [one_mul, one_mul] at hr'
  rw [hr']
  funext i
  fin_cases i <;> rfl

/-- **C34** fails for negative yaw with Eigen 3.2 and 3.3: the extracted yaw is never negative, e.g., for a robot which is turned
to the right. -/
theorem C34_angles_refuted (e e' : Fin 3 → ℝ) (hy : e 2 < 0) (h : convertEulerAngles eigenEulerAngles e .rpy .rpy = .ok e') :
    0 ≤ e' 2 ∧ e' ≠ e := by
  obtain ⟨R, hR⟩ : ∃ R, R = axisRotation 2 (e 2) * axisRotation 1 (e 1) * axisRotation 0 (e 0) := ⟨_, rfl⟩
  have h' : convertEulerAngles eigenEulerAngles e .rpy .rpy = .ok (fun i => eigenEulerAngles R 2 1 0 (Fin.rev i)) := by rw [hR]; rfl
  rw [h'] at h
  cases h
  have hn : 0 ≤ eigenEulerAngles R 2 1 0 0 := by
    show 0 ≤ (eigenFirstAngles (R 1 0) (R 0 0) (-R 2 0) (Real.sqrt (R 2 2 * R 2 2 + R 2 1 * R 2 1)) true).1
    unfold eigenFirstAngles
    simp only
    split
    · rename_i hc
      rcases hc with ⟨-, hc⟩ | ⟨hc, -⟩
      · rw [if_neg (by linarith)]
        have : -Real.pi < atan2 (R 1 0) (R 0 0) := Complex.neg_pi_lt_arg _
        simp only
        linarith
      · cases hc
    · rename_i hc
      by_contra hlt
      exact hc (Or.inl ⟨by trivial, not_le.mp hlt⟩)
  refine ⟨hn, fun he => ?_⟩
  have := congrFun he 2
  have h2 : Fin.rev (2 : Fin 3) = 0 := rfl
  simp only [h2] at this
  linarith

/-- **C34.** The undefined type of angles is rejected, and the rates are supported for roll, pitch and yaw only. -/
theorem C34_reject (ea : Mat3 ℝ → Fin 3 → Fin 3 → Fin 3 → (Fin 3 → ℝ)) (e : Fin 3 → ℝ) (R : Mat3 ℝ) :
    convertEulerAnglesToMatrix e .undefined = .error .thrown ∧ convertMatrixToEulerAngles ea R .undefined = .error .thrown ∧
    getEulerRatesToAngularVelocityTransform e .undefined = .error .thrown ∧
    getEulerRatesToAngularVelocityTransform e .ypr = .error .thrown := ⟨rfl, rfl, rfl, rfl⟩

/-- **C34.** The transformation of rates of roll, pitch and yaw gives the angular velocity: for every differentiable motion of
the angles. -/
theorem C34_rates (e : ℝ → Fin 3 → ℝ) (e' : Fin 3 → ℝ) (t : ℝ) (he : ∀ k, HasDerivAt (fun s => e s k) (e' k) t) :
    ∃ M R R', getEulerRatesToAngularVelocityTransform (e t) .rpy = .ok M ∧
      (∀ s, convertEulerAnglesToMatrix (e s) .rpy = .ok (R s)) ∧ MatDeriv R R' t ∧ IsAngularVelocity (M.mulVec e') (R t) R' := by
  have d := ((axisRotation_deriv 2 (fun s => e s 2) (e' 2) t (he 2)).mul
    (axisRotation_deriv 1 (fun s => e s 1) (e' 1) t (he 1))).mul (axisRotation_deriv 0 (fun s => e s 0) (e' 0) t (he 0))
  refine ⟨_, fun s => axisRotation 2 (e s 2) * axisRotation 1 (e s 1) * axisRotation 0 (e s 0), _, rfl, fun s => rfl, d, ?_⟩
  intro p
  have hz := axisRotation_rotation 2 (e t 2)
  have hzy := hz.mul (axisRotation_rotation 1 (e t 1))
  -- velocity of each rotation, moved to the left
  have m1 : ∀ q, (axisRotation 2 (e t 2)).mulVec (vectorProduct (Pi.single 1 (e' 1)) q) =
      vectorProduct ((axisRotation 2 (e t 2)).mulVec (Pi.single 1 (e' 1))) ((axisRotation 2 (e t 2)).mulVec q) :=
    fun q => (hz.cross _ _).symm
  have m2 : ∀ q, (axisRotation 2 (e t 2) * axisRotation 1 (e t 1)).mulVec (vectorProduct (Pi.single 0 (e' 0)) q) =
      vectorProduct ((axisRotation 2 (e t 2) * axisRotation 1 (e t 1)).mulVec (Pi.single 0 (e' 0)))
        ((axisRotation 2 (e t 2) * axisRotation 1 (e t 1)).mulVec q) :=
    fun q => (hzy.cross _ _).symm
  have hadd : ∀ u v w q : Fin 3 → ℝ, vectorProduct u q + vectorProduct v q + vectorProduct w q = vectorProduct (u + v + w) q := by
    intro u v w q
    funext i
    fin_cases i <;> simp [vectorProduct] <;> ring
  have hlhs : (((CrossProductMatrix.eval ⟨Pi.single 2 (e' 2)⟩ * axisRotation 2 (e t 2)) * axisRotation 1 (e t 1) +
      axisRotation 2 (e t 2) * (CrossProductMatrix.eval ⟨Pi.single 1 (e' 1)⟩ * axisRotation 1 (e t 1))) * axisRotation 0 (e t 0) +
      axisRotation 2 (e t 2) * axisRotation 1 (e t 1) *
        (CrossProductMatrix.eval ⟨Pi.single 0 (e' 0)⟩ * axisRotation 0 (e t 0))).mulVec p =
      vectorProduct (Pi.single 2 (e' 2) + (axisRotation 2 (e t 2)).mulVec (Pi.single 1 (e' 1)) +
        (axisRotation 2 (e t 2) * axisRotation 1 (e t 1)).mulVec (Pi.single 0 (e' 0)))
        ((axisRotation 2 (e t 2) * axisRotation 1 (e t 1) * axisRotation 0 (e t 0)).mulVec p) := by
    rw [← hadd, Matrix.add_mulVec, Matrix.add_mul, Matrix.add_mulVec]
    congr 1
    · congr 1
      · rw [Matrix.mul_assoc, Matrix.mul_assoc, ← mulVec_mulVec, skew_mulVec, ← Matrix.mul_assoc]
      · rw [Matrix.mul_assoc, ← mulVec_mulVec, Matrix.mul_assoc, ← mulVec_mulVec, skew_mulVec, m1, mulVec_mulVec,
          ← Matrix.mul_assoc]
    · have e3 : (axisRotation 2 (e t 2) * axisRotation 1 (e t 1) *
          (CrossProductMatrix.eval ⟨Pi.single 0 (e' 0)⟩ * axisRotation 0 (e t 0))).mulVec p =
          (axisRotation 2 (e t 2) * axisRotation 1 (e t 1)).mulVec
            ((CrossProductMatrix.eval ⟨Pi.single 0 (e' 0)⟩).mulVec ((axisRotation 0 (e t 0)).mulVec p)) := by
        rw [mulVec_mulVec, mulVec_mulVec, Matrix.mul_assoc, Matrix.mul_assoc, Matrix.mul_assoc]
      rw [e3, skew_mulVec, m2, mulVec_mulVec]
  simp only at hlhs ⊢
  rw [hlhs]
  congr 1
  funext i
  fin_cases i <;>
    simp [axisRotation, Fin.sum_univ_three, mulVec, dotProduct] <;> ring

/-- **C34.** Integration of an angular velocity with the formula of Rodrigues keeps rotations. -/
theorem C34_rodrigues_rotation (R : Mat3 ℝ) (hR : IsRotation R) (w : Fin 3 → ℝ) (dt tol : ℝ) (ht : 0 < tol) :
    IsRotation (integrateAngularVelocityRodrigues R w dt tol) := by
  by_cases h : |norm3 w| < tol
  · unfold integrateAngularVelocityRodrigues
    rw [if_pos h]
    exact hR
  · rw [integrate_eq R w dt tol h]
    have h0 : norm3 w ≠ 0 := by
      intro h0
      rw [h0, abs_zero] at h
      exact h ht
    exact hR.mul (rodrigues_rotation _ (norm3_unit w h0) _)

/-- **C34.** Integration during zero time and integration of zero velocity do not change the orientation. -/
theorem C34_identity (R : Mat3 ℝ) (w : Fin 3 → ℝ) (dt tol : ℝ) (ht : 0 < tol) :
    integrateAngularVelocityRodrigues R 0 dt tol = R ∧ integrateAngularVelocityRodrigues R w 0 tol = R ∧
    integrateAngularVelocity R 0 dt = R ∧ integrateAngularVelocity R w 0 = R := by
  refine ⟨?_, ?_, ?_, ?_⟩
  · unfold integrateAngularVelocityRodrigues
    rw [if_pos]
    simp [norm3, ht]
  · by_cases h : |norm3 w| < tol
    · unfold integrateAngularVelocityRodrigues
      rw [if_pos h]
    · rw [integrate_eq R w 0 tol h, mul_zero, rodrigues_zero, Matrix.mul_one]
  · have hz : (CrossProductMatrix.mk (0 : Fin 3 → ℝ)).eval = 0 := by
      ext i j
      fin_cases i <;> fin_cases j <;> simp [CrossProductMatrix.eval]
    unfold integrateAngularVelocity CrossProductMatrix.multiplyLeft
    rw [hz, Matrix.mul_zero, smul_zero, add_zero]
  · unfold integrateAngularVelocity
    rw [zero_smul, add_zero]

/-- **C34.** Integration is additive in time. -/
theorem C34_additive (R : Mat3 ℝ) (w : Fin 3 → ℝ) (a b tol : ℝ) (ht : 0 < tol) :
    integrateAngularVelocityRodrigues (integrateAngularVelocityRodrigues R w a tol) w b tol =
      integrateAngularVelocityRodrigues R w (a + b) tol := by
  by_cases h : |norm3 w| < tol
  · unfold integrateAngularVelocityRodrigues
    rw [if_pos h, if_pos h, if_pos h]
  · have h0 : norm3 w ≠ 0 := by
      intro h0
      rw [h0, abs_zero] at h
      exact h ht
    rw [integrate_eq _ w b tol h, integrate_eq R w a tol h, integrate_eq R w (a + b) tol h, Matrix.mul_assoc,
      rodrigues_add _ (norm3_unit w h0), ← mul_add]

/-- **C34.** The result moves with the given angular velocity (in the frame of the body) at every time, unless the velocity is
below the tolerance. -/
theorem C34_rodrigues_velocity (R : Mat3 ℝ) (w : Fin 3 → ℝ) (tol : ℝ) (ht : 0 < tol) (hw : tol ≤ norm3 w) (t : ℝ) :
    ∃ R', MatDeriv (fun s => integrateAngularVelocityRodrigues R w s tol) R' t ∧
      IsBodyAngularVelocity w (integrateAngularVelocityRodrigues R w t tol) R' := by
  have h : ¬ |norm3 w| < tol := by
    intro h
    exact absurd (lt_of_le_of_lt (le_abs_self _) h) (not_lt.mpr hw)
  have h0 : norm3 w ≠ 0 := ne_of_gt (lt_of_lt_of_le ht hw)
  have he : (fun s => integrateAngularVelocityRodrigues R w s tol) =
      fun s => R * rodrigues (fun i => w i / norm3 w) (norm3 w * s) := by
    funext s
    exact integrate_eq R w s tol h
  have h3 := skew_cube (fun i => w i / norm3 w) (norm3_unit w h0)
  have hN : CrossProductMatrix.eval ⟨w⟩ = norm3 w • CrossProductMatrix.eval ⟨fun i => w i / norm3 w⟩ := by
    rw [← skew_smul]
    congr 2
    funext i
    field_simp
  refine ⟨R * rodrigues (fun i => w i / norm3 w) (norm3 w * t) * CrossProductMatrix.eval ⟨w⟩, ?_, ?_⟩
  · rw [he]
    have hprod : R * rodrigues (fun i => w i / norm3 w) (norm3 w * t) * CrossProductMatrix.eval ⟨w⟩ =
        (norm3 w * Real.cos (norm3 w * t)) • (R * CrossProductMatrix.eval ⟨fun i => w i / norm3 w⟩) +
        (norm3 w * Real.sin (norm3 w * t)) • (R * (CrossProductMatrix.eval ⟨fun i => w i / norm3 w⟩ *
          CrossProductMatrix.eval ⟨fun i => w i / norm3 w⟩)) := by
      rw [hN]
      unfold rodrigues
      generalize CrossProductMatrix.eval ⟨fun i => w i / norm3 w⟩ = N at h3 ⊢
      have h3' : N * (N * N) = -N := by rw [← Matrix.mul_assoc]; exact h3
      simp only [Matrix.mul_add, Matrix.add_mul, Matrix.smul_mul, Matrix.mul_smul, Matrix.mul_one, Matrix.mul_assoc, h3',
        Matrix.mul_neg]
      module
    rw [hprod]
    unfold rodrigues
    generalize CrossProductMatrix.eval ⟨fun i => w i / norm3 w⟩ = N
    intro i j
    have hv : HasDerivAt (fun s : ℝ => norm3 w * s) (norm3 w) t := by
      have := (hasDerivAt_id t).const_mul (norm3 w)
      refine this.congr_deriv (by ring)
    have hs := (Real.hasDerivAt_sin (norm3 w * t)).comp t hv
    have hc := (Real.hasDerivAt_cos (norm3 w * t)).comp t hv
    have h1 := (hs.mul_const ((R * N) i j)).add ((hc.const_sub 1).mul_const ((R * (N * N)) i j))
    have h2 := (hasDerivAt_const t (R i j)).add h1
    have ef : (fun s => (R * (1 + Real.sin (norm3 w * s) • N + (1 - Real.cos (norm3 w * s)) • (N * N))) i j) =
        fun s => R i j + (Real.sin (norm3 w * s) * (R * N) i j + (1 - Real.cos (norm3 w * s)) * (R * (N * N)) i j) := by
      funext s
      simp only [Matrix.mul_add, Matrix.mul_one, Matrix.mul_smul, Matrix.add_apply, Matrix.smul_apply, smul_eq_mul]
      ring
    rw [ef]
    refine h2.congr_deriv ?_
    simp only [Matrix.add_apply, Matrix.smul_apply, smul_eq_mul]
    ring
  · intro p
    simp only [integrate_eq R w t tol h]
    rw [← skew_mulVec, mulVec_mulVec]

/-- **C34**, part: the simple integration has the correct derivative at the start, but scales the determinant: the result is a
rotation only when the velocity or the time is zero. -/
theorem C34_simple_partial (R : Mat3 ℝ) (hR : IsRotation R) (w : Fin 3 → ℝ) (dt : ℝ) :
    (MatDeriv (fun s => integrateAngularVelocity R w s) (R * CrossProductMatrix.eval ⟨w⟩) 0) ∧
    (integrateAngularVelocity R w dt).det = 1 + dt * dt * (w 0 * w 0 + w 1 * w 1 + w 2 * w 2) ∧
    (IsRotation (integrateAngularVelocity R w dt) ↔ dt • w = 0) := by
  have hd : (integrateAngularVelocity R w dt).det = 1 + dt * dt * (w 0 * w 0 + w 1 * w 1 + w 2 * w 2) := by
    have e : integrateAngularVelocity R w dt = R * (1 + dt • CrossProductMatrix.eval ⟨w⟩) := by
      unfold integrateAngularVelocity CrossProductMatrix.multiplyLeft
      rw [Matrix.mul_add, Matrix.mul_one, Matrix.mul_smul]
    rw [e, det_mul, hR.2, one_mul, det_fin_three]
    simp [CrossProductMatrix.eval]
    ring
  refine ⟨?_, hd, ?_⟩
  · intro i j
    have h := (hasDerivAt_const (0 : ℝ) (R i j)).add ((hasDerivAt_id (0 : ℝ)).mul_const ((R * CrossProductMatrix.eval ⟨w⟩) i j))
    refine (h.congr_deriv ?_)
    simp
  · constructor
    · intro h
      have := h.2
      rw [hd] at this
      have hz : (dt * w 0) * (dt * w 0) + (dt * w 1) * (dt * w 1) + (dt * w 2) * (dt * w 2) = 0 := by linarith
      funext i
      simp only [Pi.smul_apply, smul_eq_mul, Pi.zero_apply]
      fin_cases i
      · simp only [Fin.zero_eta]; nlinarith [mul_self_nonneg (dt * w 0), mul_self_nonneg (dt * w 1), mul_self_nonneg (dt * w 2)]
      · simp only [Fin.mk_one]; nlinarith [mul_self_nonneg (dt * w 0), mul_self_nonneg (dt * w 1), mul_self_nonneg (dt * w 2)]
      · simp only [Fin.reduceFinMk]
        nlinarith [mul_self_nonneg (dt * w 0), mul_self_nonneg (dt * w 1), mul_self_nonneg (dt * w 2)]
    · intro h
      have e : integrateAngularVelocity R w dt = R := by
        unfold integrateAngularVelocity CrossProductMatrix.multiplyLeft
        rw [← Matrix.mul_smul, ← skew_smul]
        have : (fun i => dt * w i) = (0 : Fin 3 → ℝ) := by
          funext i
          exact congrFun h i
        rw [this]
        have hz : (CrossProductMatrix.mk (0 : Fin 3 → ℝ)).eval = 0 := by
          ext i j
          fin_cases i <;> fin_cases j <;> simp [CrossProductMatrix.eval]
        rw [hz, Matrix.mul_zero, add_zero]
      rw [e]
      exact hR

/-- **C34** fails for the simple integration: a second with the velocity 1 doubles the volume. -/
theorem C34_simple_refuted : ¬ IsRotation (integrateAngularVelocity (1 : Mat3 ℝ) ![0, 0, 1] 1) := by
  rw [(C34_simple_partial 1 isRotation_one ![0, 0, 1] 1).2.2]
  intro h
  have := congrFun h 2
  simp at this

/-- **C34.** The rotation error moves the current orientation to the reference one; it is a rotation, and the identity only for
equal orientations. -/
theorem C34_error {K : Type} [Field K] (C R : Mat3 K) (hC : IsRotation C) (hR : IsRotation R) :
    getRotationError C R * C = R ∧ IsRotation (getRotationError C R) ∧ (getRotationError C R = 1 ↔ C = R) := by
  have h1 : getRotationError C R * C = R := by
    unfold getRotationError
    rw [Matrix.mul_assoc, hC.1, Matrix.mul_one]
  refine ⟨h1, hR.mul hC.transpose, ?_⟩
  constructor
  · intro h
    rw [h, Matrix.one_mul] at h1
    exact h1
  · rintro rfl
    exact hC.right_inv

/-- **C34.** When the reference orientation is obtained from the current one by the rotation about an axis (of unit length) by an
angle, the error in the form of a vector is the axis multiplied by the sine of the angle. -/
theorem C34_error_axis (C : Mat3 ℝ) (hC : IsRotation C) (n : Fin 3 → ℝ) (hn : norm3 n = 1) (a tol : ℝ) (ht : tol ≤ 1) :
    getRotationErrorAngleAxis C (integrateAngularVelocityRodrigues 1 n a tol * C) = fun i => Real.sin a * n i := by
  have hnu : n 0 * n 0 + n 1 * n 1 + n 2 * n 2 = 1 := by
    have h := norm3_unit n (by rw [hn]; exact one_ne_zero)
    rw [hn] at h
    simpa using h
  have h : ¬ |norm3 n| < tol := by
    rw [hn, abs_one]
    exact not_lt.mpr ht
  have hE : integrateAngularVelocityRodrigues 1 n a tol = rodrigues n a := by
    rw [integrate_eq 1 n a tol h, hn, Matrix.one_mul, one_mul]
    simp
  rw [hE]
  -- the matrix form of the error
  have key : ∀ (E : Mat3 ℝ), CrossProductMatrix.eval ⟨getRotationErrorAngleAxis C (E * C)⟩ =
      (1 / 2 : ℝ) • (E * C * C.transpose - C * (E * C).transpose) := by
    intro E
    generalize E * C = R
    ext i j
    fin_cases i <;> fin_cases j <;>
      simp [CrossProductMatrix.eval, getRotationErrorAngleAxis, cross, Matrix.mul_apply, Fin.sum_univ_three, Matrix.col_apply] <;>
      ring
  have k2 := key (rodrigues n a)
  rw [transpose_mul, Matrix.mul_assoc, hC.right_inv, Matrix.mul_one, ← Matrix.mul_assoc, hC.right_inv, Matrix.one_mul,
    rodrigues_transpose] at k2
  have k3 : (1 / 2 : ℝ) • (rodrigues n a - rodrigues n (-a)) = CrossProductMatrix.eval ⟨fun i => Real.sin a * n i⟩ := by
    rw [skew_smul]
    unfold rodrigues
    rw [Real.sin_neg, Real.cos_neg]
    module
  rw [k3] at k2
  exact C33_injective _ _ k2

/-- The default tolerance is admissible. -/
example : 0 < genericTolerance ∧ genericTolerance ≤ 1 := by unfold genericTolerance; norm_num

/-- A velocity above the tolerance. -/
example : genericTolerance ≤ norm3 ![3, 0, 4] ∧ norm3 ![3, 0, 4] = 5 := by
  have h : norm3 ![3, 0, 4] = 5 := by
    unfold norm3
    simp
    rw [show (3 * 3 + 4 * 4 : ℝ) = 5 * 5 by norm_num, Real.sqrt_mul_self (by norm_num)]
  refine ⟨?_, h⟩
  rw [h]; unfold genericTolerance; norm_num

end Humoto
