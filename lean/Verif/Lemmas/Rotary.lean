import Verif.Model.Rotary
import Verif.Spec.Rotary
import Verif.Lemmas.Constraints
import Mathlib.LinearAlgebra.Matrix.Adjugate
import Mathlib.Analysis.SpecialFunctions.Trigonometric.Deriv
import Mathlib.Analysis.Calculus.Deriv.Mul
import Mathlib.Analysis.Calculus.Deriv.Add
import Mathlib.Analysis.Calculus.Deriv.Comp
import Mathlib.Tactic.Ring
import Mathlib.Tactic.Linarith
import Mathlib.Tactic.LinearCombination
import Mathlib.Tactic.NormNum
import Mathlib.Tactic.Module
import Mathlib.Tactic.FinCases
import Mathlib.Tactic.FieldSimp

/-!
# Lemmas on rotations
-/

namespace Humoto

open Spec Matrix

set_option linter.unusedSectionVars false

section ring

variable {K : Type} [CommRing K]

theorem Spec.IsRotation.mul {A B : Mat3 K} (hA : IsRotation A) (hB : IsRotation B) : IsRotation (A * B) := by
  refine ⟨?_, by rw [det_mul, hA.2, hB.2, one_mul]⟩
  rw [transpose_mul, Matrix.mul_assoc, ← Matrix.mul_assoc A.transpose, hA.1, Matrix.one_mul, hB.1]

theorem Spec.IsRotation.right_inv {A : Mat3 K} (hA : IsRotation A) : A * A.transpose = 1 := mul_eq_one_comm.mp hA.1

theorem Spec.IsRotation.transpose {A : Mat3 K} (hA : IsRotation A) : IsRotation A.transpose :=
  ⟨by rw [transpose_transpose]; exact hA.right_inv, by rw [det_transpose]; exact hA.2⟩

theorem Spec.IsRotation.adj {A : Mat3 K} (hA : IsRotation A) : A.adjugate = A.transpose := by
  have h : A.adjugate * A = 1 := by rw [adjugate_mul, hA.2, one_smul]
  calc A.adjugate = A.adjugate * (A * A.transpose) := by rw [hA.right_inv, Matrix.mul_one]
    _ = A.transpose := by rw [← Matrix.mul_assoc, h, Matrix.one_mul]

theorem isRotation_one : IsRotation (1 : Mat3 K) := ⟨by simp, by simp⟩

/-- Rotations keep vector products. -/
theorem Spec.IsRotation.cross {A : Mat3 K} (hA : IsRotation A) (v w : Fin 3 → K) :
    vectorProduct (A.mulVec v) (A.mulVec w) = A.mulVec (vectorProduct v w) := by
  have h := hA.adj
  rw [adjugate_fin_three] at h
  have e : ∀ i j, (Matrix.of _ : Mat3 K) i j = A.transpose i j := fun i j => congrFun (congrFun h i) j
  have e00 := e 0 0
  have e01 := e 0 1
  have e02 := e 0 2
  have e10 := e 1 0
  have e11 := e 1 1
  have e12 := e 1 2
  have e20 := e 2 0
  have e21 := e 2 1
  have e22 := e 2 2
  simp [transpose_apply] at e00 e01 e02 e10 e11 e12 e20 e21 e22
  funext i
  fin_cases i
  · simp [vectorProduct, mulVec, dotProduct, Fin.sum_univ_three]
    rw [← e00, ← e10, ← e20]; ring
  · simp [vectorProduct, mulVec, dotProduct, Fin.sum_univ_three]
    rw [← e01, ← e11, ← e21]; ring
  · simp [vectorProduct, mulVec, dotProduct, Fin.sum_univ_three]
    rw [← e02, ← e12, ← e22]; ring

theorem skew_mulVec (v w : Fin 3 → K) : (CrossProductMatrix.eval ⟨v⟩).mulVec w = vectorProduct v w := by
  funext i
  fin_cases i <;> simp [vectorProduct, CrossProductMatrix.eval, mulVec, dotProduct, Fin.sum_univ_three] <;> ring

theorem skew_transpose (v : Fin 3 → K) : (CrossProductMatrix.eval ⟨v⟩).transpose = -CrossProductMatrix.eval ⟨v⟩ := by
  ext i j
  fin_cases i <;> fin_cases j <;> simp [CrossProductMatrix.eval]

theorem skew_smul (a : K) (v : Fin 3 → K) : CrossProductMatrix.eval ⟨fun i => a * v i⟩ = a • CrossProductMatrix.eval ⟨v⟩ := by
  ext i j
  fin_cases i <;> fin_cases j <;> simp [CrossProductMatrix.eval]

theorem skew_cube (v : Fin 3 → K) (h : v 0 * v 0 + v 1 * v 1 + v 2 * v 2 = 1) :
    CrossProductMatrix.eval ⟨v⟩ * CrossProductMatrix.eval ⟨v⟩ * CrossProductMatrix.eval ⟨v⟩ = -CrossProductMatrix.eval ⟨v⟩ := by
  ext i j
  fin_cases i <;> fin_cases j <;> simp [CrossProductMatrix.eval, Matrix.mul_apply, Fin.sum_univ_three]
  · ring
  · linear_combination (v 2) * h
  · linear_combination (-v 1) * h
  · linear_combination (-v 2) * h
  · ring
  · linear_combination (v 0) * h
  · linear_combination (v 1) * h
  · linear_combination (-v 0) * h
  · ring

end ring

/-! ## Rodrigues formula -/

/-- The rotation about the axis by the angle. -/
noncomputable def rodrigues (v : Fin 3 → ℝ) (a : ℝ) : Mat3 ℝ :=
  1 + Real.sin a • CrossProductMatrix.eval ⟨v⟩ +
    (1 - Real.cos a) • (CrossProductMatrix.eval ⟨v⟩ * CrossProductMatrix.eval ⟨v⟩)

theorem rodrigues_add (v : Fin 3 → ℝ) (h : v 0 * v 0 + v 1 * v 1 + v 2 * v 2 = 1) (a b : ℝ) :
    rodrigues v a * rodrigues v b = rodrigues v (a + b) := by
  unfold rodrigues
  have h3 := skew_cube v h
  generalize CrossProductMatrix.eval ⟨v⟩ = N at h3 ⊢
  have h3' : N * (N * N) = -N := by rw [← Matrix.mul_assoc]; exact h3
  have h4 : N * N * (N * N) = -(N * N) := by rw [← Matrix.mul_assoc, h3, Matrix.neg_mul]
  simp only [Matrix.mul_add, Matrix.add_mul, Matrix.smul_mul, Matrix.mul_smul, Matrix.one_mul, Matrix.mul_one, h3, h3', h4]
  rw [Real.sin_add, Real.cos_add]
  module

theorem rodrigues_zero (v : Fin 3 → ℝ) : rodrigues v 0 = 1 := by
  unfold rodrigues; simp

theorem rodrigues_transpose (v : Fin 3 → ℝ) (a : ℝ) : (rodrigues v a).transpose = rodrigues v (-a) := by
  unfold rodrigues
  rw [transpose_add, transpose_add, transpose_smul, transpose_smul, transpose_mul, transpose_one, skew_transpose, Real.sin_neg,
    Real.cos_neg]
  simp

theorem rodrigues_rotation (v : Fin 3 → ℝ) (h : v 0 * v 0 + v 1 * v 1 + v 2 * v 2 = 1) (a : ℝ) : IsRotation (rodrigues v a) := by
  have ho : ∀ b, (rodrigues v b).transpose * rodrigues v b = 1 := by
    intro b
    rw [rodrigues_transpose, rodrigues_add v h, neg_add_cancel, rodrigues_zero]
  refine ⟨ho a, ?_⟩
  have e : a = a / 2 + a / 2 := by ring
  have h2 := congrArg det (ho (a / 2))
  rw [det_mul, det_transpose, det_one] at h2
  rw [e, ← rodrigues_add v h, det_mul, h2]

/-- The function of the code is a product with the rotation. -/
theorem integrate_eq (R : Mat3 ℝ) (w : Fin 3 → ℝ) (dt tol : ℝ) (h : ¬ |norm3 w| < tol) :
    integrateAngularVelocityRodrigues R w dt tol = R * rodrigues (fun i => w i / norm3 w) (norm3 w * dt) := by
  unfold integrateAngularVelocityRodrigues rodrigues CrossProductMatrix.multiplyLeft
  rw [if_neg h]
  simp only [Matrix.mul_add, Matrix.mul_smul, Matrix.mul_one, Matrix.mul_assoc]

theorem norm3_unit (w : Fin 3 → ℝ) (h : norm3 w ≠ 0) :
    w 0 / norm3 w * (w 0 / norm3 w) + w 1 / norm3 w * (w 1 / norm3 w) + w 2 / norm3 w * (w 2 / norm3 w) = 1 := by
  have hs : norm3 w * norm3 w = w 0 * w 0 + w 1 * w 1 + w 2 * w 2 := by
    unfold norm3
    exact Real.mul_self_sqrt (by nlinarith [mul_self_nonneg (w 0), mul_self_nonneg (w 1), mul_self_nonneg (w 2)])
  field_simp
  nlinarith [hs]

/-! ## Rotations about the axes -/

theorem axisRotation_turns (k : Fin 3) (a : ℝ) : TurnsAbout k a (axisRotation k a) := by
  unfold TurnsAbout
  fin_cases k
  all_goals refine ⟨?_, ?_, ?_⟩ <;> funext i <;> fin_cases i <;> simp [axisRotation]

theorem turns_unique {k : Fin 3} {a : ℝ} {A B : Mat3 ℝ} (hA : TurnsAbout k a A) (hB : TurnsAbout k a B) : A = B := by
  have h0 := hA.1.trans hB.1.symm
  have h1 := hA.2.1.trans hB.2.1.symm
  have h2 := hA.2.2.trans hB.2.2.symm
  ext i j
  rw [mulVec_single_one, mulVec_single_one] at h0 h1 h2
  fin_cases k <;> fin_cases j
  · exact congrFun h0 i
  · exact congrFun h1 i
  · exact congrFun h2 i
  · exact congrFun h2 i
  · exact congrFun h0 i
  · exact congrFun h1 i
  · exact congrFun h1 i
  · exact congrFun h2 i
  · exact congrFun h0 i

theorem axisRotation_rotation (k : Fin 3) (a : ℝ) : IsRotation (axisRotation k a) := by
  have h := Real.sin_sq_add_cos_sq a
  refine ⟨?_, ?_⟩
  · fin_cases k <;> ext i j <;> fin_cases i <;> fin_cases j <;>
      simp [axisRotation, Matrix.mul_apply, Fin.sum_univ_three] <;> first | ring1 | linear_combination h
  · fin_cases k <;> simp [axisRotation, det_fin_three] <;> linear_combination h

theorem axisRotation_neg (k : Fin 3) (a : ℝ) : (axisRotation k a).transpose = axisRotation k (-a) := by
  fin_cases k <;> ext i j <;> fin_cases i <;> fin_cases j <;> simp [axisRotation]

/-- Derivative of a rotation about an axis. -/
theorem axisRotation_deriv (k : Fin 3) (e : ℝ → ℝ) (e' t : ℝ) (he : HasDerivAt e e' t) :
    MatDeriv (fun s => axisRotation k (e s)) (CrossProductMatrix.eval ⟨Pi.single k e'⟩ * axisRotation k (e t)) t := by
  have hs := (Real.hasDerivAt_sin (e t)).comp t he
  have hc := (Real.hasDerivAt_cos (e t)).comp t he
  have hsn := hs.neg
  intro i j
  fin_cases k <;> fin_cases i <;> fin_cases j <;>
    simp [axisRotation, Matrix.mul_apply, Fin.sum_univ_three, CrossProductMatrix.eval] <;>
    first
      | exact hasDerivAt_const _ _
      | exact hs.congr_deriv (by ring1)
      | exact hc.congr_deriv (by ring1)
      | exact hsn.congr_deriv (by ring1)

theorem Spec.MatDeriv.mul {A B : ℝ → Mat3 ℝ} {A' B' : Mat3 ℝ} {t : ℝ} (hA : MatDeriv A A' t) (hB : MatDeriv B B' t) :
    MatDeriv (fun s => A s * B s) (A' * B t + A t * B') t := by
  intro i j
  have h := ((hA i 0).mul (hB 0 j)).add (((hA i 1).mul (hB 1 j)).add ((hA i 2).mul (hB 2 j)))
  have e : (fun s => (A s * B s) i j) = fun s => A s i 0 * B s 0 j + (A s i 1 * B s 1 j + A s i 2 * B s 2 j) := by
    funext s
    rw [Matrix.mul_apply, Fin.sum_univ_three]; ring
  rw [e]
  refine h.congr_deriv ?_
  rw [Matrix.add_apply, Matrix.mul_apply, Matrix.mul_apply, Fin.sum_univ_three, Fin.sum_univ_three]
  ring

end Humoto
