import Mathlib.LinearAlgebra.Matrix.Notation
import Mathlib.Analysis.Calculus.Deriv.Basic
import Mathlib.Analysis.SpecialFunctions.Trigonometric.Basic
import Mathlib.LinearAlgebra.Matrix.Determinant.Basic

/-!
# Specification for rotations
-/

namespace Humoto.Spec

/-- A rotation matrix. -/
def IsRotation {K : Type} [CommRing K] (R : Matrix (Fin 3) (Fin 3) K) : Prop := R.transpose * R = 1 ∧ R.det = 1

/-- The rotation about a coordinate axis by an angle leaves the axis and turns the two other axes (in the cyclic order) in the
plane they span. -/
def TurnsAbout (k : Fin 3) (a : ℝ) (R : Matrix (Fin 3) (Fin 3) ℝ) : Prop :=
  R.mulVec (Pi.single k 1) = Pi.single k 1 ∧
  R.mulVec (Pi.single (k + 1) 1) = Real.cos a • Pi.single (k + 1) 1 + Real.sin a • Pi.single (k + 2) 1 ∧
  R.mulVec (Pi.single (k + 2) 1) = -Real.sin a • Pi.single (k + 1) 1 + Real.cos a • Pi.single (k + 2) 1

/-- Vector product. -/
def vectorProduct {K : Type} [CommRing K] (v w : Fin 3 → K) : Fin 3 → K :=
  ![v 1 * w 2 - v 2 * w 1, v 2 * w 0 - v 0 * w 2, v 0 * w 1 - v 1 * w 0]

/-- Matrix valued derivative. -/
def MatDeriv (R : ℝ → Matrix (Fin 3) (Fin 3) ℝ) (R' : Matrix (Fin 3) (Fin 3) ℝ) (t : ℝ) : Prop :=
  ∀ i j, HasDerivAt (fun s => R s i j) (R' i j) t

/-- `w` is the angular velocity, in the global frame, of a body with orientation `R` whose derivative is `R'`: every point `p`
fixed in the body moves with velocity `w × (R p)`. -/
def IsAngularVelocity (w : Fin 3 → ℝ) (R R' : Matrix (Fin 3) (Fin 3) ℝ) : Prop :=
  ∀ p : Fin 3 → ℝ, R'.mulVec p = vectorProduct w (R.mulVec p)

/-- `w` is the angular velocity in the frame of the body. -/
def IsBodyAngularVelocity (w : Fin 3 → ℝ) (R R' : Matrix (Fin 3) (Fin 3) ℝ) : Prop :=
  ∀ p : Fin 3 → ℝ, R'.mulVec p = R.mulVec (vectorProduct w p)

/-- Documented behaviour of `eulerAngles` of Eigen for rotation matrices and two sequences of axes: the product of the three
rotations about the axes is the matrix. -/
def ExtractsAngles (eulerAngles : Matrix (Fin 3) (Fin 3) ℝ → Fin 3 → Fin 3 → Fin 3 → (Fin 3 → ℝ)) : Prop :=
  ∀ R, IsRotation R → ∀ a0 a2 : Fin 3, (a0 = 0 ∧ a2 = 2 ∨ a0 = 2 ∧ a2 = 0) → ∃ A B C,
    TurnsAbout a0 (eulerAngles R a0 1 a2 0) A ∧ TurnsAbout 1 (eulerAngles R a0 1 a2 1) B ∧
    TurnsAbout a2 (eulerAngles R a0 1 a2 2) C ∧ R = A * B * C

end Humoto.Spec
