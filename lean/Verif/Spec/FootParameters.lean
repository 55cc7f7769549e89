import Mathlib.Algebra.Order.Field.Basic
import Mathlib.LinearAlgebra.Matrix.Notation
import Mathlib.Data.Matrix.Mul

/-!
# Specification for the feet of the robot
-/

namespace Humoto.Spec

variable {K : Type} [Field K] [LinearOrder K]

/-- The point is inside of the bounds (column 0: lower, column 1: upper). -/
def Within (B : Matrix (Fin 2) (Fin 2) K) (x : Fin 2 → K) : Prop := ∀ i, B i 0 ≤ x i ∧ x i ≤ B i 1

/-- The point on the other side of the sagittal plane. -/
def mirror (x : Fin 2 → K) : Fin 2 → K := ![x 0, -x 1]

/-- A planar orientation. -/
def IsOrientation (R : Matrix (Fin 2) (Fin 2) K) : Prop := R.transpose * R = 1

/-- Square of the distance. -/
def distSq (x y : Fin 2 → K) : K := (x 0 - y 0) ^ 2 + (x 1 - y 1) ^ 2

end Humoto.Spec
