import Verif.Model.Basic
import Mathlib.LinearAlgebra.Matrix.Notation
import Mathlib.Data.Matrix.Mul
import Mathlib.Analysis.SpecialFunctions.Trigonometric.Basic
import Mathlib.Analysis.SpecialFunctions.Complex.Arg

/-!
# Rotations, core/include/rigid_body/rotary_state.h, core/include/eigentools/cross_product.h

`etools::Vector3` is `Fin 3 → K`, `etools::Matrix3` is `Matrix (Fin 3) (Fin 3) K`. Functions which use `sin`, `cos` or `norm` are
defined on real numbers.
-/

namespace Humoto

/-- 3x3 matrices. -/
abbrev Mat3 (K : Type) := Matrix (Fin 3) (Fin 3) K

/-- `v.cross(w)` of Eigen. -/
def cross {K : Type} [Ring K] (v w : Fin 3 → K) : Fin 3 → K :=
  ![v 1 * w 2 - v 2 * w 1, v 2 * w 0 - v 0 * w 2, v 0 * w 1 - v 1 * w 0]

/-- `CrossProductMatrix`, cross_product.h:18-32. -/
structure CrossProductMatrix (K : Type) where
  vector : Fin 3 → K

namespace CrossProductMatrix

variable {K : Type} [Ring K]

/-- `eval(vector)`, cross_product.h:42-47, 55-58. -/
def eval (M : CrossProductMatrix K) : Mat3 K :=
  !![0, -M.vector 2, M.vector 1;
     M.vector 2, 0, -M.vector 0;
     -M.vector 1, M.vector 0, 0]

/-- `multiplyLeft(result, matrix)` and `matrix * this`, cross_product.h:70-76, 110-127. -/
def multiplyLeft {n : ℕ} (M : CrossProductMatrix K) (A : Matrix (Fin n) (Fin 3) K) : Matrix (Fin n) (Fin 3) K := A * M.eval

/-- `multiplyRight(result, vector)` and `this * vector`, cross_product.h:88-94, 142-159. `cross` of Eigen accepts only vectors of
three elements, hence the function cannot be compiled with other arguments. -/
def multiplyRight (M : CrossProductMatrix K) (w : Fin 3 → K) : Fin 3 → K := cross M.vector w

end CrossProductMatrix

/-- `EulerAngles::Type`, rotary_state.h:19-30. -/
inductive EulerType
  | undefined
  | ypr
  | rpy
  deriving DecidableEq, Repr

/-- `Eigen::AngleAxisd(angle, Eigen::Vector3d::Unit*()).matrix()`: rotation about a coordinate axis. The products of `AngleAxisd`
are computed by Eigen using quaternions; the matrix of the product is modelled as the product of matrices. -/
noncomputable def axisRotation (axis : Fin 3) (a : ℝ) : Mat3 ℝ :=
  match axis with
  | 0 => !![1, 0, 0; 0, Real.cos a, -Real.sin a; 0, Real.sin a, Real.cos a]
  | 1 => !![Real.cos a, 0, Real.sin a; 0, 1, 0; -Real.sin a, 0, Real.cos a]
  | 2 => !![Real.cos a, -Real.sin a, 0; Real.sin a, Real.cos a, 0; 0, 0, 1]

/-- `convertEulerAnglesToMatrix`, rotary_state.h:72-95. Indices of the angles: `AngleIndex`, core/include/humoto/utility.h:61-70. -/
noncomputable def convertEulerAnglesToMatrix (e : Fin 3 → ℝ) : EulerType → Res (Mat3 ℝ)
  | .rpy => .ok (axisRotation 2 (e 2) * axisRotation 1 (e 1) * axisRotation 0 (e 0))
  | .ypr => .ok (axisRotation 0 (e 0) * axisRotation 1 (e 1) * axisRotation 2 (e 2))
  | .undefined => .error .thrown

/-- `convertMatrixToEulerAngles`, rotary_state.h:41-61. `eulerAngles(a0, a1, a2)` belongs to Eigen and is a parameter. -/
def convertMatrixToEulerAngles (eulerAngles : Mat3 ℝ → Fin 3 → Fin 3 → Fin 3 → (Fin 3 → ℝ)) (R : Mat3 ℝ) :
    EulerType → Res (Fin 3 → ℝ)
  | .ypr => .ok (eulerAngles R 0 1 2)
  | .rpy => .ok (fun i => eulerAngles R 2 1 0 (Fin.rev i))
  | .undefined => .error .thrown

/-- `std::atan2(y, x)`. -/
noncomputable def atan2 (y x : ℝ) : ℝ := Complex.arg ⟨x, y⟩

/-- The first two angles in `eulerAngles` of Eigen, see `eigenEulerAngles`. -/
noncomputable def eigenFirstAngles (a c s c2 : ℝ) (odd : Bool) : ℝ × ℝ :=
  let r := atan2 a c
  if (odd = true ∧ r < 0) ∨ (odd = false ∧ 0 < r) then (if 0 < r then r - Real.pi else r + Real.pi, atan2 s (-c2))
  else (r, atan2 s c2)

/-- `eulerAngles(a0, 1, a2)` of Eigen 3.2 and 3.3 (Eigen/src/Geometry/EulerAngles.h) for `a0` and `a2` equal to 0 and 2: this is not
a part of the repository, and the theorems do not rely on it unless it is mentioned. The variables `i = a0`, `j = 1`, `k = a2`
and `odd = (a0 == 2)` follow the source. -/
noncomputable def eigenEulerAngles (R : Mat3 ℝ) (a0 _a1 a2 : Fin 3) : Fin 3 → ℝ :=
  let f := eigenFirstAngles (R 1 a2) (R a2 a2) (-R a0 a2) (Real.sqrt (R a0 a0 * R a0 a0 + R a0 1 * R a0 1)) (a0 == 2)
  let r2 := atan2 (Real.sin f.1 * R a2 a0 - Real.cos f.1 * R 1 a0) (Real.cos f.1 * R 1 1 - Real.sin f.1 * R a2 1)
  if a0 = 2 then ![f.1, f.2, r2] else ![-f.1, -f.2, -r2]

/-- `convertEulerAngles`, rotary_state.h:108-115. -/
noncomputable def convertEulerAngles (eulerAngles : Mat3 ℝ → Fin 3 → Fin 3 → Fin 3 → (Fin 3 → ℝ)) (e : Fin 3 → ℝ)
    (src dst : EulerType) : Res (Fin 3 → ℝ) := do
  let R ← convertEulerAnglesToMatrix e src
  convertMatrixToEulerAngles eulerAngles R dst

/-- `getRotationError`, rotary_state.h:117-121. -/
def getRotationError {K : Type} [Ring K] (current reference : Mat3 K) : Mat3 K := reference * current.transpose

/-- `getRotationErrorAngleAxis`, rotary_state.h:124-132. -/
def getRotationErrorAngleAxis {K : Type} [Field K] (current reference : Mat3 K) : Fin 3 → K := fun i =>
  1 / 2 * (cross (current.col 0) (reference.col 0) i + cross (current.col 1) (reference.col 1) i +
    cross (current.col 2) (reference.col 2) i)

/-- `getEulerRatesToAngularVelocityTransform`, rotary_state.h:143-162. -/
noncomputable def getEulerRatesToAngularVelocityTransform (e : Fin 3 → ℝ) : EulerType → Res (Mat3 ℝ)
  | .rpy => .ok !![Real.cos (e 1) * Real.cos (e 2), -Real.sin (e 2), 0;
                   Real.cos (e 1) * Real.sin (e 2), Real.cos (e 2), 0;
                   -Real.sin (e 1), 0, 1]
  | _ => .error .thrown

/-- `integrateAngularVelocity`, rotary_state.h:176-183. -/
def integrateAngularVelocity {K : Type} [Ring K] (R : Mat3 K) (w : Fin 3 → K) (dt : K) : Mat3 K :=
  R + dt • CrossProductMatrix.multiplyLeft ⟨w⟩ R

/-- `v.norm()` of Eigen. -/
noncomputable def norm3 (v : Fin 3 → ℝ) : ℝ := Real.sqrt (v 0 * v 0 + v 1 * v 1 + v 2 * v 2)

/-- `integrateAngularVelocityRodrigues`, rotary_state.h:197-222. -/
noncomputable def integrateAngularVelocityRodrigues (R : Mat3 ℝ) (w : Fin 3 → ℝ) (dt tolerance : ℝ) : Mat3 ℝ :=
  if |norm3 w| < tolerance then R
  else
    let tilde : CrossProductMatrix ℝ := ⟨fun i => w i / norm3 w⟩
    let orient := tilde.multiplyLeft R
    R + Real.sin (norm3 w * dt) • orient + (1 - Real.cos (norm3 w * dt)) • tilde.multiplyLeft orient

/-- `g_generic_tolerance`, core/include/humoto_helpers.h, the default tolerance. -/
noncomputable def genericTolerance : ℝ := 1 / 10 ^ 12

end Humoto
