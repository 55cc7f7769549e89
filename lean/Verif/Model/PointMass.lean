import Verif.Model.Basic
import Mathlib.LinearAlgebra.Matrix.Notation
import Mathlib.Data.Matrix.Mul
import Mathlib.Analysis.SpecialFunctions.Trigonometric.Basic

/-!
# Point mass model for walking, core/include/walking/point_mass_model_6z.h

Real numbers: the functions use `sqrt`, `cosh` and `sinh`. Division by zero and `sqrt` of negative numbers, which give infinities
and NaNs, are excluded by the hypotheses of the theorems (`com_height > 0`, `T ≠ 0`).
-/

namespace Humoto

/-- `rigidbody::PointMassState`, core/include/rigid_body/point_mass_state.h. -/
structure PointMassState (K : Type) where
  position : Fin 3 → K
  velocity : Fin 3 → K
  acceleration : Fin 3 → K

namespace PointMass6z

/-- `g_gravitational_acceleration`, core/include/humoto_helpers.h. -/
noncomputable def gravity : ℝ := 98 / 10

/-- `getAdz3`, point_mass_model_6z.h:39-53. -/
noncomputable def getAdz3 (T w : ℝ) : Matrix (Fin 3) (Fin 3) ℝ :=
  !![1, Real.sinh (T * w) / w, (Real.cosh (T * w) - 1) / (w * w);
     0, Real.cosh (T * w), Real.sinh (T * w) / w;
     0, w * Real.sinh (T * w), Real.cosh (T * w)]

/-- `getBdz3`, point_mass_model_6z.h:59-73. -/
noncomputable def getBdz3 (T w : ℝ) : Fin 3 → ℝ :=
  ![-Real.sinh (T * w) / w + T, -Real.cosh (T * w) + 1, -w * Real.sinh (T * w)]

/-- `getDdz3`, point_mass_model_6z.h:79-86 (a row). -/
noncomputable def getDdz3 (w : ℝ) : Fin 3 → ℝ := ![1, 0, -1 / (w * w)]

/-- `getOmega`, point_mass_model_6z.h:106-109. -/
noncomputable def getOmega (h : ℝ) : ℝ := Real.sqrt (gravity / h)

/-- `convertCoMState(cstate, com_height)`, point_mass_model_6z.h:117-128. -/
def toCoMState (c : Fin 6 → ℝ) (h : ℝ) : PointMassState ℝ :=
  ⟨![c 0, c 3, h], ![c 1, c 4, 0], ![c 2, c 5, 0]⟩

/-- `convertCoMState(com_state)`, point_mass_model_6z.h:134-144. -/
def fromCoMState (s : PointMassState ℝ) : Fin 6 → ℝ :=
  ![s.position 0, s.velocity 0, s.acceleration 0, s.position 1, s.velocity 1, s.acceleration 1]

/-- `getA3(T, omega, Tsample)`, point_mass_model_6z.h:169-177. -/
noncomputable def getA3s (T w Tsample : ℝ) : Matrix (Fin 3) (Fin 3) ℝ := fun i j =>
  getAdz3 T w i j - getBdz3 T w i * getDdz3 w j / Tsample

/-- `getA3(T, omega)`, point_mass_model_6z.h:183-186. -/
noncomputable def getA3 (T w : ℝ) : Matrix (Fin 3) (Fin 3) ℝ := getA3s T w T

/-- `getB3(T, omega, Tsample)`, point_mass_model_6z.h:215-221. -/
noncomputable def getB3s (T w Tsample : ℝ) : Fin 3 → ℝ := fun i => getBdz3 T w i / Tsample

/-- `getB3(T, omega)`, point_mass_model_6z.h:227-230. -/
noncomputable def getB3 (T w : ℝ) : Fin 3 → ℝ := getB3s T w T

/-- `out << A, Zero, Zero, A`, as in point_mass_model_6z.h:196-199. -/
def twice3 (A : Matrix (Fin 3) (Fin 3) ℝ) : Matrix (Fin 6) (Fin 6) ℝ :=
  !![A 0 0, A 0 1, A 0 2, 0, 0, 0;
     A 1 0, A 1 1, A 1 2, 0, 0, 0;
     A 2 0, A 2 1, A 2 2, 0, 0, 0;
     0, 0, 0, A 0 0, A 0 1, A 0 2;
     0, 0, 0, A 1 0, A 1 1, A 1 2;
     0, 0, 0, A 2 0, A 2 1, A 2 2]

/-- `getA6(T, omega, Tsample)`, point_mass_model_6z.h:192-200. -/
noncomputable def getA6s (T w Tsample : ℝ) : Matrix (Fin 6) (Fin 6) ℝ := twice3 (getA3s T w Tsample)

/-- `getA6(T, omega)`, point_mass_model_6z.h:206-209. -/
noncomputable def getA6 (T w : ℝ) : Matrix (Fin 6) (Fin 6) ℝ := getA6s T w T

/-- `getB6(T, omega, Tsample)`, point_mass_model_6z.h:236-245. -/
noncomputable def getB6s (T w Tsample : ℝ) : Matrix (Fin 6) (Fin 2) ℝ :=
  !![getB3s T w Tsample 0, 0;
     getB3s T w Tsample 1, 0;
     getB3s T w Tsample 2, 0;
     0, getB3s T w Tsample 0;
     0, getB3s T w Tsample 1;
     0, getB3s T w Tsample 2]

/-- `getB6(T, omega)`, point_mass_model_6z.h:251-254. -/
noncomputable def getB6 (T w : ℝ) : Matrix (Fin 6) (Fin 2) ℝ := getB6s T w T

/-- `evaluate`, point_mass_model_6z.h:147-163. -/
noncomputable def evaluate (Ts T h : ℝ) (c : Fin 6 → ℝ) (u : Fin 2 → ℝ) : PointMassState ℝ :=
  toCoMState ((getA6s Ts (getOmega h) T).mulVec c + (getB6s Ts (getOmega h) T).mulVec u) h

/-- `getD3`, point_mass_model_6z.h:260-266. -/
noncomputable def getD3 (T w : ℝ) : Fin 3 → ℝ := fun j => -getDdz3 w j / T

/-- `getD6`, point_mass_model_6z.h:272-280. -/
noncomputable def getD6 (T w : ℝ) : Matrix (Fin 2) (Fin 6) ℝ :=
  !![getD3 T w 0, getD3 T w 1, getD3 T w 2, 0, 0, 0;
     0, 0, 0, getD3 T w 0, getD3 T w 1, getD3 T w 2]

/-- `getE3`, point_mass_model_6z.h:286-289. -/
noncomputable def getE3 (T : ℝ) : ℝ := 1 / T

/-- `getE6`, point_mass_model_6z.h:295-298. -/
noncomputable def getE6 (T _w : ℝ) : Matrix (Fin 2) (Fin 2) ℝ := getE3 T • (1 : Matrix (Fin 2) (Fin 2) ℝ)

/-- `getDdz6`, point_mass_model_6z.h:304-311. -/
noncomputable def getDdz6 (h : ℝ) : Matrix (Fin 2) (Fin 6) ℝ :=
  !![1, 0, -(h / gravity), 0, 0, 0;
     0, 0, 0, 1, 0, -(h / gravity)]

/-- `getDcpv6`, point_mass_model_6z.h:319-325. -/
noncomputable def getDcpv6 (w : ℝ) : Matrix (Fin 2) (Fin 6) ℝ :=
  !![0, 1, 1 / w, 0, 0, 0;
     0, 0, 0, 0, 1, 1 / w]

end PointMass6z

end Humoto
