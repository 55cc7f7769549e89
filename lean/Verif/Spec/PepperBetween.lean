import Verif.Spec.PepperProgram

/-!
# What is expected of the motion of Pepper between iterations
-/

namespace Humoto.Spec

open Pepper

variable {K : Type} [Field K]

/-- The robot moves from the state `s` with constant jerks, such that it is in the state `s'` at the time `T`; `y` is its state at the time
`t`. The heights and the masses are those of `s'`. -/
structure OnTheWay (T t : K) (s s' y : ModelState K) : Prop where
  base : ∀ i : Fin 2, ∃ jerk,
    MovesTo (s.base_state.position i.castSucc) (s.base_state.velocity i.castSucc) (s.base_state.acceleration i.castSucc)
      jerk T (s'.base_state.position i.castSucc) (s'.base_state.velocity i.castSucc) (s'.base_state.acceleration i.castSucc) ∧
    MovesTo (s.base_state.position i.castSucc) (s.base_state.velocity i.castSucc) (s.base_state.acceleration i.castSucc)
      jerk t (y.base_state.position i.castSucc) (y.base_state.velocity i.castSucc) (y.base_state.acceleration i.castSucc)
  body : ∀ i : Fin 2, ∃ jerk,
    MovesTo (s.body_state.position i.castSucc) (s.body_state.velocity i.castSucc) (s.body_state.acceleration i.castSucc)
      jerk T (s'.body_state.position i.castSucc) (s'.body_state.velocity i.castSucc) (s'.body_state.acceleration i.castSucc) ∧
    MovesTo (s.body_state.position i.castSucc) (s.body_state.velocity i.castSucc) (s.body_state.acceleration i.castSucc)
      jerk t (y.body_state.position i.castSucc) (y.body_state.velocity i.castSucc) (y.body_state.acceleration i.castSucc)
  heights : y.base_state.position 2 = s'.base_state.position 2 ∧ y.body_state.position 2 = s'.body_state.position 2
  masses : y.base_mass = s'.base_mass ∧ y.body_mass = s'.body_mass

/-- The vector leaves its bounds by at most `e` along each axis. -/
def AlmostWithin [LE K] (b : Fin 2 → Fin 2 → K) (e : Fin 2 → K) (v : Fin 2 → K) : Prop := ∀ i, b i 0 - e i ≤ v i ∧ v i ≤ b i 1 + e i

/-- Acceleration of the body relative to the base along an axis. -/
def relativeAcceleration (s : ModelState K) (i : Fin 2) : K := s.body_state.acceleration i.castSucc - s.base_state.acceleration i.castSucc

/-- The heights and the masses are the same in two states. -/
structure SameParts (s s' : ModelState K) : Prop where
  heights : s'.base_state.position 2 = s.base_state.position 2 ∧ s'.body_state.position 2 = s.body_state.position 2
  masses : s'.base_mass = s.base_mass ∧ s'.body_mass = s.body_mass

/-- The greatest absolute value within bounds along an axis. -/
def extent [LinearOrder K] (b : Fin 2 → Fin 2 → K) (a : Fin 2) : K := max |b a 0| |b a 1|

/-- How fast the body can accelerate relative to the base, if the robot has the default masses and stays within its bounds: in terms of the
parameters of the robot and of the heights of the base and of the body. -/
def greatestRelativeAcceleration [LinearOrder K] (p : RobotParameters K) (baseHeight bodyHeight : K) (a : Fin 2) : K :=
  98 / 10 * (123389 / 10000 * (extent p.body_bounds 0 + extent p.body_bounds 1) +
    (1634234 / 100000 + 123389 / 10000) * extent p.cop_bounds a) / (123389 / 10000 * bodyHeight) +
  (1634234 / 100000 * |baseHeight| / (123389 / 10000 * bodyHeight) + 1) * extent p.nominal_base_acceleration_bounds a

end Humoto.Spec
