import Verif.Spec.PepperProgram

/-!
# What is expected of hot starting in the programs of Pepper
-/

namespace Humoto.Spec

open Pepper

variable {K : Type} [Field K] [LinearOrder K]

/-- `cos` and `sin` are coordinates of points of the unit circle. -/
def UnitCircle (tr : Trig K) : Prop := ∀ t, tr.cos t ^ 2 + tr.sin t ^ 2 = 1

/-- Numbers which are far from the library infinity: bounds, masses, heights and the acceleration of the body. -/
structure ReasonableRobot (p : RobotParameters K) (s : ModelState K) : Prop where
  velocity : ∀ a b, |p.nominal_base_velocity_bounds a b| ≤ 10 ^ 6
  acceleration : ∀ a b, |p.nominal_base_acceleration_bounds a b| ≤ 10 ^ 6
  cop : ∀ a b, |p.cop_bounds a b| ≤ 10 ^ 6
  body : ∀ a b, |p.body_bounds a b| ≤ 10 ^ 6
  masses : 0 < s.body_mass ∧ 0 ≤ s.base_mass ∧ s.base_mass ≤ 1000 * s.body_mass
  heights : 1 / 1000 ≤ s.body_state.position 2 ∧ |s.base_state.position 2| ≤ 1000
  start : ∀ a : Fin 2, |s.body_state.acceleration a.castSucc| ≤ 10 ^ 16

/-- The robot and what remains of the motion are the same in two programs. -/
structure SameRobot (s s' : Program K) : Prop where
  model : s'.model = s.model
  motion : s'.motion = s.motion

end Humoto.Spec
