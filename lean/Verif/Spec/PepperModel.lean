import Verif.Model.PepperModel
import Verif.Spec.TripleIntegrator

/-!
# Specification of the model of Pepper

Two point masses, one for the base, the other one for the body, which move along two horizontal axes.
-/

namespace Humoto.Spec

open Pepper

variable {K : Type}

/-- All points between the bounds: the first column contains lower bounds, the second one upper bounds. -/
def WithinBounds [LE K] (b : Fin 2 → Fin 2 → K) (v : Fin 2 → K) : Prop := ∀ i, b i 0 ≤ v i ∧ v i ≤ b i 1

/-- The bounds describe a square in the disc with the given radius, whose corners are on its border. -/
structure SquareInDisc (radius : ℝ) (b : Fin 2 → Fin 2 → ℝ) : Prop where
  inside : ∀ v, WithinBounds b v → v 0 ^ 2 + v 1 ^ 2 ≤ radius ^ 2
  corners : ∀ v : Fin 2 → ℝ, (v 0 = b 0 0 ∨ v 0 = b 0 1) → (v 1 = b 1 0 ∨ v 1 = b 1 1) →
    v 0 ^ 2 + v 1 ^ 2 = radius ^ 2
  square : b 0 1 - b 0 0 = b 1 1 - b 1 0
  centred : ∀ i, b i 0 = - b i 1
  ordered : 0 ≤ radius → ∀ i, b i 0 ≤ b i 1

variable [Field K]

/-- Centre of pressure of two point masses relative to the position of the first one along the axis `i`. The masses are at
constant heights, the gravitational acceleration is 9.8. -/
def centreOfPressure (s : ModelState K) (i : Fin 3) : K :=
  (s.base_mass * (s.base_state.position i - s.base_state.position 2 * s.base_state.acceleration i / (98 / 10)) +
    s.body_mass * (s.body_state.position i - s.body_state.position 2 * s.body_state.acceleration i / (98 / 10))) /
    (s.base_mass + s.body_mass) - s.base_state.position i

/-- `(p', v', a')` is the state at the time `t` of a motion with constant jerk `j` which starts in `(p, v, a)`. -/
def MovesTo (p v a j t p' v' a' : K) : Prop :=
  p' = positionAt p v a j t ∧ v' = velocityAt v a j t ∧ a' = accelerationAt a j t

/-- States are vectors with position, velocity, acceleration for two axes of the base and then two axes of the body. From `x`, the
base moves with the constant jerk with which it has the velocity `u 0`, `u 1` after the time `T`; the body moves with the
jerk `u 2`, `u 3`; `y` is the state at the time `Ts`. -/
def PepperStep (T Ts : K) (x u y : Vec K) : Prop :=
  x.n = 12 ∧ u.n = 4 ∧ y.n = 12 ∧
  (∀ k < 2, ∃ j, velocityAt (x.e (3 * k + 1)) (x.e (3 * k + 2)) j T = u.e k ∧
    MovesTo (x.e (3 * k)) (x.e (3 * k + 1)) (x.e (3 * k + 2)) j Ts (y.e (3 * k)) (y.e (3 * k + 1)) (y.e (3 * k + 2))) ∧
  ∀ k, 2 ≤ k → k < 4 →
    MovesTo (x.e (3 * k)) (x.e (3 * k + 1)) (x.e (3 * k + 2)) (u.e k) Ts (y.e (3 * k)) (y.e (3 * k + 1)) (y.e (3 * k + 2))

/-- The same in terms of states of the robot: `s'` is the state at the time `Ts` if the horizontal velocity of the base at the
time `T` is `v` and the jerk of the body is `j`. Heights and orientation of `s'` are given, vertical velocities and
accelerations, and everything else about the rotation is zero. -/
structure NextState (s s' : ModelState K) (T Ts : K) (v j : Fin 2 → K) (base_height body_height theta : K) : Prop where
  base : ∀ i : Fin 2, ∃ jerk,
    velocityAt (s.base_state.velocity i.castSucc) (s.base_state.acceleration i.castSucc) jerk T = v i ∧
    MovesTo (s.base_state.position i.castSucc) (s.base_state.velocity i.castSucc) (s.base_state.acceleration i.castSucc)
      jerk Ts (s'.base_state.position i.castSucc) (s'.base_state.velocity i.castSucc) (s'.base_state.acceleration i.castSucc)
  body : ∀ i : Fin 2,
    MovesTo (s.body_state.position i.castSucc) (s.body_state.velocity i.castSucc) (s.body_state.acceleration i.castSucc)
      (j i) Ts (s'.body_state.position i.castSucc) (s'.body_state.velocity i.castSucc) (s'.body_state.acceleration i.castSucc)
  base_vertical : s'.base_state.position 2 = base_height ∧ s'.base_state.velocity 2 = 0 ∧ s'.base_state.acceleration 2 = 0
  body_vertical : s'.body_state.position 2 = body_height ∧ s'.body_state.velocity 2 = 0 ∧ s'.body_state.acceleration 2 = 0
  orientation : s'.base_state.rpy = ![0, 0, theta]
  rotation : s'.base_state.angularVelocity = 0 ∧ s'.base_state.angularAcceleration = 0

end Humoto.Spec
