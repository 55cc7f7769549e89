import Verif.Spec.PepperHotstart

/-!
# Symmetries of the motion of Pepper: the robot may start at another place, in another direction, or be reflected in a mirror
-/

namespace Humoto.Spec

open Pepper

variable {K : Type} [Field K]

/-- A map of the plane: points are multiplied by `R` and moved by `d`; a direction with the angle `t` becomes `e * t + phi`. -/
structure PlaneMap (K : Type) where
  R : Fin 2 → Fin 2 → K
  d : Fin 2 → K
  e : K
  phi : K

/-- Images of vectors. -/
def PlaneMap.direction (g : PlaneMap K) (v : Fin 2 → K) : Fin 2 → K := fun a => g.R a 0 * v 0 + g.R a 1 * v 1

/-- Images of points. -/
def PlaneMap.point (g : PlaneMap K) (p : Fin 2 → K) : Fin 2 → K := fun a => g.direction p a + g.d a

/-- Images of angles. -/
def PlaneMap.angle (g : PlaneMap K) (t : K) : K := g.e * t + g.phi

/-- Vectors in the frame of the base: forward remains forward, in a mirror left becomes right. -/
def PlaneMap.side (g : PlaneMap K) (v : Fin 2 → K) : Fin 2 → K := ![v 0, g.e * v 1]

/-- The map keeps lengths, it maps frames with the angle `t` to frames with the image of the angle (with a reflected axis if it is a mirror),
and the bounds of the robot are symmetric with respect to it. -/
structure PlaneSymmetry [LinearOrder K] (tr : Trig K) (p : RobotParameters K) (g : PlaneMap K) : Prop where
  lengths : ∀ v, g.direction v 0 ^ 2 + g.direction v 1 ^ 2 = v 0 ^ 2 + v 1 ^ 2
  mirror : g.e = 1 ∨ g.e = -1
  forward : ∀ t, ![tr.cos (g.angle t), tr.sin (g.angle t)] = g.direction ![tr.cos t, tr.sin t]
  left : ∀ t, ![-tr.sin (g.angle t), tr.cos (g.angle t)] = fun a => g.e * g.direction ![-tr.sin t, tr.cos t] a
  velocity : ∀ v, WithinBounds p.nominal_base_velocity_bounds (g.direction v) ↔ WithinBounds p.nominal_base_velocity_bounds v
  acceleration : ∀ v, WithinBounds p.nominal_base_acceleration_bounds (g.direction v) ↔ WithinBounds p.nominal_base_acceleration_bounds v
  cop : ∀ v, WithinBounds p.cop_bounds (g.direction v) ↔ WithinBounds p.cop_bounds v
  body : ∀ v, WithinBounds p.body_bounds (g.side v) ↔ WithinBounds p.body_bounds v

/-- The horizontal part of a vector. -/
def horizontal (v : Fin 3 → K) : Fin 2 → K := fun a => v a.castSucc

/-- The state `s'` is the image of the state `s`. -/
structure MovedState (g : PlaneMap K) (s s' : ModelState K) : Prop where
  base_position : horizontal s'.base_state.position = g.point (horizontal s.base_state.position)
  base_velocity : horizontal s'.base_state.velocity = g.direction (horizontal s.base_state.velocity)
  base_acceleration : horizontal s'.base_state.acceleration = g.direction (horizontal s.base_state.acceleration)
  body_position : horizontal s'.body_state.position = g.point (horizontal s.body_state.position)
  body_velocity : horizontal s'.body_state.velocity = g.direction (horizontal s.body_state.velocity)
  body_acceleration : horizontal s'.body_state.acceleration = g.direction (horizontal s.body_state.acceleration)
  heights : s'.base_state.position 2 = s.base_state.position 2 ∧ s'.body_state.position 2 = s.body_state.position 2
  yaw : s'.base_state.rpy 2 = g.angle (s.base_state.rpy 2)
  masses : s'.base_mass = s.base_mass ∧ s'.body_mass = s.body_mass

/-- The image of a motion: the velocity is given in the frame of the base, the position is a point of the plane. -/
def movedMotion (g : PlaneMap K) (m : MotionParameters K) : MotionParameters K :=
  { m with
    base_velocity := g.side m.base_velocity
    base_position := g.point m.base_position
    base_angular_velocity := g.e * m.base_angular_velocity }

/-- The robot and the motion in the second program are the images of those in the first one. -/
structure MovedRobot (g : PlaneMap K) (s s' : Program K) : Prop where
  state : MovedState g s.model.state s'.model.state
  parameters : s'.model.robot_parameters = s.model.robot_parameters
  motion : s'.motion = movedMotion g s.motion

/-- The solution `x'` is the image of the solution `x` with `N` intervals: velocities of the base, then jerks of the body. -/
def MovedSolution (g : PlaneMap K) (N : ℕ) (x x' : ℕ → K) : Prop :=
  ∀ k < 2 * N, ∀ a : Fin 2, x' (2 * k + a) = g.direction ![x (2 * k), x (2 * k + 1)] a

/-- Another place. -/
def PlaneMap.translation (d : Fin 2 → K) : PlaneMap K := ⟨![![1, 0], ![0, 1]], d, 1, 0⟩

/-- A rotation about the origin. -/
def PlaneMap.turn (tr : Trig K) (phi : K) : PlaneMap K :=
  ⟨![![tr.cos phi, -tr.sin phi], ![tr.sin phi, tr.cos phi]], 0, 1, phi⟩

/-- A mirror on the first axis. -/
def PlaneMap.mirrorImage (K : Type) [Field K] : PlaneMap K := ⟨![![1, 0], ![0, -1]], 0, -1, 0⟩

/-- First `g`, then `h`. -/
def PlaneMap.andThen (g h : PlaneMap K) : PlaneMap K :=
  ⟨fun a b => h.R a 0 * g.R 0 b + h.R a 1 * g.R 1 b, fun a => h.point g.d a, h.e * g.e, h.angle g.phi⟩

end Humoto.Spec
