import Verif.Model.Basic

/-!
# Specification of the triple integrator

A point which moves along a line with a constant third derivative.
-/

namespace Humoto.Spec

variable {K : Type} [Field K]

/-- Position at the time `t` of the motion with the initial position `p`, velocity `v`, acceleration `a` and the constant jerk
`j`. -/
def positionAt (p v a j t : K) : K := p + v * t + a * t ^ 2 / 2 + j * t ^ 3 / 6

/-- Velocity at the time `t`. -/
def velocityAt (v a j t : K) : K := v + a * t + j * t ^ 2 / 2

/-- Acceleration at the time `t`. -/
def accelerationAt (a j t : K) : K := a + j * t

/-- The state consists of position, velocity and acceleration for each of `n` coordinates. Each coordinate `k` moves from the
state `x` with the constant jerk `j k`; `y` is the state after the time `t`. -/
def Reaches (n : ℕ) (x j : Vec K) (t : K) (y : Vec K) : Prop :=
  x.n = 3 * n ∧ j.n = n ∧ y.n = 3 * n ∧ ∀ k < n,
    y.e (3 * k) = positionAt (x.e (3 * k)) (x.e (3 * k + 1)) (x.e (3 * k + 2)) (j.e k) t ∧
    y.e (3 * k + 1) = velocityAt (x.e (3 * k + 1)) (x.e (3 * k + 2)) (j.e k) t ∧
    y.e (3 * k + 2) = accelerationAt (x.e (3 * k + 2)) (j.e k) t

/-- `u` contains the component `c` (0: position, 1: velocity, 2: acceleration) of each coordinate of the state `y`. -/
def Component (n c : ℕ) (y u : Vec K) : Prop := u.n = n ∧ ∀ k < n, u.e k = y.e (3 * k + c)

end Humoto.Spec
