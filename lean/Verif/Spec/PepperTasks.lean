import Verif.Spec.PepperMpc
import Verif.Spec.Objective

/-!
# Specification of the tasks of the controller of Pepper

Everything is said about the motion `X`: `X k` is the state at the start of the interval `k`, see `Simulates`. A state contains the
position, the velocity and the acceleration of the base along the axes 0 and 1, and then the same for the body (axes 2 and 3 in the
vector).
-/

namespace Humoto.Spec

open Pepper

variable {K : Type} [Field K]

/-- Horizontal position of the base. -/
def basePosition (X : Vec K) (a : Fin 2) : K := X.e (3 * a)

/-- Horizontal velocity of the base. -/
def baseVelocity (X : Vec K) (a : Fin 2) : K := X.e (3 * a + 1)

/-- Horizontal acceleration of the base. -/
def baseAcceleration (X : Vec K) (a : Fin 2) : K := X.e (3 * a + 2)

/-- Horizontal acceleration of the body. -/
def bodyAcceleration (X : Vec K) (a : Fin 2) : K := X.e (3 * (a + 2) + 2)

/-- Position of the body relative to the base in the frame which is aligned with the base. The columns of `rotation` are the axes of
that frame. -/
def bodyOffset (iv : Interval K) (X : Vec K) (a : Fin 2) : K :=
  iv.rotation 0 a * (X.e 6 - X.e 0) + iv.rotation 1 a * (X.e 9 - X.e 3)

/-- What a task restricts or minimises: two numbers for each interval, which depend on the motion. -/
abbrev Quantity (K : Type) := Interval K → (start finish : Vec K) → Fin 2 → K

/-- Velocity of the base at the end of an interval. -/
def velocityQuantity : Quantity K := fun _ _ Y => baseVelocity Y

/-- Acceleration of the base at the end of an interval. -/
def accelerationQuantity : Quantity K := fun _ _ Y => baseAcceleration Y

/-- Centre of pressure at the end of an interval, relative to the base. -/
def copQuantity : Quantity K := fun iv _ Y a => intervalCop iv Y a

/-- Position of the body relative to the base at the end of an interval. -/
def bodyQuantity : Quantity K := fun iv _ Y => bodyOffset iv Y

/-- Jerk of the base: its acceleration changes by the jerk multiplied by the duration. -/
def baseJerkQuantity : Quantity K := fun iv Z Y a => (baseAcceleration Y a - baseAcceleration Z a) / iv.T

/-- Jerk of the body. -/
def bodyJerkQuantity : Quantity K := fun iv Z Y a => (bodyAcceleration Y a - bodyAcceleration Z a) / iv.T

/-- Distance from the reference position of the base. -/
def positionErrorQuantity : Quantity K := fun iv _ Y a => basePosition Y a - iv.base_pos_ref a

/-- Distance from the reference velocity of the base. -/
def velocityErrorQuantity : Quantity K := fun iv _ Y a => baseVelocity Y a - iv.base_vel_ref a

/-- In each interval of the motion the quantity is within the bounds. -/
def MotionWithin [LE K] (intervals : List (Interval K)) (q : Quantity K) (bounds : Interval K → Fin 2 → Fin 2 → K) (X : ℕ → Vec K) : Prop :=
  ∀ (k : ℕ) iv, intervals[k]? = some iv → WithinBounds (bounds iv) (q iv (X k) (X (k + 1)))

/-- Sum over the intervals and the axes of squares of the quantity. -/
def motionCost (intervals : List (Interval K)) (q : Quantity K) (X : ℕ → Vec K) : K :=
  ∑ k : Fin intervals.length, ∑ a : Fin 2, q intervals[k] (X k) (X (k + 1)) a ^ 2

/-- The constraint holds exactly for those solutions whose motion from `x0` keeps the quantity within the bounds. -/
def RestrictsMotion [LinearOrder K] (intervals : List (Interval K)) (x0 : Vec K) (c : Ctr K) (q : Quantity K)
    (bounds : Interval K → Fin 2 → Fin 2 → K) : Prop :=
  ∀ x X, Simulates intervals x0 x X → (Satisfied c x ↔ MotionWithin intervals q bounds X)

/-- Each row of the task is `gain` multiplied by the quantity; so the task minimises `gain^2` multiplied by the sum of squares. -/
structure MinimisesMotion (intervals : List (Interval K)) (x0 : Vec K) (c : Ctr K) (gain : K) (q : Quantity K) : Prop where
  canMinimise : CanMinimise c
  rows : ∀ x X, Simulates intervals x0 x X → ∀ (k : ℕ) iv, intervals[k]? = some iv → ∀ a : Fin 2,
    lhs c x (2 * k + a) - target c (2 * k + a) = gain * q iv (X k) (X (k + 1)) a
  cost : ∀ x X, Simulates intervals x0 x X → residualSq c x = gain ^ 2 * motionCost intervals q X

/-- A constraint with two rows for each of `N` intervals, which mentions only the variables of the problem. -/
structure MotionTask (N : ℕ) (ctype : CtrType) (c : Ctr K) : Prop where
  ctype : c.ctype = ctype
  nvars : c.nvars = 4 * N
  rows : rows c = 2 * N
  wellFormed : WellFormed c

/-- The horizon is not empty, the intervals have a duration, and the masses do not cancel. -/
structure SaneIntervals (intervals : List (Interval K)) : Prop where
  nonempty : 0 < intervals.length
  times : ∀ iv ∈ intervals, iv.T ≠ 0
  masses : ∀ iv ∈ intervals, iv.base_mass + iv.body_mass ≠ 0

end Humoto.Spec
