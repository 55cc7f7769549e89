import Mathlib.Analysis.Calculus.Deriv.Basic

/-!
# Specification for the point mass model

Motion of a point mass at a constant height `h` above the ground in the field of gravity `g`, one horizontal direction.
-/

namespace Humoto.Spec

/-- ZMP: the point on the ground where the line of the total force (acceleration minus gravity) acting on the mass hits it. -/
def IsZmp (g h c a z : ℝ) : Prop := a * h = g * (c - z)

/-- The motion `c` with velocity `v` and acceleration `a`. -/
def IsMotion (c v a : ℝ → ℝ) : Prop := ∀ t, HasDerivAt c (v t) t ∧ HasDerivAt v (a t) t

end Humoto.Spec
