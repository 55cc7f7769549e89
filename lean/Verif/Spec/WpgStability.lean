import Verif.Spec.WpgHotstart

/-!
# What is expected of the walk when the motion must be capturable at the end of the horizon
-/

namespace Humoto.Spec.Wpg

open Humoto.Wpg

/-- Position along the axis `a` in a state. -/
def positionOf (x : Fin 6 → ℝ) (a : Fin 2) : ℝ := x (if a = 0 then 0 else 3)

/-- `w` is the natural frequency of a point mass at the height `h`. -/
def IsFrequency (h w : ℝ) : Prop := 0 < w ∧ w ^ 2 * h = PointMass6z.gravity

/-- `ξ` is the capture point along the axis `a`: the point in which the centre of pressure must be for the centre of mass to come to rest
above it. -/
def IsCapturePoint (h : ℝ) (x : Fin 6 → ℝ) (a : Fin 2) (ξ : ℝ) : Prop := ∃ w, IsFrequency h w ∧ ξ = positionOf x a + velocityOf x a / w

/-- `z` is the centre of pressure along the axis `a`. -/
def IsPressure (h : ℝ) (x : Fin 6 → ℝ) (a : Fin 2) (z : ℝ) : Prop :=
  IsZmp PointMass6z.gravity h (positionOf x a) (x (if a = 0 then 2 else 5)) z

/-- How far from the centre of the support, along an axis of the world, the centre of pressure may be. -/
noncomputable def sole (p : FootParameters ℝ) : ℝ := (p.footLength + p.footWidth + p.feetDistDefault) / 2

/-- How far the centre of the support moves in one step along an axis of the world. -/
noncomputable def reach (p : FootParameters ℝ) : ℝ := p.maxStepLen + max (max |p.minFeetDist| |p.maxFeetDist|) p.feetDistDefault

/-- How many steps there can be in a horizon: one, and one more for each period of a transition and a single support. -/
def maxSteps (p : FSMParams) (N T : ℕ) : ℕ := N * T / (p.tdsMs + p.ssMs) + 1

/-- How far from the centre of the support the centre of pressure can be by the end of a horizon. -/
noncomputable def farthest (p : FootParameters ℝ) (steps : ℕ) : ℝ := sole p + steps * reach p

end Humoto.Spec.Wpg
