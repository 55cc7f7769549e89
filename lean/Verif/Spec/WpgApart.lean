import Verif.Spec.WpgBalance

/-!
# What is expected of the walk: the feet do not collide
-/

namespace Humoto.Spec.Wpg

open Humoto.Wpg

/-- Both feet are on the ground. -/
def OnBothFeet (s : ModelState) : Prop := s.stance_type = .ds ∨ s.stance_type = .tds

/-- The soles have no common point. -/
def SolesApart (p : FootParameters ℝ) (f : Feet) : Prop := Disjoint (SolePoints p f.left) (SolePoints p f.right)

/-- The left foot is at the place `v` relative to the right one: measured along and to the left of one of the feet, whose orientation is `θ`;
the other foot is turned by `δ`. -/
def LeftFootAt (f : Feet) (θ δ : ℝ) (v : Fin 2 → ℝ) : Prop :=
  IsTurned θ v ![f.left.position 0 - f.right.position 0, f.left.position 1 - f.right.position 1] ∧
    (f.right.rpy 2 = θ ∧ f.left.rpy 2 = θ + δ ∨ f.left.rpy 2 = θ ∧ f.right.rpy 2 = θ + δ)

/-- The left foot is on the left, at least `d` from the right one. -/
def Uncrossed (f : Feet) (d : ℝ) : Prop := ∃ θ δ v, LeftFootAt f θ δ v ∧ d ≤ v 1

/-- There is room between feet at the least distance for a sole which is turned by `δ`. -/
def RoomForTurn (p : FootParameters ℝ) (δ : ℝ) : Prop :=
  (p.footWidth + p.footWidth * |Real.cos δ| + p.footLength * |Real.sin δ|) / 2 < p.minFeetDist

end Humoto.Spec.Wpg
