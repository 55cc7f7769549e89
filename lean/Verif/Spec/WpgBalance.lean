import Verif.Spec.WpgStability
import Verif.Spec.WpgHotstart
import Mathlib.Analysis.Convex.Hull

/-!
# What is expected of the walk: the centre of pressure is above the feet which stand on the ground
-/

namespace Humoto.Spec.Wpg

open Humoto.Wpg Humoto.Bridge

/-- Points of the ground under the sole of a foot: a rectangle with the centre in the position of the foot, turned by its yaw angle. -/
def SolePoints (p : FootParameters ℝ) (f : RigidBodyState ℝ) : Set (Fin 2 → ℝ) :=
  {q | ∃ v, IsTurned (f.rpy 2) v ![q 0 - f.position 0, q 1 - f.position 1] ∧ |v 0| ≤ p.footLength / 2 ∧ |v 1| ≤ p.footWidth / 2}

/-- Points under the soles which stand on the ground: under one sole in a single support, under both soles in double supports and
transitions. -/
def GroundedPoints (p : FootParameters ℝ) (s : ModelState) : Set (Fin 2 → ℝ) :=
  {q | (s.stance_type ≠ .rss ∧ q ∈ SolePoints p s.feet.left) ∨ (s.stance_type ≠ .lss ∧ q ∈ SolePoints p s.feet.right)}

/-- The support polygon: the smallest convex set which contains the soles on the ground. -/
def SupportPolygon (m : Model) : Set (Fin 2 → ℝ) := convexHull ℝ (GroundedPoints m.params m.state)

/-- `z` is the centre of pressure in the state `x` of a point mass at the height `h`. -/
def PressureIn (h : ℝ) (x : Fin 6 → ℝ) (z : Fin 2 → ℝ) : Prop := ∀ a, IsPressure h x a (z a)

/-- The robot is balanced: the centre of pressure is in the support polygon. -/
def BalancedIn (m : Model) (x : Fin 6 → ℝ) : Prop := ∀ z, PressureIn m.getCoMHeight x z → z ∈ SupportPolygon m

/-- In a double support the feet are parallel. -/
def ParallelFeet (m : Model) : Prop := m.state.stance_type = .ds → m.state.feet.left.rpy 2 = m.state.feet.right.rpy 2

/-- The turn of the steps, which the user gives for each iteration, does not change while the robot is in a transition from one support to
another: the iteration which ends a transition is given the same turn as that which has begun it. -/
def SteadyTurn (v : Hotstart) (ext : Qpoases ℝ) (nan : ℝ) (T : ℕ) (w : ℕ → WalkParameters) (s0 : Program) : Prop :=
  ∀ n s, RunAfter v ext nan T w s0 (n + 1) s → s.model.state.stance_type = .tds → (w (n + 1)).theta_increment = (w n).theta_increment

end Humoto.Spec.Wpg
