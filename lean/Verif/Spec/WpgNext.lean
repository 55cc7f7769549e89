import Verif.Spec.WpgMpc
import Verif.Spec.Wpg

/-!
# What the walking pattern generator is expected to do: the motion which is executed
-/

namespace Humoto.Spec.Wpg

open Humoto.Wpg

/-- Durations of the intervals in milliseconds. -/
def durations (H : Horizon) : List ℕ := (List.range H.intervals.n).map fun i => (H.intervals.e i).T_ms

/-- The state of a point mass at the height `h` has the given horizontal part. -/
structure HasState (h : ℝ) (x : Fin 6 → ℝ) (s : PointMassState ℝ) : Prop where
  position : s.position = ![x 0, x 3, h]
  velocity : s.velocity = ![x 1, x 4, 0]
  acceleration : s.acceleration = ![x 2, x 5, 0]

/-- The foot relative to the middle between the feet, when they are at the distance `d`. -/
noncomputable def beside (d : ℝ) : LeftOrRight → Fin 2 → ℝ
  | .left => ![0, d / 2]
  | .right => ![0, -(d / 2)]
  | .undefined => 0

/-- The state `r` of the foot `side` which lands, when the other foot is `support`. The new support is described by `s` and is at `p`:
this is the landed foot, or the middle between the feet at the end of the walk. -/
structure Landed (d : ℝ) (side : LeftOrRight) (support : RigidBodyState ℝ) (s : WalkState) (p : Fin 2 → ℝ) (r : RigidBodyState ℝ) :
    Prop where
  single : IsSingle s.stance.type → r.position 0 = p 0 ∧ r.position 1 = p 1
  double : s.stance.type = .ds → IsTurned s.theta (beside d side) ![r.position 0 - p 0, r.position 1 - p 1]
  level : r.position 2 = support.position 2
  orientation : r.rpy = ![0, 0, s.theta]
  still : r.velocity = 0 ∧ r.acceleration = 0 ∧ r.angularVelocity = 0 ∧ r.angularAcceleration = 0

/-- The first step of the horizon leads to the support which is described by `s`. -/
def FirstStep (H : Horizon) (s : WalkState) : Prop := ∃ k, H.variable_steps[0]? = some k ∧ H.getWalkState k = .ok s

/-- A foot lands: a transition has begun after a single support. -/
def Landing (prev : StanceType) (f : FSM) : Prop := f.cur.type = .tds ∧ f.tdsStarted = true ∧ IsSingle prev

/-- The feet of the next state, when the stance is that of `f`. `landed` describes the foot which lands. A foot about which nothing is
said is in the air. -/
structure NextFeet (model : Model) (f : FSM) (landed : LeftOrRight → RigidBodyState ℝ → RigidBodyState ℝ → Prop) (r : Feet) : Prop where
  left : f.cur.type = .lss → r.left = model.state.feet.left
  right : f.cur.type = .rss → r.right = model.state.feet.right
  stand : f.cur.type = .ds ∨ (f.cur.type = .tds ∧ ¬ Landing model.state.stance_type f) → r = model.state.feet
  rightLands : Landing model.state.stance_type f → model.state.stance_type = .lss →
    r.left = model.state.feet.left ∧ landed .right model.state.feet.left r.right
  leftLands : Landing model.state.stance_type f → model.state.stance_type = .rss →
    r.right = model.state.feet.right ∧ landed .left model.state.feet.right r.left

/-- The guess `g` for `N` intervals is the solution `old` from the second interval on, followed by zeros; there are two numbers for each
interval. -/
def ShiftedByOne (old g : ℕ → ℝ) (N : ℕ) : Prop := ∀ i < 2 * N, g i = if i + 2 < 2 * N then old (i + 2) else 0

/-- The guess `g` for the positions of `m` steps, made from `old` positions of `n` steps: all of them are kept if their number does not
change; if it is smaller by one, the first step has been made; if it is greater by one, the new step is guessed to be zero. -/
def GuessedSteps (old g : ℕ → ℝ) (n m : ℕ) : Prop :=
  (n = m → ∀ i < 2 * m, g i = old i) ∧
  (n = m + 1 → ∀ i < 2 * m, g i = old (i + 2)) ∧
  (m = n + 1 → ∀ i < 2 * m, g i = if i < 2 * n then old i else 0)

end Humoto.Spec.Wpg
