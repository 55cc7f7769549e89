import Verif.Model.WpgHorizon
import Verif.Spec.Stance

/-!
# What the walking pattern generator is expected to do: the preview horizon
-/

namespace Humoto.Spec.Wpg

open Humoto.Wpg

/-- The call `form` returns with the given outcome, when the horizon is `old` before the call. -/
def FormReturns (nan : ℝ) (junk : ℕ → Interval) (old : Horizon) (q : MPCParameters) (m : Model) (f : FSM) (w : WalkParameters)
    (r : Res (Bool × Horizon)) : Prop := ∃ fuel, form fuel nan junk old q m f w = some r

/-- Number of intervals for a list which begins with a transition: one interval for each transition, and as many intervals for
the support after it as there are complete sampling times in it. -/
def pairsCapacity (T : ℕ) : List Stance → ℕ
  | _ :: s :: rest => 1 + s.duration / T + pairsCapacity T rest
  | _ => 0

/-- Number of intervals for a list of stances: the first support is divided into sampling times, the remainder is an interval,
too. -/
def capacity (T : ℕ) : List Stance → ℕ
  | s :: rest => if s.type = .tds then pairsCapacity T (s :: rest) else (s.duration + T - 1) / T + pairsCapacity T rest
  | [] => 0

/-- Position of the first support in the list. -/
def firstSupport (l : List Stance) : ℕ :=
  match l with
  | s :: _ => if s.type = .tds then 1 else 0
  | [] => 0

/-- Duration of the first interval: a transition is not divided, a support begins with what remains of a sampling time. -/
def firstDuration (T : ℕ) (l : List Stance) : ℕ :=
  match l with
  | s :: _ => if s.type = .tds then s.duration else if s.duration % T = 0 then T else s.duration % T
  | [] => 0

/-- The horizon follows the stances: each interval belongs to a support, the intervals go through all supports in the order of
the walk, and the steps are the intervals in which the support changes. -/
structure FollowsWalk (N T Ttds : ℕ) (height : ℝ) (l : List Stance) (H : Horizon) : Prop where
  size : H.intervals.n = N
  stances : H.walk_states.map (·.stance) = l
  supports : ∀ i < N, ∃ s, l[(H.intervals.e i).state_index]? = some s ∧ s.type ≠ .tds
  first : (H.intervals.e 0).state_index = firstSupport l
  next : ∀ i, i + 1 < N →
    (H.intervals.e (i + 1)).state_index = (H.intervals.e i).state_index + if i + 1 ∈ H.variable_steps then 2 else 0
  sorted : H.variable_steps.Pairwise (· < ·)
  range : ∀ k ∈ H.variable_steps, 0 < k ∧ k < N
  steps : ∀ j k, H.variable_steps[j]? = some k → k = capacity T (l.take (2 * j + firstSupport l + 1))
  allSteps : ∀ j, capacity T (l.take (2 * j + firstSupport l + 1)) < N → j < H.variable_steps.length
  firstTime : (H.intervals.e 0).T_ms = firstDuration T l
  nextTimes : ∀ i < N, 0 < i → (H.intervals.e i).T_ms = if i ∈ H.variable_steps then Ttds else T
  seconds : ∀ i < N, 1000 * (H.intervals.e i).T = (H.intervals.e i).T_ms
  height : ∀ i < N, (H.intervals.e i).com_height = height ∧ (H.intervals.e i).omega = PointMass6z.getOmega height
  velocity : ∀ i < N, ∃ s, H.walk_states[(H.intervals.e i).state_index - 1]? = some s ∧ (H.intervals.e i).cvel_ref = s.R_cvel_ref

/-- The machine is in a double support which it has entered again after the end of the walk. -/
def Reentered (f : FSM) : Prop := f.cur.type = .ds ∧ f.cur.subtype = .intermediate

/-- Orientation of the supports after one another: during the walk each step turns by the increment, the last step does not turn,
from a double support the robot steps with the orientations of its feet. The transition has the orientation of the support which
follows it, except for the transition from the initial double support. -/
structure Turns (m : Model) (w : WalkParameters) (a t b : WalkState) : Prop where
  singleToSingle : IsSingle a.stance.type → IsSingle b.stance.type → b.theta = a.theta + w.theta_increment ∧ t.theta = b.theta
  singleToDouble : IsSingle a.stance.type → b.stance.type = .ds → b.theta = a.theta ∧ t.theta = b.theta
  doubleToLeft : a.stance.type = .ds → b.stance.type = .lss → b.theta = m.state.feet.left.rpy 2 ∧ t.theta = a.theta
  doubleToRight : a.stance.type = .ds → b.stance.type = .rss → b.theta = m.state.feet.right.rpy 2 ∧ t.theta = a.theta

/-- Orientation of the current support, if it is not a transition. -/
structure Current (m : Model) (a : WalkState) : Prop where
  left : a.stance.type = .lss → a.theta = m.state.feet.left.rpy 2
  right : a.stance.type = .rss → a.theta = m.state.feet.right.rpy 2
  double : a.stance.type = .ds → 2 * a.theta = m.state.feet.left.rpy 2 + m.state.feet.right.rpy 2

/-- Orientation of a transition which is already going on and of the support which follows it: `prev` is the support before it. -/
structure Lands (m : Model) (w : WalkParameters) (prev : StanceType) (t b : WalkState) : Prop where
  leftToRight : prev = .lss → b.stance.type = .rss → b.theta = m.state.feet.left.rpy 2 + w.theta_increment ∧ t.theta = b.theta
  rightToLeft : prev = .rss → b.stance.type = .lss → b.theta = m.state.feet.right.rpy 2 + w.theta_increment ∧ t.theta = b.theta
  leftToDouble : prev = .lss → b.stance.type = .ds → b.theta = m.state.feet.left.rpy 2 ∧ t.theta = b.theta
  rightToDouble : prev = .rss → b.stance.type = .ds → b.theta = m.state.feet.right.rpy 2 ∧ t.theta = b.theta
  doubleToLeft : prev = .ds → b.stance.type = .lss → b.theta = m.state.feet.left.rpy 2
  doubleToRight : prev = .ds → b.stance.type = .rss → b.theta = m.state.feet.right.rpy 2

/-- Reference velocity of a state before it is turned by the orientation. -/
def referenceVelocity (w : WalkParameters) (s : Stance) (next : Option Stance) : Fin 2 → ℝ :=
  match s.type with
  | .ds => if s.subtype = .first then w.first_stance_com_velocity else w.last_stance_com_velocity
  | .tds => if next.map (·.type) = some .ds then w.last_stance_com_velocity else w.com_velocity
  | _ => w.com_velocity

/-- The vector turned by the angle. -/
def IsTurned (θ : ℝ) (v r : Fin 2 → ℝ) : Prop :=
  r 0 = Real.cos θ * v 0 - Real.sin θ * v 1 ∧ r 1 = Real.sin θ * v 0 + Real.cos θ * v 1

/-- Bounds of a support: those of the centre of pressure and those of the foot which lands at its beginning. -/
structure HasBounds (p : FootParameters ℝ) (s : Stance) (x : WalkState) : Prop where
  cop : x.cop_bounds = if s.type = .ds then p.getADSCoPBounds else p.getSSCoPBounds
  notMoved : s.subtype = .first → x.fd_bounds = 0
  leftAfterDouble : s.subtype ≠ .first → s.type = .lss → s.prevNonTds = .ds → p.getFootBounds .left .withRespectToADS = .ok x.fd_bounds
  leftAfterSingle : s.subtype ≠ .first → s.type = .lss → s.prevNonTds = .rss → p.getFootBounds .left .withRespectToSS = .ok x.fd_bounds
  rightAfterDouble : s.subtype ≠ .first → s.type = .rss → s.prevNonTds = .ds →
    p.getFootBounds .right .withRespectToADS = .ok x.fd_bounds
  rightAfterSingle : s.subtype ≠ .first → s.type = .rss → s.prevNonTds = .lss →
    p.getFootBounds .right .withRespectToSS = .ok x.fd_bounds
  closesRight : s.subtype ≠ .first → s.type = .ds → s.prevNonTds = .lss → p.getFootBounds .right .alignedToSS = .ok x.fd_bounds
  closesLeft : s.subtype ≠ .first → s.type = .ds → s.prevNonTds = .rss → p.getFootBounds .left .alignedToSS = .ok x.fd_bounds

end Humoto.Spec.Wpg
