import Verif.Spec.WpgHotstart

/-!
# Symmetries of the walk: the robot may start at another place, in another direction, or be reflected in a mirror
-/

namespace Humoto.Spec.Wpg

open Humoto.Wpg

/-- A map of the plane: a reflection which exchanges left and right, if `mirror` is set, then a turn by `angle`, then a shift. -/
structure WalkMap where
  mirror : Bool
  angle : ℝ
  shift : Fin 2 → ℝ

namespace WalkMap

/-- The sign of the direction to the left. -/
def sign (g : WalkMap) : ℝ := if g.mirror then -1 else 1

/-- Images of vectors which are given in frames of feet: forward remains forward, in a mirror left becomes right. -/
def side (g : WalkMap) (v : Fin 2 → ℝ) : Fin 2 → ℝ := ![v 0, g.sign * v 1]

/-- Images of vectors. -/
noncomputable def vector (g : WalkMap) (v : Fin 2 → ℝ) : Fin 2 → ℝ :=
  ![Real.cos g.angle * v 0 - Real.sin g.angle * (g.sign * v 1), Real.sin g.angle * v 0 + Real.cos g.angle * (g.sign * v 1)]

/-- Images of points. -/
noncomputable def point (g : WalkMap) (p : Fin 2 → ℝ) : Fin 2 → ℝ := g.vector p + g.shift

/-- Images of directions. -/
def heading (g : WalkMap) (t : ℝ) : ℝ := g.angle + g.sign * t

/-- Images of stances. -/
def stanceType (g : WalkMap) : StanceType → StanceType
  | .lss => if g.mirror then .rss else .lss
  | .rss => if g.mirror then .lss else .rss
  | t => t

/-- Images of the parameters of the machine which schedules the stances. -/
def schedule (g : WalkMap) (p : FSMParams) : FSMParams :=
  { p with firstStance := g.stanceType p.firstStance, firstSsType := g.stanceType p.firstSsType, lastStance := g.stanceType p.lastStance }

/-- Images of scheduled stances. -/
def stance (g : WalkMap) (s : Stance) : Stance :=
  { s with type := g.stanceType s.type, prevNonDs := g.stanceType s.prevNonDs, prevNonTds := g.stanceType s.prevNonTds }

/-- Images of the machine which schedules the stances. -/
def machine (g : WalkMap) (f : FSM) : FSM := { f with cur := g.stance f.cur, params := g.schedule f.params }

/-- Images of the parameters of the walk: the velocities are given in frames of feet, the turn in a mirror is to the other side. -/
def walk (g : WalkMap) (w : WalkParameters) : WalkParameters where
  com_velocity := g.side w.com_velocity
  first_stance_com_velocity := g.side w.first_stance_com_velocity
  last_stance_com_velocity := g.side w.last_stance_com_velocity
  step_height := w.step_height
  theta_increment := g.sign * w.theta_increment

/-- Images of solutions: the centres of pressure and the steps are given in frames of feet, along and across in turn. -/
def solution (g : WalkMap) (x : List ℝ) : List ℝ := x.mapIdx fun i c => if i % 2 = 1 then g.sign * c else c

end WalkMap

/-- The foot `r'` is at the image of the place of `r`, in the image of its direction. -/
structure MovedFoot (g : WalkMap) (r r' : RigidBodyState ℝ) : Prop where
  position : ![r'.position 0, r'.position 1] = g.point ![r.position 0, r.position 1]
  level : r'.position 2 = r.position 2
  direction : r'.rpy 2 = g.heading (r.rpy 2)

/-- The point mass `c'` is at the image of the place of `c`, its velocity and acceleration are images. -/
structure MovedMass (g : WalkMap) (c c' : PointMassState ℝ) : Prop where
  position : ![c'.position 0, c'.position 1] = g.point ![c.position 0, c.position 1]
  height : c'.position 2 = c.position 2
  velocity : ![c'.velocity 0, c'.velocity 1] = g.vector ![c.velocity 0, c.velocity 1]
  acceleration : ![c'.acceleration 0, c'.acceleration 1] = g.vector ![c.acceleration 0, c.acceleration 1]

/-- The robot `m'` is the image of the robot `m`: in a mirror its left foot is the image of the right foot. -/
structure MovedModel (g : WalkMap) (m m' : Model) : Prop where
  params : m'.params = m.params
  stance : m'.state.stance_type = g.stanceType m.state.stance_type
  next : m'.state.next_stance_type = g.stanceType m.state.next_stance_type
  mass : MovedMass g m.state.com_state m'.state.com_state
  left : MovedFoot g (if g.mirror then m.state.feet.right else m.state.feet.left) m'.state.feet.left
  right : MovedFoot g (if g.mirror then m.state.feet.left else m.state.feet.right) m'.state.feet.right
  support : m'.current_support_position = g.point m.current_support_position

/-- The robot and the machine of one program are images of those of another one. -/
structure MovedWalk (g : WalkMap) (s s' : Program) : Prop where
  model : MovedModel g s.model s'.model
  machine : s'.fsm = g.machine s.fsm

end Humoto.Spec.Wpg
