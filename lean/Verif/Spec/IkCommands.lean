import Verif.Spec.PepperIk
import Verif.Spec.Rotary

/-!
# What commands of Pepper are expected to mean: a model which is moved by them follows the robot
-/

namespace Humoto.Spec.Ik

open Humoto.Ik

/-- The root is at the position `p 0`, `p 1` with the yaw angle `p 2`, the joints have the angles `q`. -/
def pose (p : Fin 3 → ℝ) (q : Fin jointsDof → ℝ) : Coords ℝ .planar := ⟨fun i => .fin (p i), fun i => .fin (q i)⟩

/-- The base is the root of the robot (its link `base_footprint`): it is above the position of the root, and is turned about the
vertical axis by the yaw angle. -/
structure BaseIsRoot (k : Kinematics ℝ .planar) : Prop where
  position : ∀ p q, ∃ z, k.basePosition (pose p q) = fun i => .fin ((![p 0, p 1, z] : Fin 3 → ℝ) i)
  orientation : ∀ p q, ∃ R : Matrix (Fin 3) (Fin 3) ℝ, k.baseOrientation (pose p q) = R.map .fin ∧ TurnsAbout 2 (p 2) R

/-- Where the robot goes, and in what time. -/
structure Leg where
  p : Fin 3 → ℝ
  q : Fin jointsDof → ℝ
  t : ℝ

/-- The last of the legs (they are listed from the last to the first), or the beginning. -/
def latest (s : Leg) : List Leg → Leg
  | [] => s
  | a :: _ => a

/-- Sum of the cubes of the turns, divided by six. -/
noncomputable def cubesOfTurns (s : Leg) : List Leg → ℝ
  | [] => 0
  | a :: l => |a.p 2 - (latest s l).p 2| ^ 3 / 6 + cubesOfTurns s l

/-- The robot `m0` goes through a sequence of states, each time a command is made (in a variable with arbitrary contents), and
another model, at first `f0`, is corrected with this command for the whole interval of the command, which returns `r`. -/
inductive Driven (m0 f0 : IkModel ℝ .planar) : List Leg → IkModel ℝ .planar → IkModel ℝ .planar → Prop
  | start : Driven m0 f0 [] m0 f0
  | step {l : List Leg} {m f : IkModel ℝ .planar} {memory command : RobotCommand ℝ} (a : Leg) : Driven m0 f0 l m f → 0 < a.t →
      (m.saveCurrentState.updateState (pose a.p a.q)).getRobotCommand memory (.fin a.t) = (command, .ok ()) →
      Driven m0 f0 (a :: l) (m.saveCurrentState.updateState (pose a.p a.q)) (f.correct command (.fin a.t)).1

end Humoto.Spec.Ik
