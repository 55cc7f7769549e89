import Verif.Spec.WpgStability

/-!
# When new supports enter the horizon
-/

namespace Humoto.Spec.Wpg

open Humoto.Wpg

/-- A transitional double support, with which the robot goes over to a new support, begins `t` milliseconds after the beginning of the walk:
the first one follows the first stance, the others follow single supports. There are none if the robot remains in its first double
support. -/
def TransitionBegins (p : FSMParams) (t : ℕ) : Prop :=
  ¬ (p.firstStance = .ds ∧ p.numSteps = 0) ∧ ∃ j ≤ p.numSteps, t = p.firstMs + j * (p.ssMs + p.tdsMs)

end Humoto.Spec.Wpg
