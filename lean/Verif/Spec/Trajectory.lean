import Verif.Model.Basic
import Mathlib.Analysis.Calculus.Deriv.Basic

/-!
# Specification of trajectories
-/

namespace Humoto.Spec

/-- On the set `S` of times the value `v` is available and is the time derivative of the value `p`. -/
def IsRateOf (p v : ℝ → Res ℝ) (S : Set ℝ) : Prop :=
  ∃ f g : ℝ → ℝ, (∀ t ∈ S, p t = .ok (f t) ∧ v t = .ok (g t)) ∧ ∀ t ∈ S, HasDerivAt f (g t) t

end Humoto.Spec
