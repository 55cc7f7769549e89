import Verif.Model.WpgModel
import Verif.Spec.Stance

/-!
# What the walking pattern generator is expected to do: parameters and the model
-/

namespace Humoto.Spec.Wpg

open Humoto.Wpg

/-- The stance which determines the support: the next one during a transition. -/
def standing (type next : StanceType) : StanceType := if type = .tds then next else type

/-- The position of the support on the ground: the supporting foot or the middle between the feet. -/
def IsSupportPosition (left right : Fin 3 → ℝ) (t : StanceType) (p : Fin 2 → ℝ) : Prop :=
  (t = .lss → p 0 = left 0 ∧ p 1 = left 1) ∧
  (t = .rss → p 0 = right 0 ∧ p 1 = right 1) ∧
  (t = .ds → 2 * p 0 = left 0 + right 0 ∧ 2 * p 1 = left 1 + right 1)

/-- The stances on one foot or on two feet, i.e. not a transition. -/
def IsSupport (t : StanceType) : Prop := t = .lss ∨ t = .rss ∨ t = .ds

instance (t : StanceType) : Decidable (IsSupport t) := by unfold IsSupport; infer_instance

/-- The given feet after the stance changes from `prev` to `next`: a supporting foot is where the new state says it is, and so is
the foot which lands; other feet keep their states. -/
structure FeetUpdated (prev next : StanceType) (old given result : Feet) : Prop where
  left : next = .lss ∨ next = .ds ∨ (next = .tds ∧ prev = .rss) → result.left = given.left
  right : next = .rss ∨ next = .ds ∨ (next = .tds ∧ prev = .lss) → result.right = given.right
  leftKept : next = .rss ∨ (next = .tds ∧ prev ≠ .rss) → result.left = old.left
  rightKept : next = .lss ∨ (next = .tds ∧ prev ≠ .lss) → result.right = old.right

/-- The state describes the stance of the machine. -/
def Describes (s : ModelState) (f : FSM) : Prop :=
  s.stance_type = f.cur.type ∧ ∃ n, f.getNextStance = .ok n ∧ s.next_stance_type = n.type

end Humoto.Spec.Wpg
