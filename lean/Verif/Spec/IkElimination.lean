import Verif.Spec.IkProgram

/-!
# What is expected from the method of elimination in the inverse kinematics
-/

namespace Humoto.Spec.Ik

open Humoto.Ik Humoto.Bridge

variable {root : Root}

/-- Tasks on single variables: a reference for the joints, variables which should not change. -/
def OnVariables : IkTask → Prop
  | .jointsReference .. | .zeroVariables .. | .zeroSelected .. | .fixArms | .fixHead => True
  | _ => False

/-- Tasks which ask for a motion of a link or of a centre of mass, in at least one direction. -/
def OnLinks (root : Root) : IkTask → Prop
  | .baseCoM .. => baseAxes root ≠ []
  | .bodyCoM _ _ f => flagAxes f ≠ []
  | .baseOrientation .. => baseTurns root ≠ []
  | .tagOrientation .. | .tagPose .. | .tagPose3Dof .. | .tagAngularVelocity .. | .tagCompleteVelocity .. => True
  | _ => False

/-- The tasks of the first level do not repeat or contradict each other in the given coordinates: whenever the problem is formed for them, the rows of its first
level are independent. -/
def IndependentAt (r0 : Robot root) (ks0 ks1 : List IkTask) (r : Robot root) (w : Wbc) : Prop :=
  ∀ (p p' : IkProblem root) (u : IkMemory) (old qp : KktProblem ℝ) (L0 L1 : Level (ProblemEnv root) ℝ),
    IkProblemAfter r0 [ks0, ks1] p → p.form u.tasks u.vectors r w = .ok p' → p'.hierarchy.levels = [L0, L1] →
    kktInitialize u.objective u.constraints old p'.hierarchy (root.dof + 15) = .ok qp → IndependentRows qp.equalities.A

/-- A displacement which does what the tasks `ks0` ask for; among all such displacements it is the best one with respect to `ks1` and a small penalty on the squared
length of the displacement. -/
def BestShortStep (f : ℝ) (ks0 ks1 : List IkTask) (r : Robot root) (w : Wbc) (x : ℕ → ℝ) : Prop :=
  ∃ L : Level (ProblemEnv root) ℝ, LevelMeans r w L ks1 ∧
    BestDisplacement r w ks0 (fun x => leastSquares L.tasks x + f * ∑ i ∈ Finset.range (root.dof + 15), x i ^ 2) (fun _ => True) x

end Humoto.Spec.Ik
