import Verif.Model.IkProgram
import Verif.Spec.IkProblem
import Verif.Spec.PepperIk
import Verif.Spec.Kkt
import Verif.Spec.QpoasesSolver

/-!
# What the programs of Pepper IK are expected to do
-/

namespace Humoto.Spec.Ik

open Humoto.Ik Humoto.Spec.Rbdl Humoto.Bridge
open scoped Matrix

variable {root : Root} {σ : Type}

/-- Length of a vector. -/
noncomputable def len3 (v : Fin 3 → ℝ) : ℝ := Real.sqrt (∑ i, v i ^ 2)

/-- The robot is close to the references: the sum of distances of the centres of mass to their references and of the size of the rotation error
is less than `tol`. -/
def CloseTo (r : Robot root) (q : MotionParameters) (tol : ℝ) : Prop :=
  ∃ base body R Rref e, r.getBaseCoM = .ok base ∧ r.getBodyCoM = .ok body ∧ r.getBaseOrientation = .ok R ∧
    DescribesRpy q.base_orientation_rpy Rref ∧ RotationError e R Rref ∧
    len3 (fun i => q.base_com_position i - base i) + len3 e + len3 (fun i => q.body_com_position i - body i) < tol

/-- No coordinate is changed by `tol` or more. -/
def SmallDisplacement (root : Root) (tol : ℝ) (x : ℕ → ℝ) : Prop := ∀ v < root.dof + 15, |x v| < tol

/-- The reason to stop after the displacement `x`, which has brought the robot to `r`. -/
def Stops (k : StopKind) (par : WbcParameters) (q : MotionParameters) (r : Robot root) (x : ℕ → ℝ) : Prop :=
  SmallDisplacement root par.joint_angle_error_tolerance x ∨ k = .displacementOrError ∧ CloseTo r q par.motion_parameters_tolerance

/-- A run: `n` displacements bring the robot to its last state, each of them is a good one in the state in which it is made. If `stopped`, the last one
is the only one after which there is a reason to stop; otherwise there is never a reason to stop. -/
inductive Run (good : Robot root → (ℕ → ℝ) → Prop) (stops : Robot root → (ℕ → ℝ) → Prop) : Robot root → ℕ → Robot root → Bool → Prop
  | start (r : Robot root) : Run good stops r 0 r false
  | stop {r : Robot root} {x : ℕ → ℝ} : good r x → stops (movedBy r x 1) x → Run good stops r 1 (movedBy r x 1) true
  | go {r r' : Robot root} {x : ℕ → ℝ} {n : ℕ} {stopped : Bool} : good r x → ¬ stops (movedBy r x 1) x →
      Run good stops (movedBy r x 1) n r' stopped → Run good stops r (n + 1) r' stopped

/-- A displacement which does what the tasks `ks0` ask for; among such displacements in `S` it is the best one with respect to `ks1`. -/
def BestStep (ks0 ks1 : List IkTask) (S : (ℕ → ℝ) → Prop) (r : Robot root) (w : Wbc) (x : ℕ → ℝ) : Prop :=
  ∃ L : Level (ProblemEnv root) ℝ, LevelMeans r w L ks1 ∧ BestDisplacement r w ks0 (leastSquares L.tasks) S x

/-- What is expected from a solver, when it gets a problem which was formed for the robot: a good displacement or, if `hopeless`, an exception. `Inv` are
the states of the solver. -/
def SolvesIk (B : IkSolver root σ) (Inv : SolverState σ → Prop) (r0 : Robot root) (levels : List (List IkTask))
    (good : Robot root → Wbc → (ℕ → ℝ) → Prop) (hopeless : Robot root → Wbc → Prop) : Prop :=
  ∀ (p p' : IkProblem root) (r : Robot root) (w : Wbc) (q : MotionParameters) (u : IkMemory) (sol : Solution ℝ) (s : SolverState σ),
    IkProblemAfter r0 levels p → SameIkRobot r0 r → (∀ l ∈ levels, ∀ k ∈ l, Applicable r (w.update root q) k) →
    p.form u.tasks u.vectors r (w.update root q) = .ok p' → sol.structure_ = Wbc.solutionStructure root → sol.x.length = root.dof + 15 → Inv s →
    (∃ sol' a s', (B u).solve sol p'.hierarchy .plain s = (.ok (sol', a), s') ∧ Inv s' ∧ sol'.structure_ = sol.structure_ ∧
      sol'.x.length = root.dof + 15 ∧ good r (w.update root q) (entries sol'.x)) ∨
    ∃ s', (B u).solve sol p'.hierarchy .plain s = (.error .thrown, s') ∧ Inv s' ∧ hopeless r (w.update root q)

/-- What is known about the decompositions of Eigen even if they are given a singular matrix: the sizes of their results. -/
def RightSizes (D : Decompositions ℝ) : Prop := ∀ M v, (D.lu M v).n = M.cols ∧ (D.qr M v).n = M.cols

/-- The coordinates of the robot are regular for the tasks: whenever the problem is formed for them, the rows of its first level are independent,
and the two levels determine the displacement. -/
def RegularAt (r0 : Robot root) (ks0 ks1 : List IkTask) (r : Robot root) (w : Wbc) : Prop :=
  ∀ (p p' : IkProblem root) (u : IkMemory) (old qp : KktProblem ℝ) (L0 L1 : Level (ProblemEnv root) ℝ),
    IkProblemAfter r0 [ks0, ks1] p → p.form u.tasks u.vectors r w = .ok p' → p'.hierarchy.levels = [L0, L1] →
    kktInitialize u.objective u.constraints old p'.hierarchy (root.dof + 15) = .ok qp →
    IndependentRows qp.equalities.A ∧
    ∀ d : ℕ → ℝ, (∀ k, k < qp.equalities.A.rows → ∑ j ∈ Finset.range qp.equalities.A.cols, qp.equalities.A.e k j * d j = 0) →
      (∀ ti ∈ L1.tasks, ∀ i, i < rows ti.task.ctr → lhs ti.task.ctr d i = 0) → ∀ j, j < root.dof + 15 → d j = 0

/-- States of the programs: the problem has been set up for the tasks, perhaps it was formed; the tasks make sense. -/
structure IkProgramReady (r0 : Robot root) (levels : List (List IkTask)) (Inv : SolverState σ → Prop) (s : IkProgram root σ) : Prop where
  robot : SameIkRobot r0 s.robot
  problem : IkProblemAfter r0 levels s.problem
  solver : Inv s.solver
  tasks : ∀ r q, SameIkRobot r0 r → ∀ l ∈ levels, ∀ k ∈ l, Applicable r (s.wbc.update root q) k

/-- The command is what brings the robot from the state `r` to the state `r'` in time `t`: it has the angles of the joints of `r'`, the mean velocity of the base
and velocities of wheels for it. It respects all limits. -/
def CommandFor (wheels : Mat3 ℝ) (t : ℝ) (r r' : Robot root) (c : RobotCommand ℝ) : Prop :=
  ∃ (p p' : Fin 3 → ℝ) (R R' : Mat3 ℝ) (v w : Fin 3 → ℝ), r.getBasePosition = .ok p ∧ r'.getBasePosition = .ok p' ∧
    r.getBaseOrientation = .ok R ∧ r'.getBaseOrientation = .ok R' ∧ MeanVelocity p p' R R' t v ∧
    w = wheels.mulVec (R'.transpose.mulVec v) ∧
    AnglesAllowed r'.constraints (fun i => .fin (r'.state.joint_angles i)) ∧ SlowEnough r'.constraints r.state.joint_angles r'.state.joint_angles t ∧
    WheelsAllowed r'.constraints (fun i => .fin (w i)) ∧
    c = ⟨fun i => .fin (r'.state.joint_angles i), fun i => .fin (w i), fun i => .fin (v i), .fin t⟩

/-- A motion of the robot for given references, with commands: each reference is approached until there is a reason to stop, after at most `max`
displacements. -/
inductive Controlled (good : MotionParameters → Robot root → (ℕ → ℝ) → Prop) (stops : MotionParameters → Robot root → (ℕ → ℝ) → Prop)
    (max : ℕ) (wheels : Mat3 ℝ) (t : ℝ) : Robot root → List MotionParameters → List (RobotCommand ℝ) → Robot root → Prop
  | nil (r : Robot root) : Controlled good stops max wheels t r [] [] r
  | cons {r r' r'' : Robot root} {q : MotionParameters} {qs : List MotionParameters} {c : RobotCommand ℝ} {cs : List (RobotCommand ℝ)} {n : ℕ} :
      Run (good q) (stops q) r n r' true → n ≤ max → CommandFor wheels t r r' c →
      Controlled good stops max wheels t r' qs cs r'' → Controlled good stops max wheels t r (q :: qs) (c :: cs) r''

/-- Why a reference is not approached: there is no reason to stop after the maximal number of displacements, the solver fails, or the limits are
violated at the end. -/
def CannotApproach (good : Robot root → (ℕ → ℝ) → Prop) (stops : Robot root → (ℕ → ℝ) → Prop) (hopeless : Robot root → Prop)
    (max : ℕ) (wheels : Mat3 ℝ) (t : ℝ) (r : Robot root) : Prop :=
  (∃ r', Run good stops r max r' false) ∨ (∃ n r', n < max ∧ Run good stops r n r' false ∧ hopeless r') ∨
    ∃ n r', n ≤ max ∧ Run good stops r n r' true ∧ ∀ c, ¬ CommandFor wheels t r r' c

/-- The angles of the joints are within the limits, up to the tolerance. -/
def JointsAllowed (r : Robot root) : Prop := AnglesAllowed r.constraints (fun i => .fin (r.state.joint_angles i))

end Humoto.Spec.Ik
