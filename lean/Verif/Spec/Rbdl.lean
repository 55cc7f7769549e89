import Verif.Model.Rbdl
import Verif.Spec.Rotary

/-!
# Specification for kinematics

`KinematicTree` and `Moves` are the contract of RBDL: what `URDFReadFromFile` builds and what `UpdateKinematicsCustom` computes
while the robot moves.
-/

namespace Humoto.Spec.Rbdl

open Humoto.Rbdl
open scoped Matrix

variable {K : Type}

/-- Number of degrees of freedom of a joint. -/
def dof : Joint K → ℕ
  | .one _ => 1
  | .three _ => 3
  | .custom n _ => n
  | .other n => n

/-- Motion of a body relative to its parent, in the frame of the body, when only the given degree of freedom of its joint moves
with the unit velocity. -/
def axis [Zero K] : Joint K → ℕ → Spatial K
  | .one S, _ => S
  | .three S, k => if h : k < 3 then S ⟨k, h⟩ else S 0
  | .custom _ S, k => S k
  | .other _, _ => ⟨0, 0⟩

/-- A tree of bodies: parents come before their children; joints are of the kinds which RBDL creates and have their own
coordinates; fixed bodies are attached to existing bodies; identifiers of fixed bodies are larger than those of the others. -/
structure KinematicTree (T : RbdlModel K) : Prop where
  parent : ∀ i, i ≠ 0 → i < T.size → T.lambda i < i
  joint : ∀ i, i ≠ 0 → i < T.size → ∀ n, T.mJoints i ≠ .other n
  coordinates : ∀ i, i ≠ 0 → i < T.size → T.q_index i + dof (T.mJoints i) ≤ T.q_size
  separate : ∀ i j, i ≠ 0 → j ≠ 0 → i < T.size → j < T.size → i ≠ j → ∀ k < dof (T.mJoints i), ∀ l < dof (T.mJoints j),
    T.q_index i + k ≠ T.q_index j + l
  fixed : ∀ b ∈ T.mFixedBodies, b.mMovableParent < T.size
  ids : T.size ≤ T.fixed_body_discriminator ∧ T.fixed_body_discriminator + T.mFixedBodies.length ≤ maxUnsigned

/-- The link exists. -/
def IsLink (T : RbdlModel K) (id : ℕ) : Prop :=
  id < T.size ∨ ∃ k < T.mFixedBodies.length, id = T.fixed_body_discriminator + k

/-- Angular velocity of a body relative to its parent, in the frame of the body, for velocities `dq` of the coordinates. -/
def jointAngular (T : RbdlModel ℝ) (dq : ℕ → ℝ) (i : ℕ) : Fin 3 → ℝ :=
  ∑ k ∈ Finset.range (dof (T.mJoints i)), dq (T.q_index i + k) • (axis (T.mJoints i) k).w

/-- Linear velocity of a body relative to its parent, in the frame of the body. -/
def jointLinear (T : RbdlModel ℝ) (dq : ℕ → ℝ) (i : ℕ) : Fin 3 → ℝ :=
  ∑ k ∈ Finset.range (dof (T.mJoints i)), dq (T.q_index i + k) • (axis (T.mJoints i) k).v

/-- Two trees are the same robot: only the poses of bodies and directions of axes differ. -/
def SameRobot (T T' : RbdlModel K) : Prop :=
  T'.size = T.size ∧ T'.lambda = T.lambda ∧ T'.fixed_body_discriminator = T.fixed_body_discriminator ∧
  T'.mFixedBodies = T.mFixedBodies ∧ T'.mBodies = T.mBodies

/-- `X s` is the position and the orientation of a body in its parent at the time `s`. The joint moves at the time `t` with the
angular velocity `w` and the linear velocity `v`, both in the frame of the body. -/
def JointMoves (X : ℝ → Xform ℝ) (w v : Fin 3 → ℝ) (t : ℝ) : Prop :=
  IsRotation (X t).Eᵀ ∧
  (∃ R', MatDeriv (fun s => (X s).Eᵀ) R' t ∧ IsBodyAngularVelocity w (X t).Eᵀ R') ∧
  ∀ a, HasDerivAt (fun s => (X s).r a) (((X t).Eᵀ *ᵥ v) a) t

/-- The robot moves and the data of RBDL follow it: `T s` are the data at the time `s`. At the time `t` coordinates change with the
velocities `dq`. The pose of each body follows from the pose of its parent and the pose of the body in the parent, which moves as
its joint. -/
structure Moves (T : ℝ → RbdlModel ℝ) (t : ℝ) (dq : ℕ → ℝ) : Prop where
  same : ∀ s, SameRobot (T t) (T s)
  root : ∀ s, (T s).X_base 0 = ⟨1, 0⟩
  body : ∀ i, i ≠ 0 → i < (T t).size → ∃ X : ℝ → Xform ℝ,
    (∀ s, ((T s).X_base i).Eᵀ = ((T s).X_base ((T t).lambda i)).Eᵀ * (X s).Eᵀ ∧
      ((T s).X_base i).r = ((T s).X_base ((T t).lambda i)).r + ((T s).X_base ((T t).lambda i)).Eᵀ *ᵥ (X s).r) ∧
    JointMoves X (jointAngular (T t) dq i) (jointLinear (T t) dq i) t

/-- Product of rows of a matrix and a vector of velocities. -/
def rate (J : Mat ℝ) (dq : ℕ → ℝ) (row : ℕ) : ℝ := ∑ c ∈ Finset.range J.cols, J.e row c * dq c

/-- The bridge after an update: the data of the joints are those of the current state, see `Model.load` and `Model.update`. -/
def Updated {K : Type} [Field K] (m : Model K) (T : RbdlModel K) : Prop := ∃ m0 : Model K, m0.joint_data.length = T.size ∧ m = m0.update T

end Humoto.Spec.Rbdl
