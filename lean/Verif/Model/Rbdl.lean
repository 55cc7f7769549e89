import Verif.Model.Rotary
import Mathlib.Algebra.BigOperators.Fin

/-!
# Kinematics, bridges/rbdl/interface/rbdl/model.h, spatial_transform.h, tag.h

RBDL itself is not a part of the repository. `RbdlModel` holds the members of `RigidBodyDynamics::Model` which are used by the bridge,
as they are after `UpdateKinematicsCustom`; `Xform` is `RigidBodyDynamics::Math::SpatialTransform` with the operations of RBDL
which are used by the bridge. Spatial vectors are pairs (rows 0–2: angular part, rows 3–5: linear part), `6 x n` matrices are
sequences of such columns. Indices are unbounded, conversions between `std::size_t` and `unsigned int` are not modelled.
-/

namespace Humoto

namespace Rbdl

open scoped Matrix

/-- A spatial vector. -/
structure Spatial (K : Type) where
  w : Fin 3 → K
  v : Fin 3 → K

/-- `SpatialTransform` of RBDL: `E` maps coordinates in the reference frame to coordinates in the frame of the body, `r` is the
position of the body in the reference frame. -/
structure Xform (K : Type) where
  E : Mat3 K
  r : Fin 3 → K

namespace Xform

variable {K : Type} [CommRing K]

/-- `apply` of RBDL. -/
def apply (X : Xform K) (s : Spatial K) : Spatial K := ⟨X.E *ᵥ s.w, X.E *ᵥ (s.v - cross X.r s.w)⟩

/-- A column of `toMatrix() * S` of RBDL. -/
def applyMatrix (X : Xform K) (s : Spatial K) : Spatial K :=
  ⟨X.E *ᵥ s.w, -((X.E * (CrossProductMatrix.mk X.r).eval) *ᵥ s.w) + X.E *ᵥ s.v⟩

/-- `inverse` of RBDL. -/
def inverse (X : Xform K) : Xform K := ⟨X.Eᵀ, -(X.E *ᵥ X.r)⟩

/-- `operator*` of RBDL. -/
def mul (X Y : Xform K) : Xform K := ⟨X.E * Y.E, Y.r + Y.Eᵀ *ᵥ X.r⟩

end Xform

/-- A joint: its type, number of degrees of freedom and motion subspace. `one`: `mDoFCount == 1`, `S[i]`; `three`:
`mDoFCount == 3`, `multdof3_S[i]`; `custom`: `JointTypeCustom` with the data in `mCustomJoints`; `other`: other values of
`mDoFCount`. -/
inductive Joint (K : Type)
  | one (S : Spatial K)
  | three (S : Fin 3 → Spatial K)
  | custom (n : ℕ) (S : ℕ → Spatial K)
  | other (n : ℕ)

/-- A body of RBDL. -/
structure Body (K : Type) where
  mMass : K
  mCenterOfMass : Fin 3 → K

/-- A fixed body of RBDL: it is attached to a movable one. -/
structure FixedBody (K : Type) where
  mMovableParent : ℕ
  mParentTransform : Xform K

/-- `RigidBodyDynamics::Model`. `size` is the length of `mBodies`, `mJoints`, `X_base`, `lambda`. -/
structure RbdlModel (K : Type) where
  size : ℕ
  lambda : ℕ → ℕ
  mJoints : ℕ → Joint K
  q_index : ℕ → ℕ
  X_base : ℕ → Xform K
  mBodies : ℕ → Body K
  fixed_body_discriminator : ℕ
  mFixedBodies : List (FixedBody K)
  q_size : ℕ
  GetBodyId : String → ℕ

/-- `std::numeric_limits<unsigned int>::max()`, which `GetBodyId` returns for unknown names. -/
def maxUnsigned : ℕ := 2 ^ 32 - 1

/-- `SpatialType::Type`, spatial_transform.h:28-34. -/
inductive SpatialType
  | undefined
  | complete
  | translation
  | rotation
  deriving DecidableEq

/-- `getNumberOfElements`, spatial_transform.h:45-57. -/
def SpatialType.getNumberOfElements : SpatialType → Res ℕ
  | .complete => .ok 6
  | .rotation => .ok 3
  | .translation => .ok 3
  | .undefined => .error .thrown

/-- `JointData`, model.h:650-654. Members are not initialised by the constructor: `dof_number` is `none` before `compute`. -/
structure JointData (K : Type) where
  axisCols : ℕ
  axis : ℕ → Spatial K
  dof_number : Option ℕ

variable {K : Type} [Field K]

/-- `JointData::compute`, model.h:664-693, for the joint `j` and `X_base` of its body. -/
def JointData.compute (d : JointData K) (X : Xform K) (j : Joint K) : JointData K :=
  match j with
  | .one S => ⟨1, fun _ => X.inverse.apply S, some 1⟩
  | .three S => ⟨3, fun k => X.inverse.applyMatrix (if h : k < 3 then S ⟨k, h⟩ else S 0), some 3⟩
  | .custom n S => ⟨n, fun k => X.inverse.applyMatrix (S k), some n⟩
  | .other n => ⟨d.axisCols, d.axis, some n⟩

/-- `humoto::rbdl::Model`, model.h:37-42, 697. -/
structure Model (K : Type) where
  rbdl_model : RbdlModel K
  total_mass : K
  joint_data : List (JointData K)

namespace Model

/-- `load`, model.h:99-120. `loaded` is the outcome of `URDFReadFromFile`; `junk` is the content of new `JointData`. -/
def load (m : Model K) (junk : ℕ → Spatial K) (loaded : Option (RbdlModel K)) : Res (Model K) :=
  match loaded with
  | none => .error .thrown
  | some tree => .ok
      { rbdl_model := tree
        total_mass := (List.range (tree.size - 1)).foldl (fun a i => a + (tree.mBodies (i + 1)).mMass) 0
        joint_data := (List.range tree.size).map fun i => m.joint_data.getD i ⟨0, junk, none⟩ }

/-- `update`, model.h:128-135. `tree` is the model of RBDL after `UpdateKinematicsCustom`. -/
def update (m : Model K) (tree : RbdlModel K) : Model K :=
  { m with rbdl_model := tree, joint_data := m.joint_data.mapIdx fun i d => d.compute (tree.X_base i) (tree.mJoints i) }

/-- `getDOFNumber`, model.h:143-146. -/
def getDOFNumber (m : Model K) : ℕ := m.rbdl_model.q_size

/-- `isLinkFixed`, model.h:719-731. -/
def isLinkFixed (m : Model K) (link_id : ℕ) : Bool :=
  decide (m.rbdl_model.fixed_body_discriminator ≤ link_id) && decide (link_id < maxUnsigned) &&
    decide (link_id - m.rbdl_model.fixed_body_discriminator < m.rbdl_model.mFixedBodies.length)

/-- Access to `X_base[i]`. -/
def getXBase (m : Model K) (i : ℕ) : Res (Xform K) := do
  require (i < m.rbdl_model.size)
  pure (m.rbdl_model.X_base i)

/-- Access to `mBodies[i]`. -/
def getBody (m : Model K) (i : ℕ) : Res (Body K) := do
  require (i < m.rbdl_model.size)
  pure (m.rbdl_model.mBodies i)

/-- Access to `mFixedBodies[i]`. -/
def getFixedBody (m : Model K) (i : ℕ) : Res (FixedBody K) :=
  match m.rbdl_model.mFixedBodies[i]? with
  | none => .error .ub
  | some b => .ok b

/-- `getLinkId`, model.h:742-745. -/
def getLinkId (m : Model K) (name : String) : ℕ := m.rbdl_model.GetBodyId name

/-- `getLinkTransform`, model.h:851-864. -/
def getLinkTransform (m : Model K) (id : ℕ) : Res (Xform K) :=
  if m.isLinkFixed id = true then do
    let b ← m.getFixedBody (id - m.rbdl_model.fixed_body_discriminator)
    let X ← m.getXBase b.mMovableParent
    pure (b.mParentTransform.mul X)
  else m.getXBase id

/-- `expressInRootFrame`, model.h:759-785. -/
def expressInRootFrame (m : Model K) (link_id : ℕ) (p : Fin 3 → K) : Res (Fin 3 → K) :=
  if m.isLinkFixed link_id = true then do
    let b ← m.getFixedBody (link_id - m.rbdl_model.fixed_body_discriminator)
    let X ← m.getXBase b.mMovableParent
    pure (X.r + X.Eᵀ *ᵥ (b.mParentTransform.r + b.mParentTransform.Eᵀ *ᵥ p))
  else do
    let X ← m.getXBase link_id
    pure (X.r + X.Eᵀ *ᵥ p)

/-- `getPointTagPosition`, model.h:796-802, and `getTagPosition(TagPointPtr)`, 289-292. -/
def getPointTagPosition (m : Model K) (id : ℕ) (p : Fin 3 → K) : Res (Fin 3 → K) := do
  let X ← m.getLinkTransform id
  pure (X.Eᵀ *ᵥ p + X.r)

/-- `getTagPosition(TagLinkPtr)`, model.h:276-279. -/
def getLinkPosition (m : Model K) (id : ℕ) : Res (Fin 3 → K) := do
  let X ← m.getLinkTransform id
  pure X.r

/-- `getTagOrientation`, model.h:331-334 (links), 344-347 (points). -/
def getTagOrientation (m : Model K) (id : ℕ) : Res (Mat3 K) := do
  let X ← m.getLinkTransform id
  pure X.Eᵀ

/-- A part of the sum of `getTagPosition(TagPartialCoMPtr)` and `getTagPosition(TagCoMPtr)`. -/
def addBodyCoM (m : Model K) (com : Fin 3 → K) (id : ℕ) : Res (Fin 3 → K) := do
  let b ← m.getBody id
  let p ← m.getPointTagPosition id b.mCenterOfMass
  pure (com + b.mMass • p)

/-- `TagPartialCoM`, tag.h:85-99. -/
structure TagPartialCoM (K : Type) where
  link_ids : List ℕ
  mass : K

/-- `getCoMTag(link_string_ids)`, model.h:205-221. -/
def getCoMTag (m : Model K) (names : List String) : Res (TagPartialCoM K) := do
  let mass ← names.foldlM (fun (mass : K) name => do
    let b ← m.getBody (m.getLinkId name)
    pure (mass + b.mMass)) 0
  pure ⟨names.map m.getLinkId, mass⟩

/-- `getLinkCoMTag`, model.h:189-195. -/
def getLinkCoMTag (m : Model K) (name : String) : Res (ℕ × (Fin 3 → K)) := do
  let b ← m.getBody (m.getLinkId name)
  pure (m.getLinkId name, b.mCenterOfMass)

/-- `getTagPosition(TagPartialCoMPtr)`, model.h:244-266. -/
def getPartialCoM (m : Model K) (tag : TagPartialCoM K) : Res (Fin 3 → K) := do
  let com ← tag.link_ids.foldlM m.addBodyCoM 0
  pure fun i => com i / tag.mass

/-- `getTagPosition(TagCoMPtr)`, model.h:303-319. -/
def getCoM (m : Model K) : Res (Fin 3 → K) := do
  let com ← ((List.range (m.rbdl_model.size - 1)).map (· + 1)).foldlM m.addBodyCoM 0
  pure fun i => com i / m.total_mass

/-- `getTagMass(TagLinkPtr)`, model.h:427-430. -/
def getLinkMass (m : Model K) (id : ℕ) : Res K := do
  let b ← m.getBody id
  pure b.mMass

end Model

/-- `SpatialTransformWithoutRotation::apply`, spatial_transform.h:92-107, for one column; the linear part is also computed by
`applyGetTranslationPart`, 120-131. -/
def translate (p : Fin 3 → K) (s : Spatial K) : Spatial K :=
  ⟨s.w, ![p 2 * s.w 1 - p 1 * s.w 2 + s.v 0, p 0 * s.w 2 - p 2 * s.w 0 + s.v 1, p 1 * s.w 0 - p 0 * s.w 1 + s.v 2]⟩

/-- An element of a column of length 3. -/
def row3 (x : Fin 3 → K) (i : ℕ) : K := if h : i < 3 then x ⟨i, h⟩ else 0

/-- A row of a column which is written by `applySelective`, spatial_transform.h:149-168. -/
def selectRow (ty : SpatialType) (s : Spatial K) (i : ℕ) : K :=
  match ty with
  | .complete => if i < 3 then row3 s.w i else row3 s.v (i - 3)
  | .translation => row3 s.v i
  | .rotation => row3 s.w i
  | .undefined => 0

namespace Model

/-- `applySelective(jacobian.middleCols(q, dof), axis)`, model.h:834-837, spatial_transform.h:149-168. -/
def writeColumns (ty : SpatialType) (p : Fin 3 → K) (J : Mat K) (q dof : ℕ) (d : JointData K) : Res (Mat K) := do
  require (q + dof ≤ J.cols)
  match ty with
  | .undefined => .error .thrown
  | .rotation => require (dof = d.axisCols)
  | .complete => require (dof ≤ d.axisCols)
  | .translation => require (dof ≤ d.axisCols)
  pure ⟨J.rows, J.cols, fun i c => if q ≤ c ∧ c < q + dof then selectRow ty (translate p (d.axis (c - q))) i else J.e i c⟩

/-- The loop in `getTagJacobian`, model.h:832-840. The number of iterations is bounded by the first argument: the loop does not
end if `lambda` is not the array of parents of a tree, in this case the model reports undefined behaviour. -/
def jacobianLoop (m : Model K) (ty : SpatialType) (p : Fin 3 → K) : ℕ → ℕ → Mat K → Res (Mat K)
  | 0, _, _ => .error .ub
  | fuel + 1, joint_id, J =>
    if joint_id = 0 then .ok J
    else
      match m.joint_data[joint_id]? with
      | none => .error .ub
      | some d =>
        match d.dof_number with
        | none => .error .ub
        | some dof => do
          let J ← writeColumns ty p J (m.rbdl_model.q_index joint_id) dof d
          m.jacobianLoop ty p fuel (m.rbdl_model.lambda joint_id) J

/-- The first lines of `getTagJacobian`, model.h:820-826. -/
def movableId (m : Model K) (link_id : ℕ) : Res ℕ :=
  if m.isLinkFixed link_id = true then do
    let b ← m.getFixedBody (link_id - m.rbdl_model.fixed_body_discriminator)
    pure b.mMovableParent
  else pure link_id

/-- `getTagJacobian(jacobian, link_id, tag_position)`, model.h:815-841; also `getTagJacobian(jacobian, TagLinkPtr)` with the
position zero, 475-480, and `getTagJacobian(jacobian, TagPointPtr)`, 491-496. -/
def getTagJacobian (m : Model K) (ty : SpatialType) (link_id : ℕ) (tag_position : Fin 3 → K) : Res (Mat K) := do
  let joint_id ← m.movableId link_id
  let rows ← ty.getNumberOfElements
  let p ← m.expressInRootFrame link_id tag_position
  m.jacobianLoop ty p (m.rbdl_model.size + 1) joint_id ⟨rows, m.getDOFNumber, fun _ _ => 0⟩

/-- An iteration of the loops in `getTagJacobian(jacobian, TagPartialCoMPtr)`, model.h:447-461, and
`getTagJacobian(jacobian, TagCoMPtr)`, 512-524: assignment in the first iteration, addition in the others. -/
def addBodyJacobian (m : Model K) (J : Option (Mat K)) (id : ℕ) : Res (Option (Mat K)) := do
  let b ← m.getBody id
  let Ji ← m.getTagJacobian .translation id b.mCenterOfMass
  match J with
  | none => pure (some ⟨Ji.rows, Ji.cols, fun i c => Ji.e i c * b.mMass⟩)
  | some J => do
    require (J.rows = Ji.rows ∧ J.cols = Ji.cols)
    pure (some ⟨J.rows, J.cols, fun i c => J.e i c + Ji.e i c * b.mMass⟩)

/-- `getTagJacobian(jacobian, TagPartialCoMPtr)`, model.h:440-464. `J` is the matrix which is passed to the function: it is not
initialised if there are no bodies. -/
def getPartialCoMJacobian (m : Model K) (J : Mat K) (tag : TagPartialCoM K) : Res (Mat K) := do
  let J' ← tag.link_ids.foldlM m.addBodyJacobian none
  let J := J'.getD J
  pure ⟨J.rows, J.cols, fun i c => J.e i c / tag.mass⟩

/-- `getTagJacobian(jacobian, TagCoMPtr)`, model.h:506-527. -/
def getCoMJacobian (m : Model K) (J : Mat K) : Res (Mat K) := do
  let J' ← ((List.range (m.rbdl_model.size - 1)).map (· + 1)).foldlM m.addBodyJacobian none
  let J := J'.getD J
  pure ⟨J.rows, J.cols, fun i c => J.e i c / m.total_mass⟩

end Model

/-- `RigidBodyPose` as returned by `getTagPose`, model.h:358-369 (links, position zero), 379-390 (points). `ea` is `eulerAngles` of
Eigen. -/
noncomputable def Model.getTagPose (ea : Mat3 ℝ → Fin 3 → Fin 3 → Fin 3 → (Fin 3 → ℝ)) (m : Model ℝ) (id : ℕ) (p : Fin 3 → ℝ) :
    Res ((Fin 3 → ℝ) × (Fin 3 → ℝ)) := do
  let X ← m.getLinkTransform id
  let rpy ← convertMatrixToEulerAngles ea X.Eᵀ .rpy
  pure (X.Eᵀ *ᵥ p + X.r, rpy)

end Rbdl

end Humoto
