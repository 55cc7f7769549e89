import Verif.Model.ActiveSet
import Verif.Model.Gram

/-!
# Constraints (core/include/humoto/constraints_base.h, constraints_mixins.h, constraints.h)

The 20 constraint classes are combinations of a body mixin (`A`, `AS`, `I`, `GI`) and a bounds mixin (`B0`, `B`, `L`,
`U`, `LU`). The C++ classes hold only the members of their mixins; the model keeps one record with all members and
ignores those which the class does not have.
-/

namespace Humoto

/-- Body mixins, constraints_mixins.h:425-1015. -/
inductive BodyKind
  | a | as | i | gi
  deriving DecidableEq, Repr

/-- Bounds mixins, constraints_mixins.h:25-410. -/
inductive BoundKind
  | b0 | b | l | u | lu
  deriving DecidableEq, Repr

/-- `ConstraintType::Type` without `UNDEFINED`, constraints_base.h:19-46. No class returns `UNDEFINED` as its type. -/
inductive CtrType
  | ilu | il | iu | ib | ib0
  | gilu | gil | giu | gib | gib0
  | alu | al | au | ab | ab0
  | aslu | asl | asu | asb | asb0
  deriving DecidableEq, Repr

namespace CtrType

/-- `ConstraintType::isEquality`, constraints_base.h:48-66. -/
def isEquality : CtrType → Bool
  | ib | ib0 | gib | gib0 | ab | ab0 | asb | asb0 => true
  | _ => false

/-- `ConstraintType::isSimple`, constraints_base.h:68-88. -/
def isSimple : CtrType → Bool
  | ilu | il | iu | ib | ib0 | gilu | gil | giu | gib | gib0 => true
  | _ => false

/-- `ConstraintType::isTwoSidedInequality`, constraints_base.h:91-105. -/
def isTwoSided : CtrType → Bool
  | ilu | gilu | alu | aslu => true
  | _ => false

/-- Body mixin of a class, from the `HUMOTO_PARENT_CLASS_SHORTHAND` definitions in constraints.h. -/
def body : CtrType → BodyKind
  | ilu | il | iu | ib | ib0 => .i
  | gilu | gil | giu | gib | gib0 => .gi
  | alu | al | au | ab | ab0 => .a
  | aslu | asl | asu | asb | asb0 => .as

/-- Bounds mixin of a class, from the `HUMOTO_PARENT_CLASS_SHORTHAND` definitions in constraints.h. -/
def bounds : CtrType → BoundKind
  | ilu | gilu | alu | aslu => .lu
  | il | gil | al | asl => .l
  | iu | giu | au | asu => .u
  | ib | gib | ab | asb => .b
  | ib0 | gib0 | ab0 | asb0 => .b0

/-- Classes which inherit from `CopySimpleToILUMixin`: the five `I*` classes, constraints.h:843-1031. The `GI*` classes
(constraints.h:567-781) do not, although `isSimple` holds for them. -/
def hasILUCopy : CtrType → Bool
  | ilu | il | iu | ib | ib0 => true
  | _ => false

end CtrType

/-- Members of the mixins: `A_`, `offset_` (constraints_mixins.h:441, 583-584), `I_` (746), `I_gains_` (894), `b_` (118),
`lb_` (210), `ub_` (288). -/
structure CtrData (K : Type) where
  A : Mat K
  offset : ℤ
  idx : Vec ℕ
  gains : Vec K
  b : Vec K
  lb : Vec K
  ub : Vec K

/-- A constraints object: class, `number_of_variables_` (constraints_base.h:120) and data members. -/
structure Ctr (K : Type) where
  ctype : CtrType
  nvars : ℕ
  data : CtrData K

/-- `humoto::g_infinity`, humoto_helpers.h. -/
def gInf (K : Type) [Field K] : K := 10 ^ 20

namespace Ctr

variable {K : Type}

/-- `getNumberOfConstraints`, constraints_mixins.h:552-556, 719-723, 862-866. -/
def numRows (c : Ctr K) : ℕ :=
  match c.ctype.body with
  | .a | .as => c.data.A.rows
  | .i | .gi => c.data.idx.n

/-- Comparison of the sizes of the body and of the bounds, first `HUMOTO_ASSERT` of the `checkConsistency` functions in
constraints.h:56-1055. -/
def boundSizesMatch (c : Ctr K) : Bool :=
  match c.ctype.bounds with
  | .b0 => true
  | .b => c.numRows = c.data.b.n
  | .l => c.numRows = c.data.lb.n
  | .u => c.numRows = c.data.ub.n
  | .lu => c.numRows = c.data.lb.n && c.numRows = c.data.ub.n

/-- Second `HUMOTO_ASSERT` of the `checkConsistency` functions in constraints.h: number of columns (`A*`), columns and
offset (`AS*`, the sum is cast to `std::size_t`, a negative sum becomes huge and is rejected), gains (`GI*`), nothing
(`I*`). Indices are not checked. -/
def bodyMatches (c : Ctr K) : Bool :=
  match c.ctype.body with
  | .a => 0 < c.data.A.cols && c.data.A.cols = c.nvars
  | .as => 0 < c.data.A.cols && (0 ≤ (c.data.A.cols : ℤ) + c.data.offset &&
      (c.data.A.cols : ℤ) + c.data.offset ≤ (c.nvars : ℤ))
  | .i => true
  | .gi => c.data.idx.n = c.data.gains.n

/-- `checkConsistency`, constraints.h:56-64, 102, 146, 192, 253, 318, 366, 412, 460, 529, 595, 643, 689, 745, 822, 870,
913, 956, 999, 1055. -/
def checkConsistency (c : Ctr K) : Res Unit := do
  assertThat (c.boundSizesMatch = true)
  assertThat (c.bodyMatches = true)

/-- `getProduct`, constraints_mixins.h:564-568 (A), 728-732 (AS), 873-877 (I), 1010-1014 (GI). -/
def getProduct [Field K] (c : Ctr K) (i : ℕ) (x : Vec K) : Res K :=
  match c.ctype.body with
  | .a => do
    require (i < c.data.A.rows ∧ c.data.A.cols = x.n)
    pure (∑ j ∈ Finset.range c.data.A.cols, c.data.A.e i j * x.e j)
  | .as => do
    require (i < c.data.A.rows ∧ 0 ≤ c.data.offset ∧ c.data.offset + (c.data.A.cols : ℤ) ≤ (x.n : ℤ))
    pure (∑ j ∈ Finset.range c.data.A.cols, c.data.A.e i j * x.e (c.data.offset.toNat + j))
  | .i => do
    let k ← c.data.idx.get i
    x.get k
  | .gi => do
    let g ← c.data.gains.get i
    let k ← c.data.idx.get i
    let v ← x.get k
    pure (g * v)

/-! ### Copying of the body and of the bounds -/

/-- Sign used by `copyBodyTo` (`false`) and `copyNegativeBodyTo` (`true`). -/
def signed [Neg K] (neg : Bool) (x : K) : K := if neg then -x else x

/-- `copyBodyTo` / `copyNegativeBodyTo` of `BodyAMixin`, constraints_mixins.h:530-546. -/
def copyBodyA [Neg K] (c : Ctr K) (neg : Bool) (A : Mat K) (l : Location) : Res (Mat K) := do
  assertThat (c.data.A.cols = A.cols)
  A.setBlock l.offset 0 l.length c.data.A.cols
    ⟨c.data.A.rows, c.data.A.cols, fun i j => signed neg (c.data.A.e i j)⟩

/-- `copyBodyTo` / `copyNegativeBodyTo` of `BodyASMixin`, constraints_mixins.h:689-717. The comma initialiser needs
non-negative sizes, `location.length_` rows in `A_` and columns which add up. -/
def copyBodyAS [Zero K] [Neg K] (c : Ctr K) (neg : Bool) (A : Mat K) (l : Location) : Res (Mat K) := do
  assertThat (c.nvars = A.cols ∧ c.data.offset + (c.data.A.cols : ℤ) ≤ (A.cols : ℤ))
  require (0 ≤ c.data.offset ∧ l.offset + l.length ≤ A.rows ∧ c.data.A.rows = l.length)
  let off := c.data.offset.toNat
  pure ⟨A.rows, A.cols, fun i j =>
    if l.offset ≤ i ∧ i < l.offset + l.length then
      if j < off then 0
      else if j < off + c.data.A.cols then signed neg (c.data.A.e (i - l.offset) (j - off))
      else 0
    else A.e i j⟩

/-- `copyBodyTo` / `copyNegativeBodyTo` of `BodyIMixin`, constraints_mixins.h:814-845. -/
def copyBodyI [Zero K] [One K] [Neg K] (c : Ctr K) (neg : Bool) (A : Mat K) (l : Location) : Res (Mat K) := do
  assertThat (A.cols = c.nvars)
  assertThat (c.data.idx.n = l.length)
  let A0 ← A.setBlock l.offset 0 l.length c.nvars (Mat.const l.length c.nvars 0)
  forRange l.length A0 fun A i => do
    let k ← c.data.idx.get i
    A.set (l.offset + i) k (signed neg 1)

/-- `copyBodyTo` / `copyNegativeBodyTo` of `BodyGIMixin`, constraints_mixins.h:972-1006. -/
def copyBodyGI [Zero K] [Neg K] (c : Ctr K) (neg : Bool) (A : Mat K) (l : Location) : Res (Mat K) := do
  assertThat (A.cols = c.nvars)
  assertThat (c.data.idx.n = l.length)
  let A0 ← A.setBlock l.offset 0 l.length c.nvars (Mat.const l.length c.nvars 0)
  forRange l.length A0 fun A i => do
    let k ← c.data.idx.get i
    let g ← c.data.gains.get i
    A.set (l.offset + i) k (signed neg g)

/-- `copyBodyTo` (`neg = false`) and `copyNegativeBodyTo` (`neg = true`) of a constraints object. -/
def copyBody [Field K] (c : Ctr K) (neg : Bool) (A : Mat K) (l : Location) : Res (Mat K) :=
  match c.ctype.body with
  | .a => c.copyBodyA neg A l
  | .as => c.copyBodyAS neg A l
  | .i => c.copyBodyI neg A l
  | .gi => c.copyBodyGI neg A l

/-- `copyBoundsTo`, constraints_mixins.h:97-103 (B0), 189-195 (B), 267-273 (L), 347-353 (U), 401-409 (LU). -/
def copyBounds [Field K] (c : Ctr K) (lb ub : Vec K) (l : Location) : Res (Vec K × Vec K) :=
  match c.ctype.bounds with
  | .b0 => do
    let lb' ← lb.setSegment l.offset l.length (Vec.const l.length 0)
    let ub' ← ub.setSegment l.offset l.length (Vec.const l.length 0)
    pure (lb', ub')
  | .b => do
    let lb' ← lb.setSegment l.offset l.length c.data.b
    let ub' ← ub.setSegment l.offset l.length c.data.b
    pure (lb', ub')
  | .l => do
    let lb' ← lb.setSegment l.offset l.length c.data.lb
    let ub' ← ub.setSegment l.offset l.length (Vec.const l.length (gInf K))
    pure (lb', ub')
  | .u => do
    let lb' ← lb.setSegment l.offset l.length (Vec.const l.length (-gInf K))
    let ub' ← ub.setSegment l.offset l.length c.data.ub
    pure (lb', ub')
  | .lu => do
    let lb' ← lb.setSegment l.offset l.length c.data.lb
    let ub' ← ub.setSegment l.offset l.length c.data.ub
    pure (lb', ub')

/-- `copyEqualityBoundsTo`, constraints_mixins.h:83-87 (B0), 161-165 (B). Other classes do not have it. -/
def copyEqualityBounds [Field K] (c : Ctr K) (b : Vec K) (l : Location) : Res (Vec K) :=
  match c.ctype.bounds with
  | .b0 => b.setSegment l.offset l.length (Vec.const l.length 0)
  | .b => b.setSegment l.offset l.length c.data.b
  | _ => .error .thrown

end Ctr

/-! ### Containers, constraints_base.h:115-365 -/

/-- `ContainerALU`, constraints_base.h:281-285. -/
structure ContainerALU (K : Type) where
  nvars : ℕ
  A : Mat K
  lb : Vec K
  ub : Vec K

/-- `ContainerAL`, constraints_base.h:291-295. -/
structure ContainerAL (K : Type) where
  nvars : ℕ
  A : Mat K
  lb : Vec K

/-- `ContainerAB`, constraints_base.h:301-305. -/
structure ContainerAB (K : Type) where
  nvars : ℕ
  A : Mat K
  b : Vec K

/-- `ContainerILU`, constraints_base.h:311-365. -/
structure ContainerILU (K : Type) where
  nvars : ℕ
  idx : Vec ℕ
  lb : Vec K
  ub : Vec K

/-- Content of freshly resized matrices and vectors: `resize` does not initialise the coefficients (and keeps them when
the size does not change). Arbitrary in the theorems. -/
structure Junk (K : Type) where
  m : ℕ → ℕ → K
  v : ℕ → K
  w : ℕ → K
  i : ℕ → ℕ

/-- `reset(number_of_constraints, number_of_variables)` of `ContainerALU`, constraints_base.h:175-183,
constraints_mixins.h:455-465, 385-389. -/
def ContainerALU.reset {K : Type} (z : Junk K) (n nv : ℕ) : ContainerALU K := ⟨nv, ⟨n, nv, z.m⟩, ⟨n, z.v⟩, ⟨n, z.w⟩⟩
/-- `reset` of `ContainerAL`. -/
def ContainerAL.reset {K : Type} (z : Junk K) (n nv : ℕ) : ContainerAL K := ⟨nv, ⟨n, nv, z.m⟩, ⟨n, z.v⟩⟩
/-- `reset` of `ContainerAB`. -/
def ContainerAB.reset {K : Type} (z : Junk K) (n nv : ℕ) : ContainerAB K := ⟨nv, ⟨n, nv, z.m⟩, ⟨n, z.v⟩⟩
/-- `reset` of `ContainerILU`. -/
def ContainerILU.reset {K : Type} (z : Junk K) (n nv : ℕ) : ContainerILU K := ⟨nv, ⟨n, z.i⟩, ⟨n, z.v⟩, ⟨n, z.w⟩⟩

/-- `getCopyLocation`, constraints_base.h:262-274: `rows` and `nvars` are those of the container. -/
def getCopyLocation (rows nvars : ℕ) (n offset nv : ℕ) : Res Location := do
  let l : Location := ⟨offset, n⟩
  assertThat (l.checkLength rows = true)
  assertThat (nvars = nv)
  pure l

namespace Ctr

variable {K : Type} [Field K]

/-- `CopyAnyToALUMixin::copyTo`, constraints_base.h:615-626. Every class has it. The number of variables passed to
`getCopyLocation` is that of the container itself. -/
def copyToALU (c : Ctr K) (k : ContainerALU K) (offset : ℕ) : Res (ContainerALU K × ℕ) := do
  let l ← getCopyLocation k.A.rows k.nvars c.numRows offset k.nvars
  let (lb, ub) ← c.copyBounds k.lb k.ub l
  let A ← c.copyBody false k.A l
  pure (⟨k.nvars, A, lb, ub⟩, l.offset + l.length)

/-- `CopyLowerInequalityToALMixin::copyTo`, constraints_base.h:648-659. -/
def copyLowerToAL (c : Ctr K) (k : ContainerAL K) (offset : ℕ) : Res (ContainerAL K × ℕ) := do
  let l ← getCopyLocation k.A.rows k.nvars c.numRows offset k.nvars
  let lb ← k.lb.setSegment l.offset l.length c.data.lb
  let A ← c.copyBody false k.A l
  pure (⟨k.nvars, A, lb⟩, l.offset + l.length)

/-- `CopyUpperInequalityToALMixin::copyTo`, constraints_base.h:680-691. -/
def copyUpperToAL (c : Ctr K) (k : ContainerAL K) (offset : ℕ) : Res (ContainerAL K × ℕ) := do
  let l ← getCopyLocation k.A.rows k.nvars c.numRows offset k.nvars
  let lb ← k.lb.setSegment l.offset l.length c.data.ub.neg
  let A ← c.copyBody true k.A l
  pure (⟨k.nvars, A, lb⟩, l.offset + l.length)

/-- `copyTo(ContainerAL)`: `CopyLower...` for `*L`, `CopyUpper...` for `*U`, `CopyTwoSided...` (constraints_base.h:713-722,
lower part first) for `*LU`; equalities have the throwing default, constraints_base.h:466-470. -/
def copyToAL (c : Ctr K) (k : ContainerAL K) (offset : ℕ) : Res (ContainerAL K × ℕ) :=
  match c.ctype.bounds with
  | .l => c.copyLowerToAL k offset
  | .u => c.copyUpperToAL k offset
  | .lu => do
    let (k', o') ← c.copyLowerToAL k offset
    c.copyUpperToAL k' o'
  | _ => .error .thrown

/-- `copyTo(ContainerAB)`: `CopyEqualityToABMixin`, constraints_base.h:777-788, for `*B` and `*B0`; throwing default
otherwise, constraints_base.h:478-482. -/
def copyToAB (c : Ctr K) (k : ContainerAB K) (offset : ℕ) : Res (ContainerAB K × ℕ) :=
  match c.ctype.bounds with
  | .b | .b0 => do
    let l ← getCopyLocation k.A.rows k.nvars c.numRows offset k.nvars
    let b ← c.copyEqualityBounds k.b l
    let A ← c.copyBody false k.A l
    pure (⟨k.nvars, A, b⟩, l.offset + l.length)
  | _ => .error .thrown

/-- `copyTo(ContainerILU)`: `CopySimpleToILUMixin`, constraints_base.h:743-756, for the `I*` classes; throwing default
otherwise, constraints_base.h:454-458. -/
def copyToILU (c : Ctr K) (k : ContainerILU K) (offset : ℕ) : Res (ContainerILU K × ℕ) :=
  if c.ctype.hasILUCopy then do
    let l ← getCopyLocation k.idx.n k.nvars c.numRows offset k.nvars
    let (lb, ub) ← c.copyBounds k.lb k.ub l
    let idx ← k.idx.setSegment l.offset l.length c.data.idx
    pure (⟨k.nvars, idx, lb, ub⟩, l.offset + l.length)
  else .error .thrown

end Ctr

/-- `ContainerILU::initializeSolutionBounds`, constraints_base.h:324-364. -/
def ContainerILU.solutionBounds {K : Type} [Field K] [LinearOrder K] (k : ContainerILU K) : Res (Vec K × Vec K) :=
  if k.idx.n = 0 then .ok (⟨0, fun _ => 0⟩, ⟨0, fun _ => 0⟩)
  else
    forRange k.idx.n (Vec.const k.nvars (-gInf K), Vec.const k.nvars (gInf K)) fun (lb, ub) i => do
      let v ← k.idx.get i
      let rowLb ← k.lb.get i
      let rowUb ← k.ub.get i
      let curLb ← lb.get v
      let lb' ← if curLb < rowLb then lb.set v rowLb else pure lb
      let curUb ← ub.get v
      let ub' ← if curUb > rowUb then ub.set v rowUb else pure ub
      let newLb ← lb'.get v
      let newUb ← ub'.get v
      assertThat (¬ newLb > newUb)
      pure (lb', ub')

/-! ### Active set determination, constraints_mixins.h:1030-1195 -/

namespace Ctr

variable {K : Type} [Field K] [LinearOrder K]

/-- Body of the loop in `ActiveSetDeterminationLUMixin::determineActiveSet`, constraints_mixins.h:1063-1095. -/
def determineRowLU (c : Ctr K) (x : Vec K) (i : ℕ) : Res Act := do
  let lb ← c.data.lb.get i
  let ub ← c.data.ub.get i
  if lb > ub then pure .undefined
  else if lb = ub then pure .equality
  else do
    let p ← c.getProduct i x
    if p ≤ lb then pure .lowerBound
    else if p ≥ ub then pure .upperBound
    else pure .inactive

/-- `ActiveSetDeterminationLMixin`, constraints_mixins.h:1122-1131. -/
def determineRowL (c : Ctr K) (x : Vec K) (i : ℕ) : Res Act := do
  let p ← c.getProduct i x
  let lb ← c.data.lb.get i
  if p ≤ lb then pure .lowerBound else pure .inactive

/-- `ActiveSetDeterminationUMixin`, constraints_mixins.h:1158-1167. -/
def determineRowU (c : Ctr K) (x : Vec K) (i : ℕ) : Res Act := do
  let p ← c.getProduct i x
  let ub ← c.data.ub.get i
  if p ≥ ub then pure .upperBound else pure .inactive

/-- The loop shared by the LU, L and U mixins. -/
def determineLoop (c : Ctr K) (row : ℕ → Res Act) (s : ActiveSetC) (l : Location) : Res ActiveSetC := do
  assertThat (c.numRows = l.length)
  forRange l.length s fun s i => do
    let a ← row i
    ActiveSetC.setAt s (l.offset + i) a

/-- `determineActiveSet`, constraints_mixins.h:1056-1097 (LU), 1115-1133 (L), 1151-1169 (U), 1187-1192 (B and B0). -/
def determineActiveSet (c : Ctr K) (s : ActiveSetC) (l : Location) (x : Vec K) : Res ActiveSetC :=
  match c.ctype.bounds with
  | .lu => c.determineLoop (c.determineRowLU x) s l
  | .l => c.determineLoop (c.determineRowL x) s l
  | .u => c.determineLoop (c.determineRowU x) s l
  | .b | .b0 => ActiveSetC.setLoc s l .equality

end Ctr

/-! ### Violations, violations.h -/

/-- `ViolationsConstraints`, violations.h:18-23: `data_`, `lower_`, `upper_`. -/
structure ViolationsC (K : Type) where
  data : Vec K
  lower : Vec K
  upper : Vec K

namespace ViolationsC

variable {K : Type} [Field K] [LinearOrder K]

/-- Value stored in `data_` by `set`, violations.h:83-97. -/
def measure (lowerDiff upperDiff : K) : K :=
  if lowerDiff ≥ 0 then
    if upperDiff ≤ 0 then 0 else upperDiff
  else lowerDiff

/-- `set`, violations.h:73-98. -/
def set (v : ViolationsC K) (i : ℕ) (lowerDiff upperDiff : K) : Res (ViolationsC K) := do
  assertThat (i < v.data.n)
  let lower ← v.lower.set i lowerDiff
  let upper ← v.upper.set i upperDiff
  let data ← v.data.set i (measure lowerDiff upperDiff)
  pure ⟨data, lower, upper⟩

/-- `initialize(number_of_constraints)`, violations.h: all three vectors get the size; zeros. -/
def init (n : ℕ) : ViolationsC K := ⟨Vec.const n 0, Vec.const n 0, Vec.const n 0⟩

end ViolationsC

namespace Ctr

variable {K : Type} [Field K] [LinearOrder K]

/-- Differences handed to `violations.set` for row `i`, constraints_mixins.h:1243-1247 (LU), 1276-1280 (L), 1309-1313 (U),
1342-1346 (B), 1375-1379 (B0). -/
def violationDiffs (c : Ctr K) (x : Vec K) (i : ℕ) : Res (K × K) := do
  let p ← c.getProduct i x
  match c.ctype.bounds with
  | .lu => do
    let lb ← c.data.lb.get i
    let ub ← c.data.ub.get i
    pure (p - lb, p - ub)
  | .l => do
    let lb ← c.data.lb.get i
    pure (p - lb, 0)
  | .u => do
    let ub ← c.data.ub.get i
    pure (0, p - ub)
  | .b => do
    let b ← c.data.b.get i
    pure (p - b, p - b)
  | .b0 => pure (p, p)

/-- `computeViolations`, constraints_mixins.h:1234-1249, 1267-1282, 1300-1315, 1333-1348, 1366-1381. -/
def computeViolations (c : Ctr K) (v : ViolationsC K) (l : Location) (x : Vec K) : Res (ViolationsC K) := do
  assertThat (c.numRows = l.length)
  forRange l.length v fun v i => do
    let d ← c.violationDiffs x i
    v.set (l.offset + i) d.1 d.2

end Ctr

/-! ### Products for the objective, constraints.h -/

section Objective

variable {K : Type} [Field K]

namespace Ctr

/-- `addATA` of `BodyIMixin`, constraints_mixins.h:799-805, and of `BodyGIMixin`, 943-949. -/
def addATADiag (c : Ctr K) (w : ℕ → Res K) (H : Mat K) : Res (Mat K) :=
  forRange c.data.idx.n H fun H i => do
    let k ← c.data.idx.get i
    let x ← w i
    let h ← H.get k k
    H.set k k (h + x)

/-- Square of the gain, constraints_mixins.h:947. -/
def gainSq (c : Ctr K) (i : ℕ) : Res K := do
  let g ← c.data.gains.get i
  pure (g * g)

/-- `getATA` of the body mixins, constraints_mixins.h:490-494 (A), 643-646 (AS), 789-796 (I), 932-939 (GI). -/
def bodyGetATA (c : Ctr K) (z : ℕ → ℕ → K) : Res (Mat K) :=
  match c.ctype.body with
  | .a => getATA z c.data.A
  | .as => getATAOffset z c.data.A c.data.offset c.nvars
  | .i => c.addATADiag (fun _ => pure 1) ⟨c.nvars, c.nvars, fun i j => if j ≤ i then 0 else z i j⟩
  | .gi => c.addATADiag c.gainSq ⟨c.nvars, c.nvars, fun i j => if j ≤ i then 0 else z i j⟩

/-- `addATA` of the body mixins, constraints_mixins.h:498-502 (A), 650-653 (AS), 799-805 (I), 943-949 (GI). -/
def bodyAddATA (c : Ctr K) (H : Mat K) : Res (Mat K) :=
  match c.ctype.body with
  | .a => addATA H c.data.A
  | .as => addATAOffset H c.data.A c.data.offset
  | .i => c.addATADiag (fun _ => pure 1) H
  | .gi => c.addATADiag c.gainSq H

/-- `A_.transpose() * b_`. -/
def ATb (c : Ctr K) : Res (Vec K) := do
  require (c.data.A.rows = c.data.b.n)
  pure ⟨c.data.A.cols, fun j => ∑ k ∈ Finset.range c.data.A.rows, c.data.A.e k j * c.data.b.e k⟩

/-- `ConstraintsGIB::addATb`, constraints.h:720-726. -/
def addATbGI (c : Ctr K) (g : Vec K) : Res (Vec K) :=
  forRange c.data.idx.n g fun g i => do
    let k ← c.data.idx.get i
    let w ← c.data.gains.get i
    let b ← c.data.b.get i
    let old ← g.get k
    g.set k (old + w * b)

/-- `getATAandATb`, constraints.h:203-207 (AB), 261-265 (AB0), 472-481 (ASB), 538-542 (ASB0), 756-761 (GIB), 806-810 (GIB0),
1059-1063 (IB0). For `IB` the code (constraints.h:1006-1010) calls a function which does not exist, the class cannot be
instantiated; the model reports an exception. Inequalities have the throwing default, constraints_base.h:436-440. -/
def getATAandATb (c : Ctr K) (z : ℕ → ℕ → K) : Res (Mat K × Vec K) :=
  match c.ctype with
  | .ab => do
    let H ← c.bodyGetATA z
    let g ← c.ATb
    pure (H, g)
  | .asb => do
    let H ← c.bodyGetATA z
    let g ← c.ATb
    require (0 ≤ c.data.offset ∧ c.data.offset + (c.data.A.cols : ℤ) ≤ (c.nvars : ℤ))
    let o := c.data.offset.toNat
    pure (H, ⟨c.nvars, fun j => if o ≤ j ∧ j < o + c.data.A.cols then g.e (j - o) else 0⟩)
  | .gib => do
    let H ← c.bodyGetATA z
    let g ← c.addATbGI (Vec.const c.nvars 0)
    pure (H, g)
  | .ab0 | .asb0 | .gib0 | .ib0 => do
    let H ← c.bodyGetATA z
    pure (H, Vec.const c.nvars 0)
  | _ => .error .thrown

/-- `addATAandATb`, constraints.h:211-215 (AB), 269-273 (AB0), 485-490 (ASB), 546-550 (ASB0), 765-769 (GIB), 814-818 (GIB0),
1067-1071 (IB0). -/
def addATAandATb (c : Ctr K) (H : Mat K) (g : Vec K) : Res (Mat K × Vec K) :=
  match c.ctype with
  | .ab => do
    let H' ← c.bodyAddATA H
    let t ← c.ATb
    require (g.n = t.n)
    pure (H', ⟨g.n, fun j => g.e j + t.e j⟩)
  | .asb => do
    let H' ← c.bodyAddATA H
    let t ← c.ATb
    require (0 ≤ c.data.offset ∧ c.data.offset + (c.data.A.cols : ℤ) ≤ (g.n : ℤ))
    let o := c.data.offset.toNat
    pure (H', ⟨g.n, fun j => if o ≤ j ∧ j < o + c.data.A.cols then g.e j + t.e (j - o) else g.e j⟩)
  | .gib => do
    let H' ← c.bodyAddATA H
    let g' ← c.addATbGI g
    pure (H', g')
  | .ab0 | .asb0 | .gib0 | .ib0 => do
    let H' ← c.bodyAddATA H
    pure (H', g)
  | _ => .error .thrown

end Ctr

end Objective

end Humoto
