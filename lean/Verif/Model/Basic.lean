import Mathlib.Algebra.Order.Field.Basic
import Mathlib.Algebra.BigOperators.Group.Finset.Basic
import Mathlib.Data.Finset.Range
import Mathlib.Logic.Function.Basic

/-!
# Common ground of the model

Failure outcomes, locations and dense matrices.
-/

namespace Humoto

/-- Failure outcomes.

* `thrown`: `HUMOTO_ASSERT` / `HUMOTO_THROW_MSG`, core/include/humoto_helpers.h:80-90. The guard macro is spelled
  `DNDEBUG`, hence the checks are on in every build. Messages are not modelled.
* `ub`: undefined behaviour of C++ (out of range access; violation of an Eigen size requirement which is only
  checked by `eigen_assert` in debug builds). -/
inductive Fault
  | thrown
  | ub
  deriving DecidableEq, Repr

/-- Result of an operation which may fail. -/
abbrev Res (α : Type) := Except Fault α

/-- `HUMOTO_ASSERT(condition, message)`, core/include/humoto_helpers.h:80-90. -/
def assertThat (c : Prop) [Decidable c] : Res Unit := if c then .ok () else .error .thrown

/-- A precondition which is not checked by the code: its violation is undefined behaviour. -/
def require (c : Prop) [Decidable c] : Res Unit := if c then .ok () else .error .ub

@[simp] theorem assertThat_true {c : Prop} [Decidable c] (h : c) : assertThat c = .ok () := by simp [assertThat, h]
@[simp] theorem assertThat_false {c : Prop} [Decidable c] (h : ¬ c) : assertThat c = .error .thrown := by
  simp [assertThat, h]
@[simp] theorem require_true {c : Prop} [Decidable c] (h : c) : require c = .ok () := by simp [require, h]
@[simp] theorem require_false {c : Prop} [Decidable c] (h : ¬ c) : require c = .error .ub := by
  simp [require, h]

/-- `humoto::Location`, core/include/humoto/utility.h:146-267, on unbounded numbers. The wrap-around behaviour of
`checkLength` on `std::size_t` is the subject of C01, which justifies this simplification. -/
structure Location where
  offset : ℕ
  length : ℕ
  deriving DecidableEq, Repr

namespace Location

/-- `Location::front`, utility.h:220-223. -/
def front (l : Location) : ℕ := l.offset

/-- `Location::end`, utility.h:231-234. -/
def fin (l : Location) : ℕ := l.offset + l.length

/-- `Location::checkLength`, utility.h:208-212. -/
def checkLength (l : Location) (max : ℕ) : Bool := decide (l.offset ≤ l.fin) && decide (l.fin ≤ max)

theorem checkLength_iff (l : Location) (max : ℕ) : l.checkLength max = true ↔ l.offset + l.length ≤ max := by
  simp only [checkLength, Bool.and_eq_true, decide_eq_true_eq]
  unfold fin
  omega

end Location

/-! ## Dense vectors and matrices

`Eigen::VectorXd` and `Eigen::MatrixXd` are sizes with an entry function. Entries outside of the sizes carry no
meaning; the operations below report `Fault.ub` when they would be touched. `double` is an arbitrary type `K`
(a linearly ordered field in the theorems). -/

/-- `Eigen::VectorXd`. -/
structure Vec (K : Type) where
  n : ℕ
  e : ℕ → K

/-- `Eigen::MatrixXd`. -/
structure Mat (K : Type) where
  rows : ℕ
  cols : ℕ
  e : ℕ → ℕ → K

namespace Vec

variable {K : Type}

/-- Vector from a list of coefficients (used in examples). -/
def ofList [Zero K] (l : List K) : Vec K := ⟨l.length, fun i => l.getD i 0⟩

/-- Access to a coefficient, `v[i]`. -/
def get (v : Vec K) (i : ℕ) : Res K := if i < v.n then .ok (v.e i) else .error .ub

/-- `v[i] = x`. -/
def set (v : Vec K) (i : ℕ) (x : K) : Res (Vec K) :=
  if i < v.n then .ok ⟨v.n, Function.update v.e i x⟩ else .error .ub

/-- `v.segment(off, len) = w`. -/
def setSegment (v : Vec K) (off len : ℕ) (w : Vec K) : Res (Vec K) :=
  if off + len ≤ v.n ∧ w.n = len then
    .ok ⟨v.n, fun i => if off ≤ i ∧ i < off + len then w.e (i - off) else v.e i⟩
  else .error .ub

/-- `VectorXd::Constant(n, x)`. -/
def const (n : ℕ) (x : K) : Vec K := ⟨n, fun _ => x⟩

/-- `-v`. -/
def neg [Neg K] (v : Vec K) : Vec K := ⟨v.n, fun i => - v.e i⟩

/-- Two vectors are equal as far as a user can see. -/
def Equiv (v w : Vec K) : Prop := v.n = w.n ∧ ∀ i < v.n, v.e i = w.e i

end Vec

namespace Mat

variable {K : Type}

/-- Matrix from a list of rows (used in examples). -/
def ofRows [Zero K] (cols : ℕ) (l : List (List K)) : Mat K :=
  ⟨l.length, cols, fun i j => (l.getD i []).getD j 0⟩

/-- `A(i, j)`. -/
def get (A : Mat K) (i j : ℕ) : Res K := if i < A.rows ∧ j < A.cols then .ok (A.e i j) else .error .ub

/-- `A(i, j) = x`. -/
def set (A : Mat K) (i j : ℕ) (x : K) : Res (Mat K) :=
  if i < A.rows ∧ j < A.cols then
    .ok ⟨A.rows, A.cols, fun r c => if r = i ∧ c = j then x else A.e r c⟩
  else .error .ub

/-- `A.block(r, c, h, w) = B`. -/
def setBlock (A : Mat K) (r c h w : ℕ) (B : Mat K) : Res (Mat K) :=
  if r + h ≤ A.rows ∧ c + w ≤ A.cols ∧ B.rows = h ∧ B.cols = w then
    .ok ⟨A.rows, A.cols, fun i j =>
      if (r ≤ i ∧ i < r + h) ∧ (c ≤ j ∧ j < c + w) then B.e (i - r) (j - c) else A.e i j⟩
  else .error .ub

/-- `MatrixXd::Constant(h, w, x)`. -/
def const (h w : ℕ) (x : K) : Mat K := ⟨h, w, fun _ _ => x⟩

/-- `-A`. -/
def neg [Neg K] (A : Mat K) : Mat K := ⟨A.rows, A.cols, fun i j => - A.e i j⟩

/-- `A.transpose()`. -/
def transpose (A : Mat K) : Mat K := ⟨A.cols, A.rows, fun i j => A.e j i⟩

/-- Two matrices are equal as far as a user can see. -/
def Equiv (A B : Mat K) : Prop :=
  A.rows = B.rows ∧ A.cols = B.cols ∧ ∀ i < A.rows, ∀ j < A.cols, A.e i j = B.e i j

/-- `A * x` (matrix-vector product), entry `i`. -/
def mulVecEntry [AddCommMonoid K] [Mul K] (A : Mat K) (x : ℕ → K) (i : ℕ) : K :=
  ∑ j ∈ Finset.range A.cols, A.e i j * x j

/-- `A * B`; sizes which do not match are undefined behaviour. -/
def mul [AddCommMonoid K] [Mul K] (A B : Mat K) : Res (Mat K) :=
  if A.cols = B.rows then
    .ok ⟨A.rows, B.cols, fun i j => ∑ k ∈ Finset.range A.cols, A.e i k * B.e k j⟩
  else .error .ub

/-- `A * x`; sizes which do not match are undefined behaviour. -/
def mulVec [AddCommMonoid K] [Mul K] (A : Mat K) (x : Vec K) : Res (Vec K) :=
  if A.cols = x.n then
    .ok ⟨A.rows, fun i => ∑ k ∈ Finset.range A.cols, A.e i k * x.e k⟩
  else .error .ub

end Mat

end Humoto
