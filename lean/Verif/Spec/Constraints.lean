import Verif.Model.Constraints

/-!
# Specification of the constraint classes

Meaning of the 20 kinds of constraints as documented in constraints_base.h:24-45, independent of the copying and
evaluation functions of the model. Only the data records of the model are used.
-/

namespace Humoto.Spec

variable {K : Type} [Field K]

/-- Number of rows of a constraint. -/
def rows (c : Ctr K) : ℕ :=
  match c.ctype with
  | .ilu | .il | .iu | .ib | .ib0 | .gilu | .gil | .giu | .gib | .gib0 => c.data.idx.n
  | _ => c.data.A.rows

/-- Left-hand side of row `i` at the point `x`: `x[I]`, `diag(G) x[I]`, `A x` or `A S x`. -/
def lhs (c : Ctr K) (x : ℕ → K) (i : ℕ) : K :=
  match c.ctype with
  | .ilu | .il | .iu | .ib | .ib0 => x (c.data.idx.e i)
  | .gilu | .gil | .giu | .gib | .gib0 => c.data.gains.e i * x (c.data.idx.e i)
  | .alu | .al | .au | .ab | .ab0 => ∑ j ∈ Finset.range c.data.A.cols, c.data.A.e i j * x j
  | .aslu | .asl | .asu | .asb | .asb0 =>
      ∑ j ∈ Finset.range c.data.A.cols, c.data.A.e i j * x (c.data.offset.toNat + j)

/-- Lower bound of row `i`, if there is one. -/
def lower (c : Ctr K) (i : ℕ) : Option K :=
  match c.ctype with
  | .ilu | .gilu | .alu | .aslu => some (c.data.lb.e i)
  | .il | .gil | .al | .asl => some (c.data.lb.e i)
  | .iu | .giu | .au | .asu => none
  | .ib | .gib | .ab | .asb => some (c.data.b.e i)
  | .ib0 | .gib0 | .ab0 | .asb0 => some 0

/-- Upper bound of row `i`, if there is one. -/
def upper (c : Ctr K) (i : ℕ) : Option K :=
  match c.ctype with
  | .ilu | .gilu | .alu | .aslu => some (c.data.ub.e i)
  | .il | .gil | .al | .asl => none
  | .iu | .giu | .au | .asu => some (c.data.ub.e i)
  | .ib | .gib | .ab | .asb => some (c.data.b.e i)
  | .ib0 | .gib0 | .ab0 | .asb0 => some 0

/-- Row `i` holds at `x`. -/
def RowHolds [LinearOrder K] (c : Ctr K) (x : ℕ → K) (i : ℕ) : Prop :=
  (∀ l, lower c i = some l → l ≤ lhs c x i) ∧ (∀ u, upper c i = some u → lhs c x i ≤ u)

/-- The constraint is satisfied at `x`. -/
def Satisfied [LinearOrder K] (c : Ctr K) (x : ℕ → K) : Prop := ∀ i, i < rows c → RowHolds c x i

/-- The bounds of row `i` coincide. -/
def IsEqualityRow (c : Ctr K) (i : ℕ) : Prop := ∃ v, lower c i = some v ∧ upper c i = some v

/-- The bounds of row `i` contradict each other. -/
def IsContradictoryRow [LinearOrder K] (c : Ctr K) (i : ℕ) : Prop :=
  ∃ l u, lower c i = some l ∧ upper c i = some u ∧ u < l

/-- Sizes of the bounds agree with the number of rows. -/
def BoundsFit (c : Ctr K) : Prop :=
  match c.ctype with
  | .ilu | .gilu | .alu | .aslu => c.data.lb.n = rows c ∧ c.data.ub.n = rows c
  | .il | .gil | .al | .asl => c.data.lb.n = rows c
  | .iu | .giu | .au | .asu => c.data.ub.n = rows c
  | .ib | .gib | .ab | .asb => c.data.b.n = rows c
  | .ib0 | .gib0 | .ab0 | .asb0 => True

/-- The rows mention only existing variables. -/
def BodyFits (c : Ctr K) : Prop :=
  match c.ctype with
  | .ilu | .il | .iu | .ib | .ib0 => ∀ i, i < c.data.idx.n → c.data.idx.e i < c.nvars
  | .gilu | .gil | .giu | .gib | .gib0 =>
      c.data.gains.n = c.data.idx.n ∧ ∀ i, i < c.data.idx.n → c.data.idx.e i < c.nvars
  | .alu | .al | .au | .ab | .ab0 => 0 < c.data.A.cols ∧ c.data.A.cols = c.nvars
  | .aslu | .asl | .asu | .asb | .asb0 =>
      0 < c.data.A.cols ∧ 0 ≤ c.data.offset ∧ c.data.offset + (c.data.A.cols : ℤ) ≤ (c.nvars : ℤ)

/-- A constraint whose sizes fit together and which mentions only existing variables. `checkConsistency` enforces this
up to the range of the indices and the sign of the offset, see `checkConsistency_of_wellFormed` and
`wellFormed_of_checkConsistency`. -/
def WellFormed (c : Ctr K) : Prop := BoundsFit c ∧ BodyFits c

end Humoto.Spec

namespace Humoto.Spec

variable {K : Type} [Field K] [LinearOrder K]

/-- Activation `a` reported for row `i` at the point `x` is correct: equality rows are equalities, contradictory rows are
undefined, all other rows are classified by the position of the left-hand side with respect to the bounds. -/
structure ActivationCorrect (c : Ctr K) (x : ℕ → K) (i : ℕ) (a : Act) : Prop where
  equality : a = .equality ↔ IsEqualityRow c i
  undefined : a = .undefined ↔ IsContradictoryRow c i
  lowerBound : a = .lowerBound ↔
    ¬ IsEqualityRow c i ∧ ¬ IsContradictoryRow c i ∧ ∃ l, lower c i = some l ∧ lhs c x i ≤ l
  upperBound : a = .upperBound ↔
    ¬ IsEqualityRow c i ∧ ¬ IsContradictoryRow c i ∧ ∃ u, upper c i = some u ∧ u ≤ lhs c x i
  inactive : a = .inactive ↔
    ¬ IsEqualityRow c i ∧ (∀ l, lower c i = some l → l < lhs c x i) ∧ (∀ u, upper c i = some u → lhs c x i < u)

/-- The number `v` reported as the violation of row `i` at `x` is correct: zero exactly when the row holds, otherwise
the signed distance to the violated bound. -/
structure ViolationCorrect (c : Ctr K) (x : ℕ → K) (i : ℕ) (v : K) : Prop where
  zero : v = 0 ↔ RowHolds c x i
  below : ∀ l, lower c i = some l → lhs c x i < l → v = lhs c x i - l ∧ v < 0
  above : ∀ u, upper c i = some u → u < lhs c x i → v = lhs c x i - u ∧ 0 < v

end Humoto.Spec
