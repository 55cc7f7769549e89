import Verif.Model.Basic

/-!
# Specification of condensing

Written in terms of trajectories of the controlled system, without block matrices.
-/

namespace Humoto.Spec

variable {K : Type} [Field K]

/-- All matrices of a list have the given size. -/
def AllSize (l : List (Mat K)) (h w : ℕ) : Prop := ∀ M ∈ l, M.rows = h ∧ M.cols = w

/-- `x(k+1) = A(k) x(k) + B(k) u(k)` for all `k` below the length of the lists. `x k i` is the component `i` of the state at the
step `k`. -/
def Trajectory (A B : List (Mat K)) (ns nu : ℕ) (x u : ℕ → ℕ → K) : Prop :=
  ∀ (k : ℕ) a b, A[k]? = some a → B[k]? = some b → ∀ i, i < ns →
    x (k + 1) i = ∑ j ∈ Finset.range ns, a.e i j * x k j + ∑ j ∈ Finset.range nu, b.e i j * u k j

/-- The block row `k` of `M x0`, where `M` consists of blocks with `h` rows. -/
def stateTerm (S : Mat K) (h ns : ℕ) (x0 : ℕ → K) (k i : ℕ) : K := ∑ j ∈ Finset.range ns, S.e (k * h + i) j * x0 j

/-- The block row `k` of `M u`, where `M` consists of blocks with `h` rows and `nu` columns and `u` is the vector
`(u(0), ..., u(N-1))`. -/
def controlTerm (U : Mat K) (h nu N : ℕ) (u : ℕ → ℕ → K) (k i : ℕ) : K :=
  ∑ m ∈ Finset.range N, ∑ j ∈ Finset.range nu, U.e (k * h + i) (m * nu + j) * u m j

/-- `S x(0) + U (u(0), ..., u(N-1)) = (x(1), ..., x(N))` for all trajectories. -/
structure Condensed (S U : Mat K) (A B : List (Mat K)) (ns nu : ℕ) : Prop where
  rowsS : S.rows = A.length * ns
  colsS : S.cols = ns
  rowsU : U.rows = A.length * ns
  colsU : U.cols = A.length * nu
  states : ∀ x u, Trajectory A B ns nu x u → ∀ k, k < A.length → ∀ i, i < ns →
    stateTerm S ns ns (x 0) k i + controlTerm U ns nu A.length u k i = x (k + 1) i

/-- The outputs `y(k) = D(k) x(k) + E(k) u(k)`. -/
def output (d e : Mat K) (ns nu : ℕ) (x u : ℕ → K) (i : ℕ) : K :=
  ∑ j ∈ Finset.range ns, d.e i j * x j + ∑ j ∈ Finset.range nu, e.e i j * u j

/-- `Ox x(0) + Ou (u(0), ..., u(N-1)) = (y(0), ..., y(N-1))` for all trajectories. -/
structure CondensedOutput (Ox Ou : Mat K) (A B D E : List (Mat K)) (ns nu ny : ℕ) : Prop where
  rowsOx : Ox.rows = A.length * ny
  colsOx : Ox.cols = ns
  rowsOu : Ou.rows = A.length * ny
  colsOu : Ou.cols = A.length * nu
  outputs : ∀ x u, Trajectory A B ns nu x u → ∀ (k : ℕ) d e, D[k]? = some d → E[k]? = some e → ∀ i, i < ny →
    stateTerm Ox ny ns (x 0) k i + controlTerm Ou ny nu A.length u k i = output d e ns nu (x k) (u k) i

end Humoto.Spec
