import Verif.Model.BlockMat

/-!
# Condensing, core/include/humoto/control_problem.h

`junk` stands for the entries which `resize` leaves uninitialised. `A` and `B` may also be scalars in the C++ templates; only
matrices are modelled.
-/

namespace Humoto

variable {K : Type} [Field K]

/-! ### Block matrices, control_problem.h:325-367 -/

/-- One iteration of the loop at control_problem.h:349-352: `S(i, 0) *= a`. -/
def condenseScale (a : Mat K) (S : BlockMat K) (i : ℕ) : Res (BlockMat K) := do
  let b ← S.blk i 0
  let p ← b.mul a
  S.setBlk i 0 p

/-- One iteration of the loop at control_problem.h:358-361: `U(i, k) = S(i, 0) * b`. -/
def condenseFill (S : BlockMat K) (b : Mat K) (k : ℕ) (U : BlockMat K) (i : ℕ) : Res (BlockMat K) := do
  let s ← S.blk i 0
  let p ← s.mul b
  U.setBlk i k p

/-- Body of the loop over columns, control_problem.h:346-361. -/
def condenseStep (A B : List (Mat K)) (N k : ℕ) (S U : BlockMat K) : Res (BlockMat K × BlockMat K) := do
  let a ← vecAt A (k + 1)
  let S ← forRange (N - (k + 1)) S fun S t => condenseScale a S (k + 1 + t)
  let S ← S.setBlk k 0 (Mat.identity S.br)
  let b ← vecAt B k
  let U ← U.setBlk k k b
  let U ← forRange (N - (k + 1)) U fun U t => condenseFill S b k U (k + 1 + t)
  pure (S, U)

/-- `condense`, control_problem.h:325-367. `S` and `U` come with the sizes of their blocks. -/
def condense (junk : ℕ → ℕ → K) (S U : BlockMat K) (A B : List (Mat K)) : Res (BlockMat K × BlockMat K) := do
  assertThat (A.length = B.length)
  assertThat (A.length > 0)
  let N := A.length
  let S ← S.resize junk N 1
  let U ← U.setZero N N
  let S ← S.setBlk (N - 1) 0 (Mat.identity S.br)
  let bl ← vecAt B (N - 1)
  let U ← U.setBlk (N - 1) (N - 1) bl
  let (S, U) ← forRange (N - 1) (S, U) fun (S, U) t => condenseStep A B N (N - 2 - t) S U
  let a0 ← vecAt A 0
  let c ← S.column 0 0
  let p ← c.mul a0
  let S ← S.setColumn 0 0 p
  pure (S, U)

/-! ### Dense matrices, control_problem.h:382-419 -/

/-- Body of the loop over columns, control_problem.h:409-413. -/
def condenseDenseStep (A B : List (Mat K)) (N ns nu k : ℕ) (S U : Mat K) : Res (Mat K × Mat K) := do
  let a ← vecAt A (k + 1)
  let s ← S.block ((k + 1) * ns) 0 ((N - k - 1) * ns) ns
  let p ← s.mul a
  let S ← S.setBlock ((k + 1) * ns) 0 ((N - k - 1) * ns) ns p
  let S ← S.setBlock (k * ns) 0 ns ns (Mat.identity ns)
  let b ← vecAt B k
  let U ← U.setBlock (k * ns) (k * nu) ns nu b
  let s ← S.block ((k + 1) * ns) 0 ((N - k - 1) * ns) ns
  let p ← s.mul b
  let U ← U.setBlock ((k + 1) * ns) (k * nu) ((N - k - 1) * ns) nu p
  pure (S, U)

/-- `condense`, control_problem.h:382-419. -/
def condenseDense (junk : ℕ → ℕ → K) (A B : List (Mat K)) : Res (Mat K × Mat K) := do
  assertThat (A.length = B.length)
  assertThat (A.length > 0)
  let a0 ← vecAt A 0
  let b0 ← vecAt B 0
  assertThat (a0.rows = b0.rows ∧ a0.cols = b0.rows)
  let N := A.length
  let ns := b0.rows
  let nu := b0.cols
  let S : Mat K := ⟨ns * N, ns, junk⟩
  let U : Mat K := ⟨ns * N, nu * N, fun _ _ => 0⟩
  let S ← S.setBlock ((N - 1) * ns) 0 ns ns (Mat.identity ns)
  let bl ← vecAt B (N - 1)
  let U ← U.setBlock ((N - 1) * ns) ((N - 1) * nu) ns nu bl
  let (S, U) ← forRange (N - 1) (S, U) fun (S, U) t => condenseDenseStep A B N ns nu (N - 2 - t) S U
  let S ← S.mul a0
  pure (S, U)

/-! ### Time invariant systems, control_problem.h:432-464 -/

/-- `Ucol << top, bottom`: the comma initialiser demands that the blocks fill the matrix. -/
def Mat.commaInit (rows cols : ℕ) (top bottom : Mat K) : Res (Mat K) := do
  require (top.cols = cols ∧ bottom.cols = cols ∧ top.rows + bottom.rows = rows)
  pure ⟨rows, cols, fun i j => if i < top.rows then top.e i j else bottom.e (i - top.rows) j⟩

/-- `condenseTimeInvariant`, control_problem.h:432-464. The length of the horizon is unsigned: `N - 1` wraps around for
`N = 0`, but the first block assignment is out of range already then. -/
def condenseTimeInvariant (junk : ℕ → ℕ → K) (N : ℕ) (A B : Mat K) : Res (Mat K × Mat K) := do
  let S : Mat K := ⟨A.rows * N, A.cols, junk⟩
  let S ← S.setBlock 0 0 A.rows A.cols A
  let (S, _) ← forRange (N - 1) (S, A) fun (S, M) t => do
    let M ← M.mul A
    let S ← S.setBlock ((t + 1) * A.rows) 0 A.rows A.cols M
    pure (S, M)
  let s ← S.block 0 0 (B.rows * (N - 1)) A.cols
  let p ← s.mul B
  let Ucol ← Mat.commaInit (B.rows * N) B.cols B p
  let U : Mat K := ⟨B.rows * N, B.cols * N, fun _ _ => 0⟩
  let U ← forRange N U fun U i => do
    let c ← Ucol.block 0 0 (B.rows * (N - i)) B.cols
    U.setBlock (B.rows * i) (B.cols * i) (B.rows * (N - i)) B.cols c
  pure (S, U)

/-! ### Outputs -/

/-- Body of the loop in `condenseOutput`, control_problem.h:299-302. -/
def condenseOutputStep (D E : List (Mat K)) (Ux Uu : BlockMat K) (Ox Ou : BlockMat K) (i : ℕ) :
    Res (BlockMat K × BlockMat K) := do
  let d ← vecAt D i
  let x ← Ux.blk (i - 1) 0
  let p ← d.mul x
  let Ox ← Ox.setBlk i 0 p
  let u ← Uu.row (i - 1) 0 i
  let q ← d.mul u
  let Ou ← Ou.setRow i 0 i q
  let e ← vecAt E i
  let Ou ← Ou.setBlk i i e
  pure (Ox, Ou)

/-- `condenseOutput` with block matrices, control_problem.h:272-304. -/
def condenseOutput (junk : ℕ → ℕ → K) (Ox Ou : BlockMat K) (D E : List (Mat K)) (Ux Uu : BlockMat K) :
    Res (BlockMat K × BlockMat K) := do
  let N := Ux.nVert
  assertThat (Ux.nHor = 1)
  assertThat (Uu.nHor = N ∧ Uu.nVert = N)
  assertThat (D.length = E.length)
  assertThat (E.length = N)
  let Ox ← Ox.resize junk N 1
  let d0 ← vecAt D 0
  let Ox ← Ox.setBlk 0 0 d0
  let Ou ← Ou.setZero N N
  let e0 ← vecAt E 0
  let Ou ← Ou.setBlk 0 0 e0
  forRange (N - 1) (Ox, Ou) fun (Ox, Ou) t => condenseOutputStep D E Ux Uu Ox Ou (t + 1)

/-- Body of the loop in the dense `condenseOutput`, control_problem.h:242-246. -/
def condenseOutputDenseStep (D E Ux Uu : Mat K) (nx nu ny N : ℕ) (Ox Ou : Mat K) (i : ℕ) : Res (Mat K × Mat K) := do
  let x ← Ux.block ((i - 1) * nx) 0 nx nx
  let p ← D.mul x
  let Ox ← Ox.setBlock (i * ny) 0 ny nx p
  let u ← Uu.block ((i - 1) * nx) 0 nx Uu.cols
  let q ← D.mul u
  let Ou ← Ou.setBlock (i * ny) 0 ny (N * nu) q
  let Ou ← Ou.setBlock (i * ny) (i * nu) ny nu E
  pure (Ox, Ou)

/-- `condenseOutput` with dense matrices and constant `D`, `E`, control_problem.h:213-248. A matrix `D` without columns leads to
a division by zero. -/
def condenseOutputDense (junk : ℕ → ℕ → K) (D E Ux Uu : Mat K) : Res (Mat K × Mat K) := do
  let nu := E.cols
  let nx := D.cols
  let ny := D.rows
  require (nx ≠ 0)
  let N := Ux.rows / nx
  assertThat (Ux.cols = nx)
  assertThat (Ux.rows = N * nx)
  assertThat (Uu.cols = N * nu)
  assertThat (Uu.rows = N * nx)
  let Ox : Mat K := ⟨N * ny, nx, junk⟩
  let Ox ← Ox.setBlock 0 0 ny nx D
  let Ou : Mat K := ⟨N * ny, N * nu, fun _ _ => 0⟩
  let Ou ← Ou.setBlock 0 0 ny nu E
  forRange (N - 1) (Ox, Ou) fun (Ox, Ou) t => condenseOutputDenseStep D E Ux Uu nx nu ny N Ox Ou (t + 1)

/-- Body of the loop over groups of controls, control_problem.h:182-186; `off` is the offset of the group. -/
def condenseOutputGroup (d e : Mat K) (ny : ℕ) (Uu : BlockMat K) (off i : ℕ) (Ou : BlockMat K) : Res (BlockMat K) := do
  let u ← Uu.row (i - 1) 0 i
  let q ← d.mul u
  let Ou ← Ou.setRow i 0 i q
  let b ← e.block 0 off ny Uu.bc
  Ou.setBlk i i b

/-- Initial value of `Ou[i]`, control_problem.h:164-173. Note the block which is written: the last one. -/
def condenseOutputInit (e0 : Mat K) (ny N : ℕ) (Uu : BlockMat K) (off : ℕ) : Res (BlockMat K) := do
  assertThat (Uu.bc > 0)
  let Ou ← (⟨ny, Uu.bc, ⟨0, 0, fun _ _ => 0⟩⟩ : BlockMat K).setZero N N
  let b ← e0.block 0 off ny Uu.bc
  Ou.setBlk (N - 1) (N - 1) b

/-- `control_offsets`, control_problem.h:151, 162-163. -/
def controlOffsets : ℕ → List (BlockMat K) → List ℕ
  | _, [] => []
  | o, Uu :: rest => o :: controlOffsets (o + Uu.bc) rest

/-- The loops over `i` and `j`, control_problem.h:176-188, for one group of controls. The groups do not share any data, so
the loops may be exchanged: each group is processed on its own. -/
def condenseOutputOne (D E : List (Mat K)) (ny N : ℕ) (p : BlockMat K × ℕ) : Res (BlockMat K) := do
  let e0 ← vecAt E 0
  let Ou ← condenseOutputInit e0 ny N p.1 p.2
  forRange (N - 1) Ou fun Ou t => do
    let d ← vecAt D (t + 1)
    let e ← vecAt E (t + 1)
    condenseOutputGroup d e ny p.1 p.2 (t + 1) Ou

/-- `condenseOutput` with several groups of controls, control_problem.h:133-189. `ny` is the template parameter
`t_num_outputs`. Simplification: the states are processed first, then each group of controls. -/
def condenseOutputGroups (junk : ℕ → ℕ → K) (ny : ℕ) (Ox : BlockMat K) (D E : List (Mat K)) (Ux : BlockMat K)
    (Uu : List (BlockMat K)) : Res (BlockMat K × List (BlockMat K)) := do
  let N := Ux.nVert
  assertThat (Ux.nHor = 1)
  assertThat (D.length = E.length)
  assertThat (E.length = N)
  let Ox ← Ox.resize junk N 1
  let d0 ← vecAt D 0
  let Ox ← Ox.setBlk 0 0 d0
  let Ou ← (Uu.zip (controlOffsets 0 Uu)).mapM (condenseOutputOne D E ny N)
  let Ox ← forRange (N - 1) Ox fun Ox t => do
    let d ← vecAt D (t + 1)
    let x ← Ux.blk t 0
    let p ← d.mul x
    Ox.setBlk (t + 1) 0 p
  pure (Ox, Ou)

end Humoto
