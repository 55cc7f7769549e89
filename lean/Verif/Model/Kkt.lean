import Verif.Model.Solver
import Verif.Model.BlockMat

/-!
# KKT solver, core/include/kktsolver.h

The three matrix decompositions of Eigen which are used by the solver are parameters: a matrix and a right hand side are
mapped to what `solve` returns.
-/

namespace Humoto

variable {K : Type}

/-- `SolverParameters::Method`, kktsolver.h:51-57. -/
inductive KktMethod
  | undefined | lu | qr | eliminationLlt
  deriving DecidableEq, Repr

/-- `SolverParameters`, kktsolver.h:61-62 (the inherited members are in `SolverParameters` of Model/Solver). -/
structure KktParameters (K : Type) where
  method : KktMethod
  regularization : K

/-- `SolverParameters::setDefaults`, kktsolver.h:67-71. -/
def KktParameters.default [Field K] : KktParameters K := ⟨.lu, 1 / 10 ^ 8⟩

/-- `M.lu().solve(v)`, `M.colPivHouseholderQr().solve(v)`, `M.llt().solve(v)` of Eigen. -/
structure Decompositions (K : Type) where
  lu : Mat K → Vec K → Vec K
  qr : Mat K → Vec K → Vec K
  llt : Mat K → Vec K → Vec K

/-- `v.asDiagonal() * M`. -/
def Vec.diagMul [Mul K] (v : Vec K) (M : Mat K) : Res (Mat K) := do
  require (v.n = M.rows)
  pure ⟨M.rows, M.cols, fun i j => v.e i * M.e i j⟩

/-- `v.asDiagonal() * w`. -/
def Vec.diagMulVec [Mul K] (v w : Vec K) : Res (Vec K) := do
  require (v.n = w.n)
  pure ⟨w.n, fun i => v.e i * w.e i⟩

/-- `v + w`. -/
def Vec.plus [Add K] (v w : Vec K) : Res (Vec K) := do
  require (v.n = w.n)
  pure ⟨w.n, fun i => v.e i + w.e i⟩

/-- `v - w`. -/
def Vec.minus [Sub K] (v w : Vec K) : Res (Vec K) := do
  require (v.n = w.n)
  pure ⟨w.n, fun i => v.e i - w.e i⟩

/-- `v.segment(off, len)`. -/
def Vec.segment (v : Vec K) (off len : ℕ) : Res (Vec K) := do
  require (off + len ≤ v.n)
  pure ⟨len, fun i => v.e (off + i)⟩

/-- `kkt_matrix << H, A', A, 0`, kktsolver.h:179-183: the comma initialiser demands that the blocks fill the rows. -/
def kktMatrix [Zero K] (n m : ℕ) (H A : Mat K) : Res (Mat K) := do
  require (H.cols + A.transpose.cols = n + m ∧ A.transpose.rows = H.rows ∧ A.cols + m = n + m ∧ A.rows = m ∧
    H.rows + A.rows = n + m)
  pure ⟨n + m, n + m, fun i j =>
    if i < H.rows then if j < H.cols then H.e i j else A.transpose.e i (j - H.cols)
    else if j < A.cols then A.e (i - H.rows) j else 0⟩

/-- `kkt_vector << -g, b`, kktsolver.h:185-186. -/
def kktVector [Neg K] (n m : ℕ) (g b : Vec K) : Res (Vec K) := do
  require (g.n + b.n = n + m)
  pure ⟨n + m, fun i => if i < g.n then g.neg.e i else b.e (i - g.n)⟩

/-- The QP problem which is stored in the solver, kktsolver.h:88: `QPProblem_AB` is an objective with equality
constraints. -/
structure KktProblem (K : Type) where
  objective : QPObjective K
  equalities : ContainerAB K

/-- The switch in `solveDirect`, kktsolver.h:190-200. -/
def kktDecompose (D : Decompositions K) (p : KktParameters K) (M : Mat K) (v : Vec K) : Res (Vec K) :=
  match p.method with
  | .lu => pure (D.lu M v)
  | .qr => pure (D.qr M v)
  | _ => .error .thrown

/-- `solveDirect`, kktsolver.h:170-205. The number of variables is that of the structure of the solution. -/
def kktSolveDirect [Field K] (D : Decompositions K) (p : KktParameters K) (q : KktProblem K) (sol : Solution K) :
    Res (Solution K) := do
  let n := sol.structure_.nvars
  let m := q.equalities.A.rows
  let M ← kktMatrix n m q.objective.H q.equalities.A
  let v ← kktVector n m q.objective.g q.equalities.b
  let x ← kktDecompose D p M v
  let s ← x.segment 0 n
  pure { sol with x := (List.range s.n).map s.e, status := .ok }

/-- The loop which inverts the diagonal of the Hessian, kktsolver.h:142-147. -/
def kktInvertDiagonal [Field K] (junk : ℕ → K) (n : ℕ) (H : Mat K) (reg : K) : Res (Vec K) :=
  forRange n ⟨n, junk⟩ fun v i => do
    let h ← H.get i i
    v.set i (1 / (h + reg))

/-- `solveWithElimination`, kktsolver.h:137-161. -/
def kktSolveWithElimination [Field K] (D : Decompositions K) (p : KktParameters K) (junk : ℕ → K) (q : KktProblem K)
    (sol : Solution K) : Res (Solution K) := do
  let n := sol.structure_.nvars
  let iH ← kktInvertDiagonal junk n q.objective.H p.regularization
  let iHg ← iH.diagMulVec q.objective.g
  let iHAt ← iH.diagMul q.equalities.A.transpose
  let S ← q.equalities.A.mul iHAt
  let r ← q.equalities.A.mulVec iHg
  let r ← r.plus q.equalities.b
  let l := D.llt S r
  let x ← iHAt.mulVec l
  let x ← x.minus iHg
  pure { sol with x := (List.range x.n).map x.e, status := .ok }

/-- `solveHierarchy`, kktsolver.h:104-128. -/
def kktSolveHierarchy [Field K] (D : Decompositions K) (p : KktParameters K) (junk : ℕ → K) (q : KktProblem K)
    (sol : Solution K) : Res (Solution K) :=
  match p.method with
  | .eliminationLlt =>
    if q.objective.hessianType = .diagonal then kktSolveWithElimination D p junk q sol else .error .thrown
  | .lu | .qr => kktSolveDirect D p q sol
  | .undefined => .error .thrown

/-- `initialize`, kktsolver.h:94-98; `old` is the problem left by the previous call. The upper triangle of the Hessian is
requested by the default argument, hierarchy.h:330. -/
def kktInitialize {E : Type} [Field K] (z : ℕ → ℕ → K) (zc : Junk K) (old : KktProblem K) (P : Hierarchy E K) (nv : ℕ) :
    Res (KktProblem K) := do
  let (o, c) ← P.getQPProblem z (fun L => QPConstraintsAB.initialize zc L nv) old.objective old.equalities true
  pure ⟨o, c⟩

end Humoto
