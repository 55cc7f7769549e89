import Verif.Model.Condense
import Verif.Model.PepperHorizon
import Verif.Model.Solution

/-!
# Pepper: the model predictive control problem

modules/pepper_mpc/include/pepper_mpc/mpc_mg.h. Entries of matrices which are not initialised are given by `junk k`, where `k` is
the number of the allocation. Logging is not modelled.
-/

namespace Humoto

variable {K : Type}

/-- The coefficients of a map as a matrix; all of them must be within the data. -/
def MapView.toMat (V : MapView K) : Res (Mat K) := do
  require (∀ i < V.rows, ∀ j < V.cols, V.first + i * V.inner + j * V.outer < V.base.rows * V.base.cols)
  pure ⟨V.rows, V.cols, fun i j => V.base.e ((V.first + i * V.inner + j * V.outer) % V.base.rows)
    ((V.first + i * V.inner + j * V.outer) / V.base.rows)⟩

/-- `BlockMatrix::selectRowInBlocks`, core/include/eigentools/blockmatrix.h:200-207, for blocks of constant size: a matrix of
blocks with one row. -/
def BlockMat.selectRowInBlocks (M : BlockMat K) (row : ℕ) : Res (BlockMat K) := do
  let V ← selectRows M.m M.br row
  let m ← V.toMat
  BlockMat.finalize ⟨1, M.bc, m⟩

/-- `BlockMatrix::getBlockKroneckerProduct`, blockmatrix.h:217-235, and `BlockMatrixMap::getBlockKroneckerProduct`,
blockmatrix.h:139-159. -/
def BlockMat.kron (M : BlockMat K) (id : ℕ) : Res (Kron K) := Kron.construct M.m id M.br M.bc

/-- A vector as a matrix with one column. -/
def Vec.toMat (v : Vec K) : Mat K := ⟨v.n, 1, fun i _ => v.e i⟩

/-- Assignment of a matrix to a vector. -/
def Mat.toVec (A : Mat K) : Res (Vec K) := do
  require (A.cols = 1)
  pure ⟨A.rows, fun i => A.e i 0⟩

/-- `v - w`. -/
def Vec.sub [Sub K] (v w : Vec K) : Res (Vec K) :=
  if v.n = w.n then .ok ⟨v.n, fun i => v.e i - w.e i⟩ else .error .ub

/-- `M.resize(rows, cols); M << A, B` for matrices of the same height. -/
def Mat.commaHor (rows cols : ℕ) (A B : Mat K) : Res (Mat K) := do
  require (A.rows = rows ∧ B.rows = rows ∧ A.cols + B.cols = cols)
  pure ⟨rows, cols, fun i j => if j < A.cols then A.e i j else B.e i (j - A.cols)⟩

namespace Pepper

/-- `BASE_VEL_VARIABLES_ID`, `BODY_JERK_VARIABLES_ID`, common.h:17-18. -/
def baseVelId : String := "base_vel"
/-- See `baseVelId`. -/
def bodyJerkId : String := "body_pos"

/-- Ns_, two_point_mass_model.h. -/
def numStates : ℕ := 12

/-- The data which is computed by `updateMatrices`, mpc_mg.h:337-361, and the structure of the solution. -/
structure Matrices (K : Type) where
  solution : SolutionStructure
  R : BlockMat K
  S : Mat K
  s : Vec K
  sp : Vec K
  Ap : Mat K
  sas : Vec K
  Aas : Mat K
  sps : Vec K
  Aps : Mat K
  spd : Vec K
  Apd : Mat K
  sjs : Vec K
  Ajs : Mat K

/-- `Eigen::Matrix2d` as a matrix. -/
def ofMatrix2 (M : Matrix (Fin 2) (Fin 2) K) (dflt : K) : Mat K :=
  ⟨2, 2, fun i j => if h : i < 2 ∧ j < 2 then M ⟨i, h.1⟩ ⟨j, h.2⟩ else dflt⟩

section

variable [Field K]

/-- `formRotationMatrices`, mpc_mg.h:30-38; `getRotationMatrix`, preview_horizon.h. -/
def formRotationMatrices (intervals : List (Interval K)) : Res (BlockMat K) := do
  let R ← BlockMat.setZero ⟨2, 2, ⟨0, 0, fun _ _ => 0⟩⟩ intervals.length intervals.length
  forRange intervals.length R fun R i => do
    let iv ← vecAt intervals i
    R.setBlk i i (ofMatrix2 iv.rotation.transpose 0)

/-- Local variables of `updateMatrices`, mpc_mg.h:94-104. Simplification: the vectors grow, while in the code they have their
final size from the start and are assigned in the same order. -/
structure Systems (K : Type) where
  As : List (Mat K)
  Bs : List (Mat K)
  Ad : List (Mat K)
  Bd : List (Mat K)
  Djs : List (Mat K)
  Ejs : List (Mat K)
  Dps : BlockMat K
  Dpd : BlockMat K

/-- The body of the loop, mpc_mg.h:120-140. -/
def Systems.step (intervals : List (Interval K)) (y : Systems K) (i : ℕ) : Res (Systems K) := do
  let iv ← vecAt intervals i
  let as ← getAs3 iv.T
  let bs ← getBs3 iv.T
  let ad ← getAd3 iv.T
  let bd ← getBd3 iv.T
  let djs ← getDjs3 iv.T
  let Dps ← y.Dps.setBlk i i (getDps3 iv.base_height iv.base_mass iv.body_mass)
  let Dpd ← y.Dpd.setBlk i i (getDpd3 iv.body_height iv.base_mass iv.body_mass)
  pure ⟨y.As ++ [as], y.Bs ++ [bs], y.Ad ++ [ad], y.Bd ++ [bd], y.Djs ++ [djs], y.Ejs ++ [getEjs3 iv.T], Dps, Dpd⟩

/-- mpc_mg.h:93-140. -/
def systems (N : ℕ) (intervals : List (Interval K)) : Res (Systems K) := do
  let Dps ← BlockMat.setZero ⟨1, 3, ⟨0, 0, fun _ _ => 0⟩⟩ N N
  let Dpd ← BlockMat.setZero ⟨1, 3, ⟨0, 0, fun _ _ => 0⟩⟩ N N
  forRange N ⟨[], [], [], [], [], [], Dps, Dpd⟩ (Systems.step intervals)

/-- The solution structure, mpc_mg.h:83-85. -/
def solutionStructure (N : ℕ) : SolutionStructure := (SolutionStructure.empty.add baseVelId (N * 2)).add bodyJerkId (N * 2)

/-- `M.getBlockKroneckerProduct(2) * x` for blocks which are not 1x1 and without sparsity. -/
def kronVec (junk junk' : ℕ → K) (M : BlockMat K) (x : Vec K) : Res (Vec K) := do
  let X ← M.kron 2
  X.multiplyRightVec junk junk' x

/-- `S_`, mpc_mg.h:163-183. The interface of `S_` is constructed over the matrix from the previous update. -/
def updateS (junk : ℕ → ℕ → K) (oldS : Mat K) (states vars : ℕ) (Uus Uud : BlockMat K) : Res (Mat K) := do
  let S ← BlockMat.finalize ⟨states / 2, vars / 2, oldS⟩
  let S ← S.resize junk 2 2
  let X ← Uus.kron 2
  let E ← X.evaluateLLT
  let S ← S.setBlk 0 0 E
  let S ← S.setBlk 0 1 ⟨states / 2, vars / 2, fun _ _ => 0⟩
  let S ← S.setBlk 1 0 ⟨states / 2, vars / 2, fun _ _ => 0⟩
  let X ← Uud.kron 2
  let E ← X.evaluateLLT
  let S ← S.setBlk 1 1 E
  pure S.m

/-- `s_`, mpc_mg.h:186-188. -/
def updateVecS (junk : ℕ → ℕ → K) (states : ℕ) (Uxs Uxd : BlockMat K) (base body : Vec K) : Res (Vec K) := do
  let a ← kronVec (junk 0) (junk 1) Uxs base
  let b ← kronVec (junk 2) (junk 3) Uxd body
  require (a.n + b.n = states)
  pure (append a b)

/-- `GenericBlockKroneckerProduct<1,3>(D*U, 2) * x`, mpc_mg.h:193. -/
def outputVec (junk : ℕ → ℕ → ℕ → K) (D U : BlockMat K) (x : Vec K) : Res (Vec K) := do
  let P ← D.diagMultiplyRight (junk 0) U.m
  let X ← Kron.construct P 2 1 3
  X.multiplyRightVec (junk 1 0) (junk 2 0) x

/-- `sp_`, mpc_mg.h:193-195. -/
def updateSp (junk : ℕ → ℕ → ℕ → ℕ → K) (Dps Dpd Uxs Uxd : BlockMat K) (base body : Vec K) : Res (Vec K) := do
  let a ← outputVec (junk 0) Dps Uxs base
  let b ← outputVec (junk 1) Dpd Uxd body
  a.add b

/-- `LeftLowerTriangularBlockKroneckerProduct<1,1>(D*U, 2).evaluate(...)`, mpc_mg.h:203. -/
def outputMat (junk : ℕ → ℕ → K) (D U : BlockMat K) : Res (Mat K) := do
  let P ← D.diagMultiplyRight junk U.m
  let X ← Kron.construct P 2 1 1
  X.evaluate1LLT

/-- `Ap_`, mpc_mg.h:197-204: `leftCols`, `rightCols`. -/
def updateAp (junk : ℕ → ℕ → ℕ → K) (N vars : ℕ) (Dps Dpd Uus Uud : BlockMat K) : Res (Mat K) := do
  let Ap : Mat K := ⟨2 * N, vars, junk 0⟩
  let E ← outputMat (junk 1) Dps Uus
  let Ap ← Ap.setBlock 0 0 (2 * N) (vars / 2) E
  let E ← outputMat (junk 2) Dpd Uud
  Ap.setBlock 0 (vars - vars / 2) (2 * N) (vars / 2) E

/-- `Ux.selectRowInBlocks(row).getBlockKroneckerProduct(2) * x`, mpc_mg.h:217, 230, 245-247. -/
def rowVec (junk : ℕ → ℕ → K) (Ux : BlockMat K) (row : ℕ) (x : Vec K) : Res (Vec K) := do
  let M ← Ux.selectRowInBlocks row
  kronVec (junk 0) (junk 1) M x

/-- `Uu.selectRowInBlocks(row).getBlockKroneckerProduct(2).evaluate(A)`, mpc_mg.h:218, 231. -/
def rowMat (Uu : BlockMat K) (row : ℕ) : Res (Mat K) := do
  let M ← Uu.selectRowInBlocks row
  let X ← M.kron 2
  X.evaluate1LLT

/-- `spd_`, mpc_mg.h:244-247. -/
def updateSpd (junk : ℕ → ℕ → ℕ → K) (R Uxs Uxd : BlockMat K) (base body : Vec K) : Res (Vec K) := do
  let a ← rowVec (junk 0) Uxs 0 base
  let b ← rowVec (junk 1) Uxd 0 body
  let d ← a.sub b
  let r ← R.diagMultiplyRight (junk 2) d.toMat
  r.toVec

/-- `R_ * Uu.selectRowInBlocks(0).getBlockKroneckerProduct(2)`, mpc_mg.h:249-250: `operator*`, blockmatrix_kronecker.h:1098-1110,
with an empty result. -/
def rotatedMat (R Uu : BlockMat K) : Res (Mat K) := do
  let M ← Uu.selectRowInBlocks 0
  let X ← M.kron 2
  X.multiplyLeft1LLT ⟨0, 0, fun _ _ => 0⟩ R

/-- `Apd_`, mpc_mg.h:248-250. -/
def updateApd (N vars : ℕ) (R Uus Uud : BlockMat K) : Res (Mat K) := do
  let a ← rotatedMat R Uus
  let b ← rotatedMat R Uud
  Mat.commaHor (2 * N) vars a b.neg

/-- `updateMatrices`, mpc_mg.h:80-263; `oldS` is the matrix `S_` before the call. -/
def updateMatrices (junk : ℕ → ℕ → ℕ → ℕ → K) (N : ℕ) (intervals : List (Interval K)) (oldS : Mat K) (model : Model K) :
    Res (Matrices K) := do
  let sol := solutionStructure N
  let R ← formRotationMatrices intervals
  let y ← systems N intervals
  let (Uxs, Uus) ← condense (junk 0 0) ⟨3, 3, ⟨0, 0, fun _ _ => 0⟩⟩ ⟨3, 1, ⟨0, 0, fun _ _ => 0⟩⟩ y.As y.Bs
  let (Uxd, Uud) ← condense (junk 0 1) ⟨3, 3, ⟨0, 0, fun _ _ => 0⟩⟩ ⟨3, 1, ⟨0, 0, fun _ _ => 0⟩⟩ y.Ad y.Bd
  let (Ojxs, Ojus) ← condenseOutput (junk 0 2) ⟨1, 3, ⟨0, 0, fun _ _ => 0⟩⟩ ⟨1, 1, ⟨0, 0, fun _ _ => 0⟩⟩ y.Djs y.Ejs Uxs Uus
  let base := Model.getMPCBaseState model.state
  let body := Model.getMPCBodyState model.state
  let states := numStates * N
  let S ← updateS (junk 0 3) oldS states sol.nvars Uus Uud
  let s ← updateVecS (junk 0 4) states Uxs Uxd base body
  let sp ← updateSp (fun k => junk (k + 1)) y.Dps y.Dpd Uxs Uxd base body
  let Ap ← updateAp (junk 3) N sol.nvars y.Dps y.Dpd Uus Uud
  let sas ← rowVec (junk 4 0) Uxs 2 base
  let Aas ← rowMat Uus 2
  let sps ← rowVec (junk 4 1) Uxs 0 base
  let Aps ← rowMat Uus 0
  let spd ← updateSpd (junk 5) R Uxs Uxd base body
  let Apd ← updateApd N sol.nvars R Uus Uud
  let sjs ← kronVec (junk 6 0 0) (junk 6 0 1) Ojxs base
  let X ← Ojus.kron 2
  let Ajs ← X.evaluate1LLT
  pure ⟨sol, R, S, s, sp, Ap, sas, Aas, sps, Aps, spd, Apd, sjs, Ajs⟩

end

/-! ## The problem -/

/-- `ControlProblemStatus::Status`, core/include/humoto/control_problem.h:19-27. -/
inductive Status
  | ok
  | stopped
  deriving DecidableEq

/-- `MPCforMG`, mpc_mg.h:20-24, 331-373. -/
structure Mpc (K : Type) where
  solution_is_parsed : Bool
  intervals : List (Interval K)
  matrices : Matrices K
  cstate_profile : Vec K
  cop_profile : Vec K
  base_jerk_profile : Vec K
  base_controls : Vec K
  body_controls : Vec K
  parameters : MPCParameters

namespace Mpc

section

/-- An empty matrix. -/
def noMat [Zero K] : Mat K := ⟨0, 0, fun _ _ => 0⟩

/-- An empty vector. -/
def noVec [Zero K] : Vec K := ⟨0, fun _ => 0⟩

/-- Constructor, mpc_mg.h:391-395. -/
def make [Zero K] (p : MPCParameters) : Mpc K where
  solution_is_parsed := false
  intervals := []
  matrices := ⟨.empty, ⟨2, 2, noMat⟩, noMat, noVec, noVec, noMat, noVec, noMat, noVec, noMat, noVec, noMat, noVec, noMat⟩
  cstate_profile := noVec
  cop_profile := noVec
  base_jerk_profile := noVec
  base_controls := noVec
  body_controls := noVec
  parameters := p

/-- `setParameters`, mpc_mg.h:403-406. -/
def setParameters (c : Mpc K) (p : MPCParameters) : Mpc K := { c with parameters := p }

end

variable [Field K]

/-- `update`, mpc_mg.h:419-440; `form` is `preview_horizon_.form(mpc_parameters_, model, motion_parameters)`. The object after an
exception is not modelled. -/
def updateWith (junk : ℕ → ℕ → ℕ → ℕ → K) (form : List (Interval K) → Res (Bool × List (Interval K))) (model : Model K)
    (c : Mpc K) : Res (Mpc K × Status) := do
  let c := { c with solution_is_parsed := false }
  let r ← form c.intervals
  let c := { c with intervals := r.2 }
  if r.1 then do
    let m ← updateMatrices junk c.parameters.preview_horizon_length c.intervals c.matrices.S model
    pure ({ c with matrices := m }, .ok)
  else pure (c, .stopped)

/-- `update` with `MotionParameters`. -/
def update (junk : ℕ → ℕ → ℕ → ℕ → K) (tr : Trig K) (dflt : Interval K) (m : MotionParameters K) (model : Model K)
    (c : Mpc K) : Res (Mpc K × Status) :=
  c.updateWith junk (fun old => formSingle tr dflt old c.parameters model m) model

/-- `update` with `std::deque<MotionParameters>`. -/
def updateQueue (junk : ℕ → ℕ → ℕ → ℕ → K) (tr : Trig K) (dflt : Interval K) (q : List (MotionParameters K)) (model : Model K)
    (c : Mpc K) : Res (Mpc K × Status) :=
  c.updateWith junk (fun old => formQueue tr dflt old c.parameters model q) model

/-- `updateAndShift`, mpc_mg.h:537-550, with `MotionParameters`. -/
def updateAndShift (junk : ℕ → ℕ → ℕ → ℕ → K) (tr : Trig K) (dflt : Interval K) (m : MotionParameters K) (model : Model K)
    (t : ℤ) (c : Mpc K) : Res (Mpc K × Status × MotionParameters K) := do
  let r ← c.update junk tr dflt m model
  if r.2 = .ok then pure (r.1, r.2, shiftSingle r.1.parameters m t) else pure (r.1, r.2, m)

/-- `updateAndShift`, mpc_mg.h:537-550, with `std::deque<MotionParameters>`. -/
def updateAndShiftQueue (junk : ℕ → ℕ → ℕ → ℕ → K) (tr : Trig K) (dflt : Interval K) (q : List (MotionParameters K))
    (model : Model K) (t : ℤ) (c : Mpc K) : Res (Mpc K × Status × List (MotionParameters K)) := do
  let r ← c.updateQueue junk tr dflt q model
  if r.2 = .ok then pure (r.1, r.2, shiftQueue r.1.parameters q t) else pure (r.1, r.2, q)

/-- `A * x + b`. -/
def mulAdd (A : Mat K) (x b : Vec K) : Res (Vec K) := do
  let y ← A.mulVec x
  y.add b

/-- `parseSolution`, mpc_mg.h:559-570. -/
def parseSolution (c : Mpc K) (sol : Solution K) : Res (Mpc K) := do
  let x := Vec.ofList sol.x
  let cstate ← mulAdd c.matrices.S x c.matrices.s
  let cop ← mulAdd c.matrices.Ap x c.matrices.sp
  let head ← Kron.segment x 0 (c.matrices.solution.nvars / 2)
  let jerk ← mulAdd c.matrices.Ajs head c.matrices.sjs
  let base ← sol.getPart baseVelId
  let body ← sol.getPart bodyJerkId
  pure { c with
    cstate_profile := cstate
    cop_profile := cop
    base_jerk_profile := jerk
    base_controls := Vec.ofList base
    body_controls := Vec.ofList body
    solution_is_parsed := true }

variable [LinearOrder K]

/-- `initializeNextModelState`, mpc_mg.h:49-72. -/
def initializeNextModelState (c : Mpc K) (model : Model K) : Res (ModelState K) := do
  let iv ← vecAt c.intervals 0
  let b ← Kron.segment c.base_controls 0 2
  let d ← Kron.segment c.body_controls 0 2
  model.getNextState .default iv.T iv.T b d iv.base_height iv.body_height iv.theta

/-- `getNextModelState(solution, model)`, mpc_mg.h:581-588. -/
def parseAndGetNextModelState (c : Mpc K) (sol : Solution K) (model : Model K) : Res (Mpc K × ModelState K) := do
  assertThat (c.solution_is_parsed = false)
  let c ← c.parseSolution sol
  let s ← c.initializeNextModelState model
  pure (c, s)

/-- `getNextModelState(model)`, mpc_mg.h:598-603. -/
def getNextModelState (c : Mpc K) (model : Model K) : Res (ModelState K) := do
  assertThat (c.solution_is_parsed = true)
  c.initializeNextModelState model

/-- `theta_prev`, mpc_mg.h:282-290. -/
def previousTheta (c : Mpc K) (model : Model K) (i : ℕ) : Res K :=
  if i = 0 then pure (Model.getTheta model.state)
  else do
    let iv ← vecAt c.intervals (i - 1)
    pure iv.theta

/-- `preceding_cstate`, mpc_mg.h:301-310. -/
def precedingState (c : Mpc K) (model : Model K) (i : ℕ) : Res (Vec K) :=
  if i = 0 then pure model.getMPCState
  else do
    let a ← Kron.segment c.cstate_profile ((i - 1) * numStates / 2) (numStates / 2)
    let b ← Kron.segment c.cstate_profile
      (c.parameters.preview_horizon_length * numStates / 2 + (i - 1) * numStates / 2) (numStates / 2)
    pure (append a b)

/-- `getModelState(model, interval_index, interval_offset)`, mpc_mg.h:275-328. The controls of the interval are extracted
(hence the index must be in range), but not used. -/
def modelStateAt (c : Mpc K) (model : Model K) (i : ℕ) (offset : K) : Res (ModelState K) := do
  let iv ← vecAt c.intervals i
  let prev ← c.previousTheta model i
  let theta := prev + (iv.theta - prev) * offset / iv.T
  let preceding ← c.precedingState model i
  let _ ← Kron.segment c.base_controls (i * 2) 2
  let _ ← Kron.segment c.body_controls (i * 2) 2
  let b ← Kron.segment c.base_controls 0 2
  let d ← Kron.segment c.body_controls 0 2
  Model.getNextStateFrom .default iv.T offset preceding b d iv.base_height iv.body_height theta

/-- `getModelState(model, time_instant_ms)`, mpc_mg.h:659-669. -/
def getModelStateMs (c : Mpc K) (model : Model K) (ms : ℕ) : Res (ModelState K) := do
  assertThat (c.solution_is_parsed = true)
  let r ← intervalByOffsetMs 0 c.intervals ms
  c.modelStateAt model r.1 (convertMillisecondToSecond r.2)

/-- `getModelState(model, time_instant)`, mpc_mg.h:680-690. -/
def getModelState (c : Mpc K) (model : Model K) (t : K) : Res (ModelState K) := do
  assertThat (c.solution_is_parsed = true)
  let r ← intervalByOffset 0 c.intervals t
  c.modelStateAt model r.1 r.2

end Mpc

/-! ## Guess of the solution -/

/-- `length_ -= 2` for `std::size_t`. -/
def minusTwo (n : ℕ) : ℕ := if 2 ≤ n then n - 2 else n + 2 ^ 64 - 2

/-- mpc_mg.h:624-633 and 637-645: one part of the solution. The sizes of the two sides of the assignment are not checked. -/
def guessPart (guess old : Solution K) (id : String) : Res (Solution K) := do
  let oldPart := old.structure_.location id
  let guessPart := guess.structure_.location id
  let v ← old.getData ⟨oldPart.offset + 2, minusTwo oldPart.length⟩
  assertThat (Location.checkLength ⟨guessPart.offset, minusTwo guessPart.length⟩ guess.x.length = true)
  require (v.length = minusTwo guessPart.length)
  guess.setData ⟨guessPart.offset, minusTwo guessPart.length⟩ v

/-- `guessSolution`, mpc_mg.h:613-647; `guess` is the object which is passed. -/
def Mpc.guessSolution [Zero K] (c : Mpc K) (guess old : Solution K) : Res (Solution K) := do
  let g := guess.initializeValue c.matrices.solution 0
  if old.structure_.isNonEmpty = true ∧ old.structure_.nvars ≠ 0 then do
    let g ← guessPart g old baseVelId
    guessPart g old bodyJerkId
  else pure g

end Pepper

end Humoto
