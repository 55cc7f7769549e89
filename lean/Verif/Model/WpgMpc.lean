import Verif.Model.PepperMpc
import Verif.Model.WpgHorizon

/-!
# Walking pattern generator: the model predictive control problem

modules/wpg04/include/wpg04/mpc_wpg.h. Entries of matrices which are not initialised are given by `junk k`, where `k` is the number
of the allocation. Matrices with one column are vectors. Logging and `velocity_selector_` are not modelled.
-/

namespace Humoto.Wpg

open Pepper (Status ofMatrix2 kronVec minusTwo)
open Pepper.Mpc (mulAdd noMat noVec)

/-- `COP_VARIABLES_ID`, common.h:17. -/
def copId : String := "CoP"
/-- `FOOTPOS_VARIABLES_ID`, common.h:18. -/
def footposId : String := "footpos"

/-- Vector of fixed size. -/
def ofFin {n : ℕ} (v : Fin n → ℝ) : Vec ℝ := ⟨n, fun i => if h : i < n then v ⟨i, h⟩ else 0⟩

/-- Matrix of fixed size. -/
def ofMatrix {n m : ℕ} (A : Matrix (Fin n) (Fin m) ℝ) : Mat ℝ :=
  ⟨n, m, fun i j => if h : i < n ∧ j < m then A ⟨i, h.1⟩ ⟨j, h.2⟩ else 0⟩

/-- Column of fixed size. -/
def column {n : ℕ} (v : Fin n → ℝ) : Mat ℝ := ofMatrix fun i (_ : Fin 1) => v i

/-- Row of fixed size. -/
def row {n : ℕ} (v : Fin n → ℝ) : Mat ℝ := ofMatrix fun (_ : Fin 1) j => v j

/-- `v.segment(off, n)` assigned to a vector of fixed size. -/
def fixedSegment (v : Vec ℝ) (off n : ℕ) : Res (Fin n → ℝ) := do
  let g ← Kron.segment v off n
  pure fun i => g.e i

/-- `v.replicate(n, 1)` for a vector with two entries. -/
def replicate2 (v : Fin 2 → ℝ) (n : ℕ) : Vec ℝ := ⟨n * 2, fun i => v ⟨i % 2, Nat.mod_lt _ (by decide)⟩⟩

/-- The first loop of `formRotationMatrices`, mpc_wpg.h:37-46. When there are no states, `size() - 1` wraps, and the first element is
read. -/
def formR (H : Horizon) : Res (BlockMat ℝ) := do
  let R ← BlockMat.setZero ⟨2, 2, noMat⟩ H.getNumberOfVariableSteps H.getNumberOfVariableSteps
  require (H.walk_states ≠ [])
  let y ← forRange (H.walk_states.length - 1) (R, 0) fun y i => do
    let s ← nth H.walk_states i
    if s.stance.type ≠ .tds then do
      let R ← y.1.setBlk y.2 y.2 (ofMatrix2 s.rotation 0)
      pure (R, y.2 + 1)
    else pure y
  pure y.1

/-- The second loop of `formRotationMatrices`, mpc_wpg.h:35, 49-52. -/
def formRh (H : Horizon) : Res (BlockMat ℝ) := do
  let R ← BlockMat.setZero ⟨2, 2, noMat⟩ H.intervals.n H.intervals.n
  forRange H.intervals.n R fun R i => do
    let r ← H.getRotationMatrix i
    R.setBlk i i (ofMatrix2 r 0)

/-- `Ir_`, mpc_wpg.h:67-73. -/
def formIr (H : Horizon) : Res (Mat ℝ) :=
  forRange H.variable_steps.length ⟨H.intervals.n, H.getNumberOfVariableSteps, fun _ _ => 0⟩ fun I i => do
    let k ← nth H.variable_steps i
    require (k ≤ H.intervals.n)
    I.setBlock k i (H.intervals.n - k) 1 ⟨H.intervals.n - k, 1, fun _ _ => 1⟩

/-- `Identity().replicate(n, n).triangularView<Lower>()`, mpc_wpg.h:79-81. -/
def lowerIdentities (n : ℕ) : Mat ℝ := ⟨n * 2, n * 2, fun i j => if j ≤ i ∧ i % 2 = j % 2 then 1 else 0⟩

/-- The matrices, mpc_wpg.h:233-248, and the structure of the solution. -/
structure Matrices where
  solution : SolutionStructure
  R : BlockMat ℝ
  Rh : BlockMat ℝ
  Ir : Mat ℝ
  V : Mat ℝ
  V0 : Vec ℝ
  Vfp : Mat ℝ
  vfp : Vec ℝ
  S : Mat ℝ
  s : Vec ℝ
  Sdz : Mat ℝ
  sdz : Vec ℝ

/-- `V_ = GenericBlockKroneckerProduct<1,1>(Ir_, 2) * R_`, mpc_wpg.h:75-77. -/
noncomputable def formV (junk : ℕ → ℕ → ℝ) (Ir : Mat ℝ) (R : BlockMat ℝ) : Res (Mat ℝ) := do
  let X ← Kron.construct Ir 2 1 1
  X.multiplyRight1 noMat junk R

/-- The matrices for the systems of one axis, mpc_wpg.h:327-349. -/
structure Systems where
  A : List (Mat ℝ)
  B : List (Mat ℝ)
  D : List (Mat ℝ)
  E : List (Mat ℝ)

/-- The loop over the intervals, mpc_wpg.h:339-349. Simplification: the vectors grow, while in the code they have their final size from
the start and are assigned in the same order. -/
noncomputable def systems (N : ℕ) (H : Horizon) : Res Systems :=
  forRange N ⟨[], [], [], []⟩ fun y i => do
    let iv ← H.intervals.get i
    pure ⟨y.A ++ [ofMatrix (PointMass6z.getA3 iv.T iv.omega)], y.B ++ [column (PointMass6z.getB3 iv.T iv.omega)],
      y.D ++ [row (PointMass6z.getD3 iv.T iv.omega)], y.E ++ [⟨1, 1, fun _ _ => PointMass6z.getE3 iv.T⟩]⟩

/-- `U.getRaw().rowwise().sum()`, mpc_wpg.h:364-365. -/
noncomputable def rowSum (U : Mat ℝ) : Mat ℝ := ⟨U.rows, 1, fun i _ => ∑ j ∈ Finset.range U.cols, U.e i j⟩

/-- `Ou * Ir_`, mpc_wpg.h:362: the product of a left lower triangular matrix with blocks 1x1, blockmatrix_base.h:1129-1137. Only
the lower triangle is used. -/
noncomputable def multiplyLower (U : BlockMat ℝ) (A : Mat ℝ) : Res (Mat ℝ) := do
  assertThat (A.rows = U.m.cols)
  (⟨U.m.rows, U.m.cols, fun i j => if j ≤ i then U.m.e i j else 0⟩ : Mat ℝ).mul A

/-- `S_`, mpc_wpg.h:361, 369-371. -/
noncomputable def updateS (junk : ℕ → ℕ → ℝ) (junkI : ℕ → ℕ → ℕ) (states vars : ℕ) (Uu Rh R : BlockMat ℝ) (Ir : Mat ℝ) :
    Res (Mat ℝ) := do
  let P ← Uu.m.mul Ir
  let UuIr ← BlockMat.finalize ⟨3, 1, P⟩
  let X ← Uu.kron 2
  let a ← X.multiplyRightLLT (junkI 0) Rh
  let Y ← UuIr.kron 2
  let b ← Y.multiplyRight junk (junkI 1) R
  Mat.commaHor states vars a b

/-- `s_`, mpc_wpg.h:364, 373-374. -/
noncomputable def updateVecS (junk : ℕ → ℕ → ℝ) (Ux Uu : BlockMat ℝ) (support : Fin 2 → ℝ) (c : Fin 6 → ℝ) : Res (Vec ℝ) := do
  let Uu1n ← BlockMat.finalize ⟨3, 1, rowSum Uu.m⟩
  let a ← kronVec (junk 0) (junk 1) Uu1n (ofFin support)
  let b ← kronVec (junk 2) (junk 3) Ux (ofFin c)
  a.add b

/-- `Sdz_`, mpc_wpg.h:362, 378-380. -/
noncomputable def updateSdz (junk : ℕ → ℕ → ℝ) (N vars : ℕ) (Ou Rh R : BlockMat ℝ) (Ir : Mat ℝ) : Res (Mat ℝ) := do
  let P ← multiplyLower Ou Ir
  let OuIr ← BlockMat.finalize ⟨1, 1, P⟩
  let X ← Ou.kron 2
  let a ← X.multiplyRight1LLT noMat Rh
  let Y ← OuIr.kron 2
  let b ← Y.multiplyRight1 noMat junk R
  Mat.commaHor (2 * N) vars a b

/-- `sdz_`, mpc_wpg.h:365, 381-382. -/
noncomputable def updateVecSdz (junk : ℕ → ℕ → ℝ) (Ox Ou : BlockMat ℝ) (support : Fin 2 → ℝ) (c : Fin 6 → ℝ) : Res (Vec ℝ) := do
  let Ou1n ← BlockMat.finalize ⟨1, 1, rowSum Ou.m⟩
  let X ← Ou1n.kron 2
  let a ← X.multiplyRightVec1 (ofFin support)
  let b ← kronVec (junk 0) (junk 1) Ox (ofFin c)
  a.add b

/-- The structure of the solution, mpc_wpg.h:314-316. -/
def solutionStructure (N steps : ℕ) : SolutionStructure := (SolutionStructure.empty.add copId (N * 2)).add footposId (steps * 2)

/-- The matrices which are computed by `update`, mpc_wpg.h:313-382, with `formRotationMatrices`, mpc_wpg.h:32-53, and
`formFootPosMatrices`, mpc_wpg.h:61-84. -/
noncomputable def updateMatrices (junk : ℕ → ℕ → ℕ → ℕ → ℝ) (junkI : ℕ → ℕ → ℕ) (N : ℕ) (H : Horizon) (model : Model) :
    Res Matrices := do
  let sol := solutionStructure N H.getNumberOfVariableSteps
  let R ← formR H
  let Rh ← formRh H
  let V0 := replicate2 model.current_support_position H.intervals.n
  let Ir ← formIr H
  let V ← formV (junk 0 0) Ir R
  let Vfp ← (lowerIdentities H.getNumberOfVariableSteps).mul R.m
  let vfp := replicate2 model.current_support_position H.getNumberOfVariableSteps
  let y ← systems N H
  let (Ux, Uu) ← condense (junk 0 1) ⟨3, 3, noMat⟩ ⟨3, 1, noMat⟩ y.A y.B
  let (Ox, Ou) ← condenseOutput (junk 0 2) ⟨1, 3, noMat⟩ ⟨1, 1, noMat⟩ y.D y.E Ux Uu
  let S ← updateS (junk 0 3) junkI (6 * N) sol.nvars Uu Rh R Ir
  let s ← updateVecS (junk 0 4) Ux Uu model.current_support_position model.getCState
  let Sdz ← updateSdz (junk 0 5) N sol.nvars Ou Rh R Ir
  let sdz ← updateVecSdz (junk 0 6) Ox Ou model.current_support_position model.getCState
  pure ⟨sol, R, Rh, Ir, V, V0, Vfp, vfp, S, s, Sdz, sdz⟩

/-- `MPCforWPG`, mpc_wpg.h:24-25, 230-254. -/
structure Mpc where
  solution_is_parsed : Bool
  parameters : MPCParameters
  horizon : Horizon
  matrices : Matrices
  cop_profile : Vec ℝ
  dcop_profile : Vec ℝ
  cstate_profile : Vec ℝ
  footpos_profile : Vec ℝ

namespace Mpc

/-- Constructor, mpc_wpg.h:272-277. -/
def make (p : MPCParameters) : Mpc where
  solution_is_parsed := false
  parameters := p
  horizon := ⟨[], ⟨0, fun _ => ⟨0, 0, 0, 0, 0, 0⟩⟩, []⟩
  matrices := ⟨.empty, ⟨2, 2, noMat⟩, ⟨2, 2, noMat⟩, noMat, noMat, noVec, noMat, noVec, noMat, noVec, noMat, noVec⟩
  cop_profile := noVec
  dcop_profile := noVec
  cstate_profile := noVec
  footpos_profile := noVec

/-- `setParameters`, mpc_wpg.h:285-288. -/
def setParameters (c : Mpc) (p : MPCParameters) : Mpc := { c with parameters := p }

/-- `update`, mpc_wpg.h:300-392, with the outcome of `preview_horizon_.form`. The object after an exception is not modelled. -/
noncomputable def updateWith (junk : ℕ → ℕ → ℕ → ℕ → ℝ) (junkI : ℕ → ℕ → ℕ) (form : Res (Bool × Horizon)) (model : Model)
    (c : Mpc) : Res (Mpc × Status) := do
  let c := { c with solution_is_parsed := false }
  let r ← form
  let c := { c with horizon := r.2 }
  if r.1 then do
    let m ← updateMatrices junk junkI c.parameters.preview_horizon_length c.horizon model
    pure ({ c with matrices := m }, .ok)
  else pure (c, .stopped)

/-- `update`, mpc_wpg.h:300-392. `none`: the preview of the stances is still running after `fuel` iterations. -/
noncomputable def update (fuel : ℕ) (nan : ℝ) (junkH : ℕ → Interval) (junk : ℕ → ℕ → ℕ → ℕ → ℝ) (junkI : ℕ → ℕ → ℕ) (model : Model)
    (f : FSM) (w : WalkParameters) (c : Mpc) : Option (Res (Mpc × Status)) :=
  (form fuel nan junkH c.horizon c.parameters model f w).map fun r => c.updateWith junk junkI r model

/-- `parseSolution`, mpc_wpg.h:400-419. -/
noncomputable def parseSolution (junk : ℕ → ℕ → ℝ) (c : Mpc) (sol : Solution ℝ) : Res Mpc := do
  let cop ← sol.getPart copId
  let footpos ← sol.getPart footposId
  let x := Vec.ofList (cop ++ footpos)
  let r ← c.matrices.Rh.diagMultiplyRight junk (Vec.ofList cop).toMat
  let r ← r.toVec
  let v ← c.matrices.V.mulVec (Vec.ofList footpos)
  let z ← r.add v
  let z ← z.add c.matrices.V0
  let dcop ← mulAdd c.matrices.Sdz x c.matrices.sdz
  let cstate ← mulAdd c.matrices.S x c.matrices.s
  let p ← mulAdd c.matrices.Vfp (Vec.ofList footpos) c.matrices.vfp
  pure { c with cop_profile := z, dcop_profile := dcop, cstate_profile := cstate, footpos_profile := p, solution_is_parsed := true }

/-- `position_xy`, mpc_wpg.h:195-219. -/
noncomputable def landingPosition (c : Mpc) (model : Model) (landing : LeftOrRight) (s : WalkState) : Res (Fin 2 → ℝ) :=
  match s.stance.type with
  | .rss | .lss => fixedSegment c.footpos_profile 0 2
  | .ds =>
    if model.state.stance_type = .rss ∨ model.state.stance_type = .lss then do
      let p ← fixedSegment c.footpos_profile 0 2
      model.params.getFootPositionFromADS landing s.rotation p
    else .error .thrown
  | _ => .error .thrown

/-- The private `getFootLandingState`, mpc_wpg.h:181-225. -/
noncomputable def landingState (c : Mpc) (model : Model) (landing : LeftOrRight) : Res (RigidBodyState ℝ) := do
  let k ← nth c.horizon.variable_steps 0
  let s ← c.horizon.getWalkState k
  let support ← landing.invert
  let xy ← c.landingPosition model landing s
  let foot ← model.getFootState support
  pure ⟨![xy 0, xy 1, foot.position 2], 0, 0, ![0, 0, s.theta], 0, 0⟩

/-- `unset`, core/include/humoto/rigid_body_state.h: all coefficients are NaN. -/
def unset (nan : ℝ) : RigidBodyState ℝ := ⟨fun _ => nan, fun _ => nan, fun _ => nan, fun _ => nan, fun _ => nan, fun _ => nan⟩

/-- The foot which lands at the end of a single support, mpc_wpg.h:134-145. -/
def landingFoot : StanceType → Res LeftOrRight
  | .lss => .ok .right
  | .rss => .ok .left
  | _ => .error .thrown

/-- The states of the feet, mpc_wpg.h:117-166. They are assigned to the feet of a state constructed by default: all of them are
overwritten. -/
noncomputable def nextFeet (nan : ℝ) (c : Mpc) (f : FSM) (model : Model) : Res Feet :=
  match f.cur.type with
  | .lss => do
    let l ← model.getFootState .left
    pure ⟨l, unset nan⟩
  | .rss => do
    let r ← model.getFootState .right
    pure ⟨unset nan, r⟩
  | .tds =>
    if f.tdsStarted ∧ model.state.stance_type ≠ .ds then do
      let landing ← landingFoot model.state.stance_type
      let support ← landing.invert
      let a ← c.landingState model landing
      let feet ← Feet.put ⟨unset nan, unset nan⟩ a landing
      let b ← model.getFootState support
      feet.put b support
    else do
      let l ← model.getFootState .left
      let r ← model.getFootState .right
      pure ⟨l, r⟩
  | .ds => do
    let l ← model.getFootState .left
    let r ← model.getFootState .right
    pure ⟨l, r⟩
  | .undefined => .error .thrown

/-- `initializeNextModelState`, mpc_wpg.h:95-170. -/
noncomputable def initializeNextModelState (nan : ℝ) (c : Mpc) (f : FSM) (model : Model) : Res ModelState := do
  let iv ← c.horizon.intervals.get 0
  let z ← fixedSegment c.cop_profile 0 2
  let com := PointMass6z.evaluate c.parameters.getSubsamplingTime iv.T iv.com_height model.getCState z
  let next ← f.getNextStance
  let feet ← c.nextFeet nan f model
  pure ⟨com, feet, f.cur.type, next.type⟩

/-- `getNextModelState(solution, stance_fsm, model)`, mpc_wpg.h:431-439. -/
noncomputable def parseAndGetNextModelState (nan : ℝ) (junk : ℕ → ℕ → ℝ) (c : Mpc) (sol : Solution ℝ) (f : FSM) (model : Model) :
    Res (Mpc × ModelState) := do
  assertThat (c.solution_is_parsed = false)
  let c ← c.parseSolution junk sol
  let s ← c.initializeNextModelState nan f model
  pure (c, s)

/-- `getNextModelState(stance_fsm, model)`, mpc_wpg.h:450-456. -/
noncomputable def getNextModelState (nan : ℝ) (c : Mpc) (f : FSM) (model : Model) : Res ModelState := do
  assertThat (c.solution_is_parsed = true)
  c.initializeNextModelState nan f model

/-- The public `getFootLandingState`, mpc_wpg.h:467-492. -/
noncomputable def getFootLandingState (c : Mpc) (model : Model) : Res (RigidBodyState ℝ) := do
  assertThat (c.solution_is_parsed = true)
  assertThat (model.state.stance_type = .rss ∨ model.state.stance_type = .lss)
  let landing ← landingFoot model.state.stance_type
  c.landingState model landing

/-- `guess.getData(guess_part) = old.getData(old_part)`: the sizes of the two sides are not checked. -/
def copyData (guess old : Solution ℝ) (guessPart oldPart : Location) : Res (Solution ℝ) := do
  let v ← old.getData oldPart
  assertThat (Location.checkLength guessPart guess.x.length = true)
  require (v.length = guessPart.length)
  guess.setData guessPart v

/-- mpc_wpg.h:522-542. -/
def guessFootpos (guess old : Solution ℝ) : Res (Solution ℝ) :=
  let oldPart := old.structure_.location footposId
  let guessPart := guess.structure_.location footposId
  if oldPart.length = guessPart.length then copyData guess old guessPart oldPart
  else if oldPart.length > guessPart.length then copyData guess old guessPart ⟨oldPart.offset + 2, minusTwo oldPart.length⟩
  else copyData guess old ⟨guessPart.offset, minusTwo guessPart.length⟩ oldPart

/-- `guessSolution`, mpc_wpg.h:502-544; `guess` is the object which is passed. -/
def guessSolution (c : Mpc) (guess old : Solution ℝ) : Res (Solution ℝ) := do
  let g := guess.initializeValue c.matrices.solution 0
  if old.structure_.isNonEmpty = true ∧ old.structure_.nvars ≠ 0 then do
    let oldPart := old.structure_.location copId
    let guessPart := g.structure_.location copId
    let g ← copyData g old ⟨guessPart.offset, minusTwo guessPart.length⟩ ⟨oldPart.offset + 2, minusTwo oldPart.length⟩
    guessFootpos g old
  else pure g

/-- The loop of `getCoMState`, mpc_wpg.h:564-579: the interval and the time since its beginning; `left` intervals are not visited. -/
def findInterval (v : Vec Interval) : (left i ms : ℕ) → Res (ℕ × ℕ)
  | 0, _, _ => .error .thrown
  | left + 1, i, ms =>
    if ms > (v.e i).T_ms then findInterval v left (i + 1) (ms - (v.e i).T_ms) else .ok (i, ms)

/-- `getCoMState`, mpc_wpg.h:555-605. -/
noncomputable def getCoMState (c : Mpc) (model : Model) (ms : ℕ) : Res (PointMassState ℝ) := do
  assertThat (c.solution_is_parsed = true)
  let r ← findInterval c.horizon.intervals c.horizon.intervals.n 0 ms
  let iv ← c.horizon.intervals.get r.1
  let preceding ← (if r.1 = 0 then pure model.getCState else fixedSegment c.cstate_profile ((r.1 - 1) * 6) 6 : Res (Fin 6 → ℝ))
  let control ← fixedSegment c.cop_profile (r.1 * 2) 2
  pure (PointMass6z.evaluate (seconds r.2) (seconds iv.T_ms) iv.com_height preceding control)

end Mpc

end Humoto.Wpg
