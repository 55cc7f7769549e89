import Verif.Model.Eigentools
import Verif.Model.TaskGeneric
import Verif.Model.WpgMpc

/-!
# Walking pattern generator: the tasks

modules/wpg04/include/wpg04/task_*.h. The tasks see the structure of the solution, the model and the controller; the dynamic casts to
the classes of this module succeed. Gains are parameters, as in the constructors.
-/

namespace Humoto.Wpg

/-- Arguments of `form` and `guessActiveSet`: `sol_structure`, `model_base`, `control_problem`. The structure belongs to the solution,
which is initialised from the control problem, control_problem.h:64-69. -/
structure TaskEnv where
  structure_ : SolutionStructure
  model : Model
  mpc : Mpc

/-- The environment of the tasks when a problem is formed, hierarchy.h:39-54. -/
def TaskEnv.of (model : Model) (mpc : Mpc) : TaskEnv := ⟨mpc.matrices.solution, model, mpc⟩

/-- `velocity_selector_`, mpc_wpg.h:245, 261, 273. -/
def velocitySelector : SelectionMatrix := ⟨3, 1⟩

/-- `getDcpv6`, core/include/walking/point_mass_model_6z.h:314-325. -/
noncomputable def getDcpv6 (omega : ℝ) : Matrix (Fin 2) (Fin 6) ℝ :=
  !![0, 1, 1 / omega, 0, 0, 0;
     0, 0, 0, 0, 1, 1 / omega]

/-- `v.segment(off, 2) = column` for a matrix of two columns. -/
def setColumn (v : Vec ℝ) (off : ℕ) (B : Matrix (Fin 2) (Fin 2) ℝ) (c : Fin 2) : Res (Vec ℝ) :=
  v.setSegment off 2 (ofFin fun i => B i c)

/-- Indices and bounds of a constraint. -/
structure SimpleBounds where
  idx : Vec ℕ
  lb : Vec ℝ
  ub : Vec ℝ

/-- The calls of `resize` in task_footstepbounds.h:63-65 and task_copbounds.h:54-56: the entries are not initialised. -/
def SimpleBounds.resized (junk : ℕ → ℕ → ℝ) (junkI : ℕ → ℕ) (n : ℕ) : SimpleBounds := ⟨⟨n, junkI⟩, ⟨n, junk 0⟩, ⟨n, junk 1⟩⟩

/-- Assignment of the indices and of the bounds of a pair of variables, task_footstepbounds.h:69-73, task_copbounds.h:61-65. -/
def SimpleBounds.assign (y : SimpleBounds) (offset i : ℕ) (B : Matrix (Fin 2) (Fin 2) ℝ) : Res SimpleBounds := do
  let idx ← y.idx.set (i * 2) (offset + i * 2)
  let idx ← idx.set (i * 2 + 1) (offset + i * 2 + 1)
  let lb ← setColumn y.lb (i * 2) B 0
  let ub ← setColumn y.ub (i * 2) B 1
  pure ⟨idx, lb, ub⟩

/-- The case of `fix_footsteps_`, task_footstepbounds.h:76-89. -/
def SimpleBounds.fix (y : SimpleBounds) (i : ℕ) (t : StanceType) : Res SimpleBounds :=
  if t = .rss then do
    let u ← y.ub.get (i * 2)
    let lb ← y.lb.set (i * 2) u
    let u ← y.ub.get (i * 2 + 1)
    let lb ← lb.set (i * 2 + 1) u
    pure { y with lb := lb }
  else do
    let u ← y.ub.get (i * 2)
    let lb ← y.lb.set (i * 2) u
    let l ← lb.get (i * 2 + 1)
    let ub ← y.ub.set (i * 2 + 1) l
    pure { y with lb := lb, ub := ub }

/-- `TaskFootstepBounds::form`, task_footstepbounds.h:50-91. -/
def footstepBoundsForm (junk : ℕ → ℕ → ℝ) (junkI : ℕ → ℕ) (fix : Bool) (env : TaskEnv) (d : CtrData ℝ) : Res (CtrData ℝ) := do
  let loc := env.structure_.location footposId
  let y ← forRange env.mpc.horizon.variable_steps.length (SimpleBounds.resized junk junkI loc.length) fun y i => do
    let B ← env.mpc.horizon.getFootPositionBounds i
    let y ← y.assign loc.offset i B
    if fix then do
      let k ← nth env.mpc.horizon.variable_steps i
      let s ← env.mpc.horizon.getWalkState k
      y.fix i s.stance.type
    else pure y
  pure { d with idx := y.idx, lb := y.lb, ub := y.ub }

/-- `TaskFootstepBounds::guessActiveSet`, task_footstepbounds.h:95-137. The previous content of the guess does not matter. -/
def footstepBoundsGuess (fix : Bool) (env : TaskEnv) (actual : ActiveSetC) : Res ActiveSetC :=
  let loc := env.structure_.location footposId
  if fix then pure (ActiveSetC.initWith loc.length .equality)
  else if actual.length = 0 then pure (ActiveSetC.initWith loc.length .inactive)
  else if actual.length = loc.length then pure actual
  else if actual.length > loc.length then ActiveSetC.initFrom [] actual ⟨2, actual.length - 2⟩
  else ActiveSetC.copyTo (ActiveSetC.initWith loc.length .inactive) ⟨0, actual.length⟩ actual

/-- `TaskCoPBounds::form`, task_copbounds.h:41-67. -/
def copBoundsForm (junk : ℕ → ℕ → ℝ) (junkI : ℕ → ℕ) (env : TaskEnv) (d : CtrData ℝ) : Res (CtrData ℝ) := do
  let loc := env.structure_.location copId
  let y ← forRange (loc.length / 2) (SimpleBounds.resized junk junkI loc.length) fun y i => do
    let B ← env.mpc.horizon.getCoPBounds i
    y.assign loc.offset i B
  pure { d with idx := y.idx, lb := y.lb, ub := y.ub }

/-- `TaskCoPBounds::guessActiveSet`, task_copbounds.h:71-91. -/
def copBoundsGuess (env : TaskEnv) (actual : ActiveSetC) : Res ActiveSetC :=
  let loc := env.structure_.location copId
  if actual.length = 0 then pure (ActiveSetC.initWith loc.length .inactive)
  else do
    assertThat (actual.length = loc.length)
    actual.shift 2 .inactive

/-- The loop of `TaskCoMVelocity::form`, task_comvelocity.h:58-64. -/
def referenceVelocities (junk : ℕ → ℝ) (env : TaskEnv) : Res (Vec ℝ) :=
  forRange env.mpc.parameters.preview_horizon_length ⟨env.mpc.parameters.preview_horizon_length * 2, junk⟩ fun v i => do
    let iv ← env.mpc.horizon.intervals.get i
    v.setSegment (i * 2) 2 (ofFin iv.cvel_ref)

/-- `TaskCoMVelocity::form`, task_comvelocity.h:48-69. -/
noncomputable def comVelocityForm (junk : ℕ → ℝ) (gain : ℝ) (env : TaskEnv) (d : CtrData ℝ) : Res (CtrData ℝ) := do
  let ref ← referenceVelocities junk env
  let V ← velocitySelector.mul env.mpc.matrices.S
  let Sv ← V.toMat
  let v ← velocitySelector.mul env.mpc.matrices.s.toMat
  let sv ← v.toMat
  require (sv.rows = ref.n)
  pure { d with A := Kron.scale gain Sv, b := ⟨sv.rows, fun i => -gain * (sv.e i 0 - ref.e i)⟩ }

/-- `getMatrixPart` on the left hand side of an assignment, solution.h:147-151. -/
def setMatrixPart (s : SolutionStructure) (id : String) (A B : Mat ℝ) : Res (Mat ℝ) :=
  A.setBlock 0 (s.location id).offset A.rows (s.location id).length B

/-- `getMatrixPart`, solution.h:163-167. -/
def getMatrixPart (s : SolutionStructure) (id : String) (A : Mat ℝ) : Res (Mat ℝ) :=
  A.block 0 (s.location id).offset A.rows (s.location id).length

/-- `TaskCoPVelocity::form`, task_copvelocity.h:49-70. -/
noncomputable def copVelocityForm (junk : ℕ → ℕ → ℝ) (gain : ℝ) (env : TaskEnv) (d : CtrData ℝ) : Res (CtrData ℝ) := do
  let A : Mat ℝ := ⟨env.mpc.matrices.Sdz.rows, env.structure_.nvars, junk⟩
  let B ← getMatrixPart env.structure_ copId env.mpc.matrices.Sdz
  let A ← setMatrixPart env.structure_ copId A (Kron.scale gain B)
  let B ← getMatrixPart env.structure_ footposId env.mpc.matrices.Sdz
  let A ← setMatrixPart env.structure_ footposId A (Kron.scale gain B)
  pure { d with A := A, b := ⟨env.mpc.matrices.sdz.n, fun i => -gain * env.mpc.matrices.sdz.e i⟩ }

/-- `TaskTerminalConstraint::form`, task_terminalconstraint.h:48-65. `back()` of an empty vector and a block outside of the matrix are
undefined behaviour; `preview_length - 1` wraps when there are no intervals. -/
noncomputable def terminalForm (gain : ℝ) (env : TaskEnv) (d : CtrData ℝ) : Res (CtrData ℝ) := do
  require (0 < env.mpc.horizon.intervals.n)
  let iv ← env.mpc.horizon.intervals.get (env.mpc.horizon.intervals.n - 1)
  let D := ofMatrix (getDcpv6 iv.omega)
  require (0 < env.mpc.parameters.preview_horizon_length)
  let o := (env.mpc.parameters.preview_horizon_length - 1) * 6
  let S ← env.mpc.matrices.S.block o 0 6 env.structure_.nvars
  let A ← (Kron.scale gain D).mul S
  let s ← env.mpc.matrices.s.toMat.block o 0 6 1
  let b ← (Kron.scale (-gain) D).mul s
  let b ← b.toVec
  pure { d with A := A, b := b }

/-! ### Tasks of a problem -/

/-- Constraints before the first call of `form`. -/
def noData : CtrData ℝ := ⟨Pepper.Mpc.noMat, 0, ⟨0, fun _ => 0⟩, Pepper.Mpc.noVec, Pepper.Mpc.noVec, Pepper.Mpc.noVec, Pepper.Mpc.noVec⟩

/-- A new task of the given class. -/
def newTask {E : Type} (t : CtrType) (formFn : E → Ctr ℝ → Res (CtrData ℝ × Bool))
    (guessFn : Option (E → Ctr ℝ → ActiveSetC → Res ActiveSetC)) : Task E ℝ :=
  ⟨⟨t, 0, noData⟩, true, [], [], formFn, guessFn⟩

end Humoto.Wpg
