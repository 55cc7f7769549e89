import Verif.Model.PepperMpc
import Verif.Model.TaskGeneric

/-!
# Pepper: the tasks of the model predictive controller

modules/pepper_mpc/include/pepper_mpc/task_*.h. The tasks see the structure of the solution and the control problem; the dynamic casts
to the classes of this module succeed. Gains are parameters, as in the constructors. The contents of memory which is not initialised by
`resize` are given by `junk`.
-/

namespace Humoto.Pepper

variable {K : Type}

/-- Arguments of `form` and `guessActiveSet` which are used: `sol_structure`, `control_problem`. The structure belongs to the solution,
which is initialised from the control problem, control_problem.h:64-69. -/
structure TaskEnv (K : Type) where
  structure_ : SolutionStructure
  mpc : Mpc K

/-- The environment of the tasks when a problem is formed, hierarchy.h:39-54. -/
def TaskEnv.of (mpc : Mpc K) : TaskEnv K := ⟨mpc.matrices.solution, mpc⟩

/-- `Eigen::Vector2d` as a vector. -/
def pairVec (w : Fin 2 → K) : Vec K := ⟨2, fun i => if i = 0 then w 0 else w 1⟩

/-- `resize` and the loop over the first `n` intervals which assigns columns of a matrix of bounds, task_baseaccelerationbounds.h:43-50,
task_bodypositionbounds.h:39-46, task_coppositionbounds.h:39-48. -/
def fillBounds (junk : ℕ → ℕ → K) (size n : ℕ) (ivs : List (Interval K)) (f : Interval K → Fin 2 → Fin 2 → K) :
    Res (Vec K × Vec K) :=
  forRange n ((⟨size, junk 0⟩, ⟨size, junk 1⟩) : Vec K × Vec K) fun y i => do
    let iv ← vecAt ivs i
    let lb ← y.1.setSegment (i * 2) 2 (pairVec fun a => f iv a 0)
    let ub ← y.2.setSegment (i * 2) 2 (pairVec fun a => f iv a 1)
    pure (lb, ub)

/-- `resize` and the loop over the first `n` intervals which assigns a vector, task_basepositionref.h:40-45,
task_basevelocityref.h:42, 45-51. -/
def fillVec (junk : ℕ → K) (size n : ℕ) (ivs : List (Interval K)) (f : Interval K → Fin 2 → K) : Res (Vec K) :=
  forRange n (⟨size, junk⟩ : Vec K) fun v i => do
    let iv ← vecAt ivs i
    v.setSegment (i * 2) 2 (pairVec (f iv))

/-- `resize` and the loop over pairs of indices, task_basevelocitybounds.h:41, 45-48, task_basevelocityref.h:41, 45-48. Simplification:
in the code it is the same loop which fills the bounds. -/
def fillIndices (junkI : ℕ → ℕ) (loc : Location) : Res (Vec ℕ) :=
  forRange (loc.length / 2) (⟨loc.length, junkI⟩ : Vec ℕ) fun v i => do
    let v ← v.set (i * 2) (loc.offset + i * 2)
    v.set (i * 2 + 1) (loc.offset + i * 2 + 1)

section
variable [Field K]

/-- `TaskBaseAccelerationBounds::form`, task_baseaccelerationbounds.h:29-54. -/
def accelerationBoundsForm (junk : ℕ → ℕ → K) (env : TaskEnv K) (d : CtrData K) : Res (CtrData K) := do
  let N := env.mpc.intervals.length
  let y ← fillBounds junk (N * 2) N env.mpc.intervals fun iv => iv.nominal_base_acceleration_bounds
  let lb ← y.1.sub env.mpc.matrices.sas
  let ub ← y.2.sub env.mpc.matrices.sas
  pure { d with offset := 0, A := env.mpc.matrices.Aas, lb := lb, ub := ub }

/-- `TaskBaseVelocityBounds::form`, task_basevelocitybounds.h:29-53. -/
def velocityBoundsForm (junk : ℕ → ℕ → K) (junkI : ℕ → ℕ) (env : TaskEnv K) (d : CtrData K) : Res (CtrData K) := do
  let loc := env.structure_.location baseVelId
  let idx ← fillIndices junkI loc
  let y ← fillBounds junk loc.length (loc.length / 2) env.mpc.intervals fun iv => iv.nominal_base_velocity_bounds
  pure { d with idx := idx, lb := y.1, ub := y.2 }

/-- `TaskBodyPositionBounds::form`, task_bodypositionbounds.h:29-51. -/
def bodyBoundsForm (junk : ℕ → ℕ → K) (env : TaskEnv K) (d : CtrData K) : Res (CtrData K) := do
  let A := env.mpc.matrices.Apd
  let y ← fillBounds junk A.rows (A.rows / 2) env.mpc.intervals fun iv => iv.body_bounds
  let lb ← y.1.sub env.mpc.matrices.spd
  let ub ← y.2.sub env.mpc.matrices.spd
  pure { d with A := A, lb := lb, ub := ub }

/-- `TaskCoPPositionBounds::form`, task_coppositionbounds.h:29-53. -/
def copBoundsForm (junk : ℕ → ℕ → K) (env : TaskEnv K) (d : CtrData K) : Res (CtrData K) := do
  let N := env.mpc.intervals.length
  let y ← fillBounds junk (N * 2) N env.mpc.intervals fun iv => iv.cop_bounds
  let lb ← y.1.sub env.mpc.matrices.sp
  let ub ← y.2.sub env.mpc.matrices.sp
  pure { d with A := env.mpc.matrices.Ap, lb := lb, ub := ub }

/-- `TaskBaseJerkMinimization::form`, task_basejerkminimization.h:29-43. -/
def baseJerkForm (gain : K) (env : TaskEnv K) (d : CtrData K) : Res (CtrData K) :=
  pure { d with
    offset := 0
    A := Kron.scale gain env.mpc.matrices.Ajs
    b := ⟨env.mpc.matrices.sjs.n, fun i => -gain * env.mpc.matrices.sjs.e i⟩ }

/-- `TaskBasePositionReference::form`, task_basepositionref.h:29-51. -/
def basePositionForm (junk : ℕ → K) (gain : K) (env : TaskEnv K) (d : CtrData K) : Res (CtrData K) := do
  let A := Kron.scale gain env.mpc.matrices.Aps
  let b ← fillVec junk A.rows (A.rows / 2) env.mpc.intervals fun iv => iv.base_pos_ref
  let b ← b.sub env.mpc.matrices.sps
  pure { d with offset := 0, A := A, b := ⟨b.n, fun i => b.e i * gain⟩ }

/-- `TaskBaseVelocityReference::form`, task_basevelocityref.h:29-52. -/
def baseVelocityForm (junk : ℕ → K) (junkI : ℕ → ℕ) (gain : K) (env : TaskEnv K) (d : CtrData K) : Res (CtrData K) := do
  let loc := env.structure_.location baseVelId
  let idx ← fillIndices junkI loc
  let b ← fillVec junk loc.length (loc.length / 2) env.mpc.intervals fun iv a => gain * iv.base_vel_ref a
  pure { d with idx := idx, gains := ⟨loc.length, fun _ => gain⟩, b := b }

/-- `TaskCoPCentering::form`, task_copcentering.h:28-38. -/
def copCenteringForm (gain : K) (env : TaskEnv K) (d : CtrData K) : Res (CtrData K) :=
  pure { d with
    A := Kron.scale gain env.mpc.matrices.Ap
    b := ⟨env.mpc.matrices.sp.n, fun i => -gain * env.mpc.matrices.sp.e i⟩ }

/-- `TaskBodyPositionReference::form`, task_bodypositionref.h:26-38. The sign of `b` is the one in the code. -/
def bodyPositionForm (gain : K) (env : TaskEnv K) (d : CtrData K) : Res (CtrData K) :=
  pure { d with
    A := Kron.scale gain env.mpc.matrices.Apd
    b := ⟨env.mpc.matrices.spd.n, fun i => gain * env.mpc.matrices.spd.e i⟩ }

/-- `guessActiveSet` of the four tasks with bounds, task_baseaccelerationbounds.h:58-86, task_basevelocitybounds.h:57-85,
task_bodypositionbounds.h:55-83, task_coppositionbounds.h:57-85. These tasks are always marked as modified after `form`, so the default
implementation, task.h:147-175, makes all constraints inactive. -/
def boundsGuess (env : TaskEnv K) (c : Ctr K) (actual : ActiveSetC) : Res ActiveSetC :=
  if env.mpc.parameters.sampling_time_ms > env.mpc.parameters.subsampling_time_ms then pure (ActiveSetC.initWith c.numRows .inactive)
  else
    let num := env.mpc.intervals.length * 2
    if actual.length = 0 then pure (ActiveSetC.initWith num .inactive)
    else do
      assertThat (actual.length = num)
      actual.shift 2 .inactive

end

/-! ### Tasks of a problem -/

/-- Constraints before the first call of `form`. -/
def noData [Zero K] : CtrData K := ⟨Mpc.noMat, 0, ⟨0, fun _ => 0⟩, Mpc.noVec, Mpc.noVec, Mpc.noVec, Mpc.noVec⟩

/-- A new task of the given class. -/
def newTask [Zero K] {E : Type} (t : CtrType) (formFn : E → Ctr K → Res (CtrData K × Bool))
    (guessFn : Option (E → Ctr K → ActiveSetC → Res ActiveSetC)) : Task E K :=
  ⟨⟨t, 0, noData⟩, true, [], [], formFn, guessFn⟩

end Humoto.Pepper
