import Verif.Model.PepperTasks

/-!
# Pepper: the optimization problem

modules/pepper_mpc/tests/utilities.h:23-64, modules/pepper_mpc/config/hierarchies.yaml, core/include/humoto/hierarchy.h.
-/

namespace Humoto.Pepper

variable {K : Type}

/-- Choices which are made in `setupHierarchy_v0` and in the configuration files: the mode of the motion and the gains. -/
structure ProblemSetup (K : Type) where
  mode : MotionMode
  positionGain : K
  velocityGain : K
  baseJerkGain : K
  bodyJerkGain : K
  copGain : K

/-- What the tasks see. `zero` are the members of the object of the class `TaskBodyJerkMinimization`: since tasks are functions here,
these members are kept beside the hierarchy. `junk`, `junkI` are the contents of memory which is not initialised by `resize`, for each
task. -/
structure ProblemEnv (K : Type) where
  task : TaskEnv K
  zero : ZeroVariables K
  junk : ℕ → ℕ → ℕ → K
  junkI : ℕ → ℕ → ℕ

section
variable [Field K]

/-- `TaskBaseVelocityBounds`, task_basevelocitybounds.h:20-85. -/
def velocityBoundsTask : Task (ProblemEnv K) K := newTask .ilu
  (fun e c => do
    let d ← velocityBoundsForm (e.junk 0) (e.junkI 0) e.task c.data
    pure (d, false))
  (some fun e c a => boundsGuess e.task c a)

/-- `TaskBodyPositionBounds`, task_bodypositionbounds.h:20-83. -/
def bodyBoundsTask : Task (ProblemEnv K) K := newTask .alu
  (fun e c => do
    let d ← bodyBoundsForm (e.junk 1) e.task c.data
    pure (d, false))
  (some fun e c a => boundsGuess e.task c a)

/-- `TaskCoPPositionBounds`, task_coppositionbounds.h:20-85. -/
def copBoundsTask : Task (ProblemEnv K) K := newTask .alu
  (fun e c => do
    let d ← copBoundsForm (e.junk 2) e.task c.data
    pure (d, false))
  (some fun e c a => boundsGuess e.task c a)

/-- `TaskBaseAccelerationBounds`, task_baseaccelerationbounds.h:20-86. -/
def accelerationBoundsTask : Task (ProblemEnv K) K := newTask .aslu
  (fun e c => do
    let d ← accelerationBoundsForm (e.junk 3) e.task c.data
    pure (d, false))
  (some fun e c a => boundsGuess e.task c a)

/-- `TaskBasePositionReference`, task_basepositionref.h:20-51. -/
def basePositionTask (o : ProblemSetup K) : Task (ProblemEnv K) K := newTask .asb
  (fun e c => do
    let d ← basePositionForm (e.junk 4 0) o.positionGain e.task c.data
    pure (d, false)) none

/-- `TaskBaseVelocityReference`, task_basevelocityref.h:20-52. -/
def baseVelocityTask (o : ProblemSetup K) : Task (ProblemEnv K) K := newTask .gib
  (fun e c => do
    let d ← baseVelocityForm (e.junk 4 0) (e.junkI 1) o.velocityGain e.task c.data
    pure (d, false)) none

/-- `TaskBaseJerkMinimization`, task_basejerkminimization.h:20-43. -/
def baseJerkTask (o : ProblemSetup K) : Task (ProblemEnv K) K := newTask .asb
  (fun e c => do
    let d ← baseJerkForm o.baseJerkGain e.task c.data
    pure (d, false)) none

/-- `TaskBodyJerkMinimization`, task_bodyjerkminimization.h:19-27, and its parent class `TaskZeroVariables`. -/
def bodyJerkTask : Task (ProblemEnv K) K := newTask .gib0
  (fun e c => pure (e.zero.form e.task.structure_ c.data).2) none

/-- `TaskCoPCentering`, task_copcentering.h:20-38. -/
def copCenteringTask (o : ProblemSetup K) : Task (ProblemEnv K) K := newTask .ab
  (fun e c => do
    let d ← copCenteringForm o.copGain e.task c.data
    pure (d, false)) none

/-- An optimization problem with the members of its task on the jerk of the body. -/
structure Problem (K : Type) where
  hierarchy : Hierarchy (ProblemEnv K) K
  zero : ZeroVariables K

/-- The task which depends on the mode of the motion, tests/utilities.h:49-59. -/
def referenceTask (o : ProblemSetup K) : Res (Task (ProblemEnv K) K) :=
  match o.mode with
  | .maintainPosition => pure (basePositionTask o)
  | .maintainVelocity => pure (baseVelocityTask o)
  | .undefined => .error .thrown

/-- `setupHierarchy_v0`, tests/utilities.h:23-64. The hierarchies in hierarchies.yaml have the same tasks in the same order. -/
def setupHierarchy (o : ProblemSetup K) (P : Hierarchy (ProblemEnv K) K) : Res (Problem K) := do
  let P := P.reset 2
  let P ← P.pushTask velocityBoundsTask 0
  let P ← P.pushTask bodyBoundsTask 0
  let P ← P.pushTask copBoundsTask 0
  let P ← P.pushTask accelerationBoundsTask 0
  let t ← referenceTask o
  let P ← P.pushTask t 1
  let P ← P.pushTask (baseJerkTask o) 1
  let P ← P.pushTask bodyJerkTask 1
  let P ← P.pushTask (copCenteringTask o) 1
  pure ⟨P, ZeroVariables.make o.bodyJerkGain bodyJerkId⟩

/-- `OptimizationProblem::formHierarchy`, hierarchy.h:39-54: the structure of the solution is initialised first, then the tasks are
formed. Members of the task on the jerk of the body do not depend on its constraints. -/
def Problem.form (p : Problem K) (junk : ℕ → ℕ → ℕ → K) (junkI : ℕ → ℕ → ℕ) (guessing : Bool) (mpc : Mpc K) : Res (Problem K) := do
  let env := TaskEnv.of mpc
  let P ← p.hierarchy.form env.structure_.nvars ⟨env, p.zero, junk, junkI⟩ guessing
  pure ⟨P, (p.zero.form env.structure_ noData).1⟩

/-- `OptimizationProblem::processActiveSet`, hierarchy.h:181-190. -/
def Problem.processActiveSet (p : Problem K) (s : ActiveSetH) : Res (Problem K) := do
  let P ← p.hierarchy.processActiveSet s
  pure { p with hierarchy := P }

end

end Humoto.Pepper
