import Verif.Model.WpgTasks

/-!
# Walking pattern generator: the optimization problem

modules/wpg04/tests/utilities.h, core/include/humoto/hierarchy.h. Hierarchies of two levels: `setupHierarchy_v0`, `_v1` (fixed
footsteps), `_v2` (terminal constraint on the first level), `_v5` (another gain). The hierarchies with three levels and with an
infeasible task are in Verif/Model/WpgHierarchies.lean.
-/

namespace Humoto.Wpg

/-- Choices which are made in `setupHierarchy_v*`: arguments of the constructors of the tasks, and whether there is a terminal
constraint. -/
structure ProblemSetup where
  fixed : Bool
  terminal : Bool
  comVelocityGain : ℝ
  copVelocityGain : ℝ
  copPositionGain : ℝ
  terminalGain : ℝ

/-- What the tasks see. `zero` are the members of the object of the class `TaskCoPPosition`: since tasks are functions here, these
members are kept beside the hierarchy. `junk`, `junkI` are the contents of memory which is not initialised by `resize`, for each task. -/
structure ProblemEnv where
  task : TaskEnv
  zero : ZeroVariables ℝ
  junk : ℕ → ℕ → ℕ → ℝ
  junkI : ℕ → ℕ → ℕ

/-- `TaskFootstepBounds`, task_footstepbounds.h:43-137. -/
def footstepsTask (o : ProblemSetup) : Task ProblemEnv ℝ := newTask .ilu
  (fun e c => do
    let d ← footstepBoundsForm (e.junk 0) (e.junkI 0) o.fixed e.task c.data
    pure (d, false))
  (some fun e _ a => footstepBoundsGuess o.fixed e.task a)

/-- `TaskCoPBounds`, task_copbounds.h:34-91. -/
def copTask : Task ProblemEnv ℝ := newTask .ilu
  (fun e c => do
    let d ← copBoundsForm (e.junk 1) (e.junkI 1) e.task c.data
    pure (d, false))
  (some fun e _ a => copBoundsGuess e.task a)

/-- `TaskTerminalConstraint`, task_terminalconstraint.h:40-65. -/
noncomputable def terminalTask (o : ProblemSetup) : Task ProblemEnv ℝ := newTask .ab
  (fun e c => do
    let d ← terminalForm o.terminalGain e.task c.data
    pure (d, false)) none

/-- `TaskCoMVelocity`, task_comvelocity.h:40-69. -/
noncomputable def comVelocityTask (o : ProblemSetup) : Task ProblemEnv ℝ := newTask .ab
  (fun e c => do
    let d ← comVelocityForm (e.junk 2 0) o.comVelocityGain e.task c.data
    pure (d, false)) none

/-- `TaskCoPVelocity`, task_copvelocity.h:41-70. -/
noncomputable def copVelocityTask (o : ProblemSetup) : Task ProblemEnv ℝ := newTask .ab
  (fun e c => do
    let d ← copVelocityForm (e.junk 3) o.copVelocityGain e.task c.data
    pure (d, false)) none

/-- `TaskCoPPosition`, task_copposition.h:20-47, and its parent class `TaskZeroVariables`. -/
def copPositionTask : Task ProblemEnv ℝ := newTask .gib0
  (fun e c => pure (e.zero.form e.task.structure_ c.data).2) none

/-- An optimization problem with the members of its task on the position of the centre of pressure. -/
structure Problem where
  hierarchy : Hierarchy ProblemEnv ℝ
  zero : ZeroVariables ℝ

/-- `setupHierarchy_v0`, `_v1`, `_v2`, `_v5`, tests/utilities.h:18-98, 152-179. -/
noncomputable def setupHierarchy (o : ProblemSetup) (P : Hierarchy ProblemEnv ℝ) : Res Problem := do
  let P := P.reset 2
  let P ← P.pushTask (footstepsTask o) 0
  let P ← P.pushTask copTask 0
  let P ← (if o.terminal then P.pushTask (terminalTask o) 0 else pure P : Res (Hierarchy ProblemEnv ℝ))
  let P ← P.pushTask (comVelocityTask o) 1
  let P ← P.pushTask (copVelocityTask o) 1
  let P ← P.pushTask copPositionTask 1
  pure ⟨P, ZeroVariables.make o.copPositionGain copId⟩

/-- `OptimizationProblem::formHierarchy`, hierarchy.h:39-54: the structure of the solution is initialised first, then the tasks are
formed. Members of the task on the position of the centre of pressure do not depend on its constraints. -/
def Problem.form (p : Problem) (junk : ℕ → ℕ → ℕ → ℝ) (junkI : ℕ → ℕ → ℕ) (guessing : Bool) (model : Model) (mpc : Mpc) : Res Problem := do
  let env := TaskEnv.of model mpc
  let P ← p.hierarchy.form env.structure_.nvars ⟨env, p.zero, junk, junkI⟩ guessing
  pure ⟨P, (p.zero.form env.structure_ noData).1⟩

/-- `OptimizationProblem::processActiveSet`, hierarchy.h:181-190. -/
def Problem.processActiveSet (p : Problem) (s : ActiveSetH) : Res Problem := do
  let P ← p.hierarchy.processActiveSet s
  pure { p with hierarchy := P }

end Humoto.Wpg
