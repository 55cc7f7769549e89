import Verif.Model.WpgProblem

/-!
# Walking pattern generator: the other hierarchies

modules/wpg04/tests/utilities.h: the hierarchy of three levels and the hierarchy with an infeasible task.
-/

namespace Humoto.Wpg

/-- `TaskInfeasibleInequality`, core/include/humoto/task_generic.h:180-233. The member `number_of_variables_` is zero in a new task and is
changed together with the number of columns of the matrix, which is zero in a new task as well; it is replaced by this number. -/
noncomputable def infeasibleTask : Task ProblemEnv ℝ := newTask .alu
  (fun e c => pure (infeasibleForm c.data.A.cols e.task.structure_ c.data).2) none

/-- `setupHierarchy_v3`, tests/utilities.h:102-122: the terminal constraint is on a level of its own. -/
noncomputable def setupHierarchy3 (o : ProblemSetup) (P : Hierarchy ProblemEnv ℝ) : Res Problem := do
  let P := P.reset 3
  let P ← P.pushTask (footstepsTask o) 0
  let P ← P.pushTask copTask 0
  let P ← P.pushTask (terminalTask o) 1
  let P ← P.pushTask (comVelocityTask o) 2
  let P ← P.pushTask (copVelocityTask o) 2
  let P ← P.pushTask copPositionTask 2
  pure ⟨P, ZeroVariables.make o.copPositionGain copId⟩

/-- `setupHierarchy_v4`, tests/utilities.h:130-150: an infeasible task on the first level. -/
noncomputable def setupHierarchy4 (o : ProblemSetup) (P : Hierarchy ProblemEnv ℝ) : Res Problem := do
  let P := P.reset 2
  let P ← P.pushTask (footstepsTask o) 0
  let P ← P.pushTask copTask 0
  let P ← P.pushTask infeasibleTask 0
  let P ← P.pushTask (comVelocityTask o) 1
  let P ← P.pushTask (copVelocityTask o) 1
  let P ← P.pushTask copPositionTask 1
  pure ⟨P, ZeroVariables.make o.copPositionGain copId⟩

end Humoto.Wpg
