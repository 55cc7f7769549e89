import Verif.Model.IkTasks
import Verif.Model.PepperTasks
import Verif.Model.TaskGeneric

/-!
# Pepper IK: the optimization problem

modules/pepper_ik/tests/hierarchy.h, modules/pepper_ik/config/hierarchies_planar.yaml,
modules/pepper_ik/include/pepper_ik/configurable_optimization_problem.h, core/include/humoto/hierarchy.h. The task
`TaskInfeasibleInequality`, which can be used in configuration files only, is left out.
-/

namespace Humoto

namespace Ik

noncomputable section

variable {root : Root}

/-- Tasks with their parameters. The classes: `TaskJointsBounds`, `TaskJointsReference`, `TaskBaseCoMTracking`, `TaskBodyCoMTracking`,
`TaskBaseOrientation`, `TaskTagOrientation`, `TaskTagPose`, `TaskTagPose3Dof`, `TaskTagAngularVelocity`, `TaskTagCompleteVelocity`,
`TaskFixArms`, `TaskFixHead`, `TaskZeroVariables`, `TaskZeroSelectedVariables`. -/
inductive IkTask
  | jointsBounds
  | jointsReference (gain k : ℝ) (reference : Fin jointsDof → ℝ)
  | baseCoM (gain k : ℝ)
  | bodyCoM (gain k : ℝ) (axis_flag : BitVec 32)
  | baseOrientation (gain k : ℝ)
  | tagOrientation (gain k : ℝ) (name : String) (reference_rpy : Fin 3 → ℝ)
  | tagPose (gain k : ℝ) (name : String)
  | tagPose3Dof (gain k : ℝ) (name : String)
  | tagAngularVelocity (gain k : ℝ) (name : String)
  | tagCompleteVelocity (gain k : ℝ) (name : String)
  | fixArms
  | fixHead
  | zeroVariables (gain : ℝ) (variables_id : String)
  | zeroSelected (gain : ℝ) (indices : Vec ℕ)

/-- Members of the objects which survive from call to call: the tag which was found by name, e.g. task_tagpose.h:33, and the members of
`TaskZeroVariables`. Since tasks are functions here, the members are kept beside the hierarchy. -/
structure Members where
  tag : Option ℕ
  zero : ZeroVariables ℝ

/-- What the tasks see: `members`, `junkA`, `junkB` are the members of each object and the contents of the memory which it gets without
initialisation. -/
structure ProblemEnv (root : Root) where
  ik : IkEnv root
  members : ℕ → Members
  junkA : ℕ → ℕ → ℕ → ℝ
  junkB : ℕ → ℕ → ℝ

namespace IkTask

/-- The parent classes of the tasks: task_jointsbounds.h:20, task_jointsref.h:20, task_fixarms.h:20, task_fixhead.h:20,
task_generic.h:26 and 127; `TaskAB` otherwise. -/
def ctype : IkTask → CtrType
  | jointsBounds => .ilu
  | jointsReference .. => .gib
  | fixArms | fixHead => .ib0
  | zeroVariables .. | zeroSelected .. => .gib0
  | _ => .ab

/-- The virtual function `form` of the class. The second part of the result: whether `markAsUnmodified` is called. -/
def formData (t : IkTask) (junkA : ℕ → ℕ → ℝ) (junkB : ℕ → ℝ) (m : Members) (env : IkEnv root) (d : CtrData ℝ) : Res (CtrData ℝ × Bool) :=
  match t with
  | jointsBounds => do pure (← jointsBoundsForm env d, false)
  | jointsReference gain k reference => do pure (← jointsReferenceForm gain k reference env d, false)
  | baseCoM gain k => do pure (← baseCoMForm gain k junkA env d, false)
  | bodyCoM gain k f => do pure (← bodyCoMForm gain k f junkA junkB env d, false)
  | baseOrientation gain k => do pure (← baseOrientationForm gain k env d, false)
  | tagOrientation gain k name rpy => do pure (← tagOrientationForm gain k name rpy m.tag env d, false)
  | tagPose gain k name => do pure (← tagPoseForm gain k name m.tag env d, false)
  | tagPose3Dof gain k name => do pure (← tagPose3DofForm gain k name m.tag env d, false)
  | tagAngularVelocity gain k name => do pure (← tagAngularVelocityForm gain k name m.tag env d, false)
  | tagCompleteVelocity gain k name => do pure (← tagCompleteVelocityForm gain k name m.tag env d, false)
  | fixArms => do pure (← fixJointsForm armJoints env d, false)
  | fixHead => do pure (← fixJointsForm headJoints env d, false)
  | zeroVariables _ _ => pure (m.zero.form env.structure_ d).2
  | zeroSelected gain indices => pure (Humoto.zeroSelected indices gain d, false)

/-- The name of the link, in the tasks which have one. -/
def link : IkTask → Option String
  | tagOrientation _ _ name _ | tagPose _ _ name | tagPose3Dof _ _ name => some name
  | tagAngularVelocity _ _ name | tagCompleteVelocity _ _ name => some name
  | _ => none

/-- The members of a new object. -/
def newMembers : IkTask → Members
  | zeroVariables gain id => ⟨none, ZeroVariables.make gain id⟩
  | _ => ⟨none, ZeroVariables.make 0 ""⟩

/-- The members after `form`: the tag is kept, e.g. task_tagpose.h:84-87; task_generic.h:94-97. They do not depend on the constraints. -/
def membersAfter (t : IkTask) (m : Members) (env : IkEnv root) : Members :=
  match t with
  | zeroVariables _ _ => { m with zero := (m.zero.form env.structure_ Pepper.noData).1 }
  | t =>
    match t.link with
    | some name => { m with tag := some (cachedTag env.robot name m.tag) }
    | none => m

/-- A new object with the given number. -/
def task (t : IkTask) (root : Root) (n : ℕ) : Task (ProblemEnv root) ℝ :=
  Pepper.newTask t.ctype (fun e c => t.formData (e.junkA n) (e.junkB n) (e.members n) e.ik c.data) none

end IkTask

/-- An optimization problem: `tasks` are the objects which were pushed, in this order; their numbers are indices in this list. -/
structure IkProblem (root : Root) where
  hierarchy : Hierarchy (ProblemEnv root) ℝ
  tasks : List IkTask
  members : ℕ → Members

namespace IkProblem

/-- `OptimizationProblem::reset`, hierarchy.h:238-246. -/
def reset (p : IkProblem root) (n : ℕ) : IkProblem root := { p with hierarchy := p.hierarchy.reset n, tasks := [] }

/-- `pushTask`, hierarchy.h:91-96, with a new object. -/
def pushTask (p : IkProblem root) (t : IkTask) (level : ℕ) : Res (IkProblem root) := do
  let P ← p.hierarchy.pushTask (t.task root p.tasks.length) level
  pure
    { hierarchy := P
      tasks := p.tasks ++ [t]
      members := Function.update p.members p.tasks.length t.newMembers }

/-- A hierarchy with the given tasks on its levels: the loops in configurable_optimization_problem.h:141-167 (core). -/
def setup (levels : List (List IkTask)) (p : IkProblem root) : Res (IkProblem root) :=
  levels.zipIdx.foldlM (fun p l => l.1.foldlM (fun p t => p.pushTask t l.2) p) (p.reset levels.length)

/-- `OptimizationProblem::formHierarchy`, hierarchy.h:39-54, without guesses; `junkA`, `junkB` are the contents of the memory which the
objects get. -/
def form (p : IkProblem root) (junkA : ℕ → ℕ → ℕ → ℝ) (junkB : ℕ → ℕ → ℝ) (r : Robot root) (w : Wbc) : Res (IkProblem root) := do
  let env : IkEnv root := ⟨w.sol_structure, r, w⟩
  let P ← p.hierarchy.form w.sol_structure.nvars ⟨env, p.members, junkA, junkB⟩ false
  pure
    { p with
      hierarchy := P
      members := fun n =>
        match p.tasks[n]? with
        | some t => t.membersAfter (p.members n) env
        | none => p.members n }

/-- `OptimizationProblem::processActiveSet`, hierarchy.h:181-190. -/
def processActiveSet (p : IkProblem root) (s : ActiveSetH) : Res (IkProblem root) := do
  let P ← p.hierarchy.processActiveSet s
  pure { p with hierarchy := P }

end IkProblem

/-- The reference angles of a new `TaskJointsReference`, task_jointsref.h:68. -/
def defaultReference (root : Root) (junk : Fin jointsDof → ℝ) : Fin jointsDof → ℝ := assignJoints root defaultAngles junk

/-- `setupHierarchy_v0`, hierarchy.h:18-36 (tests). The parameters of the tasks are those of their constructors. -/
def setupHierarchy_v0 (junk : Fin jointsDof → ℝ) (p : IkProblem root) : Res (IkProblem root) := do
  let p := p.reset 2
  let p ← p.pushTask (.baseCoM 1 1) 0
  let p ← p.pushTask (.bodyCoM 1 1 allFlags) 0
  let p ← p.pushTask (.baseOrientation 1 1) 0
  p.pushTask (.jointsReference 1 1 (defaultReference root junk)) 1

/-- `setupHierarchy_v1`, hierarchy.h:44-59 (tests). -/
def setupHierarchy_v1 (junk : Fin jointsDof → ℝ) (p : IkProblem root) : Res (IkProblem root) := do
  let p := p.reset 2
  let p ← p.pushTask (.bodyCoM 1 1 allFlags) 0
  let p ← p.pushTask (.baseCoM 1 1) 1
  let p ← p.pushTask (.baseOrientation 1 1) 1
  p.pushTask (.jointsReference 1 1 (defaultReference root junk)) 1

/-- The joints which `setupHierarchy_v2` is going to fix, hierarchy.h:69-83 (tests). -/
def fixedJoints_v2 : List Joint :=
  [.LShoulderRoll, .LElbowYaw, .LElbowRoll, .LWristYaw, .RShoulderRoll, .RElbowYaw, .RElbowRoll, .RWristYaw, .HeadYaw]

/-- The indices of variables which are given to `TaskZeroSelectedVariables`, hierarchy.h:69-83 (tests): the numbers of the joints. -/
def fixedIndices_v2 (root : Root) : Vec ℕ := ⟨fixedJoints_v2.length, fun i => jointId root (fixedJoints_v2.getD i .KneePitch)⟩

/-- `setupHierarchy_v2`, hierarchy.h:67-117 (tests). -/
def setupHierarchy_v2 (junk : Fin jointsDof → ℝ) (p : IkProblem root) : Res (IkProblem root) := do
  let p := p.reset 2
  let p ← p.pushTask (.baseCoM 1 1) 0
  let p ← p.pushTask (.baseOrientation 1 1) 0
  let p ← p.pushTask (.zeroSelected 2 (fixedIndices_v2 root)) 0
  let p ← p.pushTask (.bodyCoM (223606797749979 / 10 ^ 16) (1 / 10) (axisFlag 0)) 1
  let p ← p.pushTask (.bodyCoM (707106781186548 / 10 ^ 15) (1 / 10) (axisFlag 1 ||| axisFlag 2)) 1
  let p ← p.pushTask (.jointsReference (223606797749979 / 10 ^ 18) (1 / 10) (defaultReference root junk)) 1
  p.pushTask (.tagOrientation (223606797749979 / 10 ^ 15) 1 "Head" ![0, -(15 / 100), 0]) 1

end

end Ik

end Humoto
