import Verif.Model.Config

/-!
# Hierarchies in configuration files

`core/include/humoto/configurable_optimization_problem.h` and `modules/wpg04/include/wpg04/configurable_optimization_problem.h`.
Constraints of tasks are not represented here: a task is its class, its description and its configuration entries.
-/

namespace Humoto.Config

/-- What is created by `getTask`: the class, whether its constraints are simple (`isSimple()`, constraints_base.h:529-532) and the
entries of an object after `setDefaults()`. -/
structure TaskClass where
  type : String
  simple : Bool
  defaults : Entries

/-- A task; `id` is its description (`getDescription()`, task.h), which is also the name of its section (task.h:122-125). -/
structure ConfTask where
  type : String
  id : String
  simple : Bool
  entries : Entries

/-- `ConfigurableOptimizationProblem` (configurable_optimization_problem.h:19-214): `hierarchy_`, `task_class_names_` and
`task_ids_`. -/
structure ConfProblem where
  levels : List (List ConfTask)
  classNames : List (List String)
  ids : List (List String)

/-- The default constructor (configurable_optimization_problem.h:31-34, hierarchy.h:77-80). -/
def ConfProblem.new : ConfProblem := ⟨[], [], []⟩

/-- `HierarchyLevel::pushTask` (hierarchy_level.h:184-194). -/
def pushOnLevel (l : List ConfTask) (t : ConfTask) : List ConfTask := if t.simple = true then l ++ [t] else t :: l

/-- `reset` (configurable_optimization_problem.h:61-70, hierarchy.h:238-246). The argument of type `ConfProblem` is the old
state, which is forgotten. -/
def ConfProblem.reset (_p : ConfProblem) (n : ℕ) : ConfProblem :=
  ⟨List.replicate n [], List.replicate n [], List.replicate n []⟩

/-- `pushTask` with the name of the class (configurable_optimization_problem.h:44-53, hierarchy.h:91-96). -/
def ConfProblem.push (p : ConfProblem) (t : ConfTask) (level : ℕ) (className : String) : Except Fault ConfProblem :=
  if level < p.levels.length then
    .ok ⟨p.levels.modify level (pushOnLevel · t), p.classNames.modify level (· ++ [className]), p.ids.modify level (· ++ [t.id])⟩
  else .error .thrown

/-- Vectors of vectors of strings. -/
def strings (l : List (List String)) : List (List Scalar) := l.map fun k => k.map .str

/-- Strings of scalars. -/
def fromStrings (l : List (List Scalar)) : List (List String) :=
  l.map fun k => k.filterMap fun s => match s with | .str x => some x | _ => none

/-- Nested sections of tasks (configurable_optimization_problem.h:188-197). -/
def taskMembers : List ConfTask → Entries
  | [] => .nil
  | t :: l => .member t.id t.entries (taskMembers l)

/-- Entries of the section of a hierarchy; their number is `getNumberOfEntries()` (configurable_optimization_problem.h:206-216). -/
def ConfProblem.entries (p : ConfProblem) : Entries :=
  .leaf "task_class_names" (.lists .str (strings p.classNames))
    (.leaf "task_ids" (.lists .str (strings p.ids)) (taskMembers p.levels.flatten))

/-- `writeConfig` of a hierarchy (configurable_optimization_problem.h:177-199, config.h:313-319). -/
def ConfProblem.writeConfig (f : Format) (file : Fields) (name : String) (p : ConfProblem) : Except Fault Fields :=
  if p.classNames = [] then .error .thrown else .ok (Config.writeConfig f file name p.entries)

/-- Tasks of one level (configurable_optimization_problem.h:149-166); the last argument is the level. A null pointer is
dereferenced if the name of the class is not known: `setDescription` (line 152) is called before the check (line 154). -/
def readTasks (f : Format) (file : Fields) (strict : Bool) (getTask : String → Option TaskClass) :
    List String → List String → List ConfTask → RM (List ConfTask)
  | [], _, l => pure l
  -- not reachable: the sizes are equal
  | _ :: _, [], _ => RM.ub
  | n :: ns, i :: is, l =>
    match getTask n with
    | none => RM.ub
    | some c => do
      let e ← readConfig f file strict c.defaults i
      readTasks f file strict getTask ns is (pushOnLevel l ⟨c.type, i, c.simple, e⟩)

/-- All levels (configurable_optimization_problem.h:142-167). -/
def readLevels (f : Format) (file : Fields) (strict : Bool) (getTask : String → Option TaskClass) :
    List (List String) → List (List String) → RM (List (List ConfTask))
  | [], _ => pure []
  -- not reachable: the sizes are equal
  | _ :: _, [] => RM.ub
  | n :: ns, i :: is => do
    RM.assert (n.length = i.length)
    let l ← readTasks f file strict getTask n i []
    let r ← readLevels f file strict getTask ns is
    pure (l :: r)

/-- `readConfigEntries` of a hierarchy (configurable_optimization_problem.h:122-169) after `setDefaults()`
(configurable_optimization_problem.h:85-88), which clears the names of classes only. Simplification: the state of the object
after an exception is not represented. -/
def ConfProblem.readEntries (f : Format) (file : Fields) (strict : Bool) (getTask : String → Option TaskClass) (p : ConfProblem) :
    RM ConfProblem := do
  let n ← readLists f file strict .str [] "task_class_names"
  let i ← readLists f file strict .str (strings p.ids) "task_ids"
  let names := fromStrings n
  let ids := fromStrings i
  RM.assert (names ≠ [])
  RM.assert (names.length = ids.length)
  let levels ← readLevels f file strict getTask names ids
  pure ⟨levels, names, ids⟩

/-- `readConfig` of a hierarchy (config.h:131-156, 166-188). If the section is missing and this is allowed, only `setDefaults()`
has an effect. -/
def ConfProblem.readConfig (f : Format) (file : Fields) (strict : Bool) (getTask : String → Option TaskClass) (p : ConfProblem)
    (name : String) : RM ConfProblem := do
  let found ← descend f file name
  if found then do
    let x ← p.readEntries f file strict getTask
    ascend
    pure x
  else missing strict { p with classNames := [] }

/-! ## Classes of tasks -/

/-- Entries of `TaskALU`, `TaskAB` and other general tasks (task.h:305-308), of weighted simple tasks (task.h:397-400). -/
def gainEntries (gain : ℚ) : Entries := .parent .nil (.leaf "gain" (.scalar (.real gain)) .nil)

/-- `getTask` of the core (configurable_optimization_problem.h:94-111); task_generic.h:26-31, 127-132, 180-181. Simplification:
indices are written as numbers. -/
def coreTask (name : String) : Option TaskClass :=
  if name = "TaskInfeasibleInequality" then some ⟨"TaskInfeasibleInequality", false, gainEntries 0⟩
  else if name = "TaskZeroVariables" then
    some ⟨"TaskZeroVariables", true, .parent (gainEntries 0) (.leaf "variables_id" (.scalar (.str "")) .nil)⟩
  else if name = "TaskZeroSelectedVariables" then
    some ⟨"TaskZeroSelectedVariables", true, .parent (gainEntries 0) (.leaf "variables_indices" (.vec false []) .nil)⟩
  else none

/-- `getTask` of the walking pattern generator (wpg04/configurable_optimization_problem.h:28-56) and defaults of its tasks
(task_comvelocity.h:28-32, task_copposition.h:28-33, task_copvelocity.h:28-32, task_footstepbounds.h:34-38, task_copbounds.h:28-31,
task_terminalconstraint.h:27-31). -/
def wpgTask (name : String) : Option TaskClass :=
  if name = "TaskCoMVelocity" then some ⟨"TaskCoMVelocity", false, .parent (gainEntries (707106781186548 / 10 ^ 15)) .nil⟩
  else if name = "TaskCoPPosition" then
    some ⟨"TaskCoPPosition", true, .parent (.parent (gainEntries (122474487139159 / 10 ^ 13))
      (.leaf "variables_id" (.scalar (.str "CoP")) .nil)) .nil⟩
  else if name = "TaskCoPVelocity" then some ⟨"TaskCoPVelocity", false, .parent (gainEntries (223606797749979 / 10 ^ 15)) .nil⟩
  else if name = "TaskFootstepBounds" then
    some ⟨"TaskFootstepBounds", true, .parent .nil (.leaf "fix_footsteps" (.scalar (.bool false)) .nil)⟩
  else if name = "TaskCoPBounds" then some ⟨"TaskCoPBounds", true, .parent .nil .nil⟩
  else if name = "TaskTerminalConstraint" then some ⟨"TaskTerminalConstraint", false, .parent (gainEntries 1) .nil⟩
  else coreTask name

/-- `getTask` of the inverse kinematics of Pepper (pepper_ik/configurable_optimization_problem.h:28-81) and defaults of its tasks:
gains are set to 0 by `setDefaults`, identifiers, flags and orientations are those of the constructors (task_basecom.h:15-47,
task_baseorient.h:15-45, task_bodycom.h:15-68, task_fixarms.h:14-40, task_fixhead.h:14-40, task_jointsbounds.h:14-40,
task_jointsref.h:15-65, task_tagorient.h:15-75, task_tagangularvel.h:15-60, task_tagcompletevel.h:15-60, task_tagpose.h:15-60,
task_tagpose3dof.h:15-60). `angles` are the default angles of joints of the model (model_description.h:384-430). -/
def ikTask (angles : List ℚ) (name : String) : Option TaskClass :=
  if name = "TaskBaseCoMTracking" then
    some ⟨"TaskBaseCoMTracking", false, .parent (gainEntries 0) (.leaf "k_position_gain" (.scalar (.real 0)) .nil)⟩
  else if name = "TaskBaseOrientation" then
    some ⟨"TaskBaseOrientation", false, .parent (gainEntries 0) (.leaf "k_orientation_gain" (.scalar (.real 0)) .nil)⟩
  else if name = "TaskBodyCoMTracking" then
    some ⟨"TaskBodyCoMTracking", false, .parent (gainEntries 0) (.leaf "k_position_gain" (.scalar (.real 0))
      (.leaf "axis_flag" (.scalar (.int 7)) .nil))⟩
  else if name = "TaskFixArms" then some ⟨"TaskFixArms", true, .parent .nil .nil⟩
  else if name = "TaskFixHead" then some ⟨"TaskFixHead", true, .parent .nil .nil⟩
  else if name = "TaskJointsBounds" then some ⟨"TaskJointsBounds", true, .nil⟩
  else if name = "TaskJointsReference" then
    some ⟨"TaskJointsReference", true, .parent (gainEntries 0) (.leaf "k_position_gain" (.scalar (.real 0))
      (.leaf "joint_angles_reference" (.vec true angles) .nil))⟩
  else if name = "TaskTagOrientation" then
    some ⟨"TaskTagOrientation", false, .parent (gainEntries 0) (.leaf "k_orientation_gain" (.scalar (.real 0))
      (.leaf "tag_string_id" (.scalar (.str "")) (.leaf "reference_rpy" (.vec true [0, 0, 0]) .nil)))⟩
  else if name = "TaskTagAngularVelocity" then
    some ⟨"TaskTagAngularVelocity", false, .parent (gainEntries 0) (.leaf "k_angular_velocity_gain" (.scalar (.real 0))
      (.leaf "tag_string_id" (.scalar (.str "")) .nil))⟩
  else if name = "TaskTagCompleteVelocity" then
    some ⟨"TaskTagCompleteVelocity", false, .parent (gainEntries 0) (.leaf "k_complete_velocity_gain" (.scalar (.real 0))
      (.leaf "tag_string_id" (.scalar (.str "")) .nil))⟩
  else if name = "TaskTagPose" then
    some ⟨"TaskTagPose", false, .parent (gainEntries 0) (.leaf "k_pose_gain" (.scalar (.real 0))
      (.leaf "tag_string_id" (.scalar (.str "")) .nil))⟩
  else if name = "TaskTagPose3Dof" then
    some ⟨"TaskTagPose3Dof", false, .parent (gainEntries 0) (.leaf "k_pose_gain" (.scalar (.real 0))
      (.leaf "tag_string_id" (.scalar (.str "")) .nil))⟩
  else coreTask name

/-- `getTask` of the planner of motions of Pepper (pepper_mpc/configurable_optimization_problem.h:24-74) and defaults of its tasks:
none of them has entries of its own, gains are set to 0 by `setDefaults` of the parents (task_baseaccelerationbounds.h:20-25,
task_basejerkminimization.h:20-26, task_basepositionref.h:20-26, task_basevelocitybounds.h:20-25, task_basevelocityref.h:20-26,
task_bodyjerkminimization.h:19-25, task_bodypositionbounds.h:20-25, task_bodypositionref.h:17-23, task_copcentering.h:20-26,
task_coppositionbounds.h:20-25). -/
def mpcTask (name : String) : Option TaskClass :=
  if name = "TaskBaseAccelerationBounds" then some ⟨"TaskBaseAccelerationBounds", false, gainEntries 0⟩
  else if name = "TaskBaseJerkMinimization" then some ⟨"TaskBaseJerkMinimization", false, gainEntries 0⟩
  else if name = "TaskBasePositionReference" then some ⟨"TaskBasePositionReference", false, gainEntries 0⟩
  else if name = "TaskBaseVelocityBounds" then some ⟨"TaskBaseVelocityBounds", true, .nil⟩
  else if name = "TaskBaseVelocityReference" then some ⟨"TaskBaseVelocityReference", true, gainEntries 0⟩
  else if name = "TaskBodyJerkMinimization" then
    some ⟨"TaskBodyJerkMinimization", true, .parent (gainEntries 0) (.leaf "variables_id" (.scalar (.str "body_pos")) .nil)⟩
  else if name = "TaskBodyPositionBounds" then some ⟨"TaskBodyPositionBounds", false, gainEntries 0⟩
  else if name = "TaskBodyPositionReference" then some ⟨"TaskBodyPositionReference", false, gainEntries 0⟩
  else if name = "TaskCoPCentering" then some ⟨"TaskCoPCentering", false, gainEntries 0⟩
  else if name = "TaskCoPPositionBounds" then some ⟨"TaskCoPPositionBounds", false, gainEntries 0⟩
  else coreTask name

end Humoto.Config
