import Verif.Model.ConfProblem
import Verif.Spec.Config

/-!
# Hierarchies in configuration files: what is expected
-/

namespace Humoto.Config.Spec

/-- The task is an object of the class which is created for the given name. -/
def OfClass (getTask : String → Option TaskClass) (className : String) (t : ConfTask) : Prop :=
  ∃ c, getTask className = some c ∧ t.type = c.type ∧ t.simple = c.simple ∧ SameClass c.defaults t.entries

/-- Hierarchies which are built with `reset` and `pushTask`, where each task is pushed with the name of its own class. -/
inductive Built (getTask : String → Option TaskClass) : ConfProblem → Prop
  | reset (p : ConfProblem) (n : ℕ) : Built getTask (p.reset n)
  | push {p p' : ConfProblem} {t : ConfTask} {level : ℕ} {className : String} (h : Built getTask p)
      (hc : OfClass getTask className t) (hp : p.push t level className = .ok p') : Built getTask p'

/-- Order of the tasks on a level: general tasks, the last one which has been pushed is the first, then simple tasks as they have
been pushed. -/
def inOrder (pushed : List ConfTask) : List ConfTask :=
  (pushed.filter fun t => !t.simple).reverse ++ pushed.filter fun t => t.simple

/-- Each task has its own description, which is not the name of one of the two lists. -/
def OwnSections (p : ConfProblem) : Prop :=
  (p.levels.flatten.map fun t => t.id).Nodup ∧ ∀ t ∈ p.levels.flatten, t.id ≠ "task_class_names" ∧ t.id ≠ "task_ids"

/-- Parameters which are written without loss: there are no matrices (C47) and numbers in YAML have at most 15 digits (C46). -/
def Lossless (f : Format) (e : Entries) : Prop :=
  Distinct e ∧ AllValues WellTyped e ∧ AllValues NoMatrix e ∧ (f = .yaml → AllValues (Numbers FifteenDigits) e)

/-- The section with the two lists, as they are stored in a file. -/
def HasLists (F : Fields) (classNames ids : List (List String)) : Prop :=
  F.find "task_class_names" = some (.leaf (seqsLeaf (strings classNames))) ∧
    F.find "task_ids" = some (.leaf (seqsLeaf (strings ids)))

/-- The two lists describe a hierarchy: there is at least one level and a name of a class for each description. -/
def ListsMatch (classNames ids : List (List String)) : Prop :=
  classNames ≠ [] ∧ List.Forall₂ (fun n i => n.length = i.length) classNames ids

/-- The task is a new object of the class with the given name; its parameters are those which are found in the section with the
name which is the description of the task, inside of the section of the hierarchy. -/
def Restored (f : Format) (file : Fields) (strict : Bool) (getTask : String → Option TaskClass) (inside : List Node)
    (className : String) (t : ConfTask) : Prop :=
  ∃ c, getTask className = some c ∧ t.type = c.type ∧ t.simple = c.simple ∧ SameClass c.defaults t.entries ∧
    readConfig f file strict c.defaults t.id inside = (.ok t.entries, inside)

/-- The levels are those which are described by the two lists. -/
def Describes (f : Format) (file : Fields) (strict : Bool) (getTask : String → Option TaskClass) (inside : List Node)
    (classNames ids : List (List String)) (levels : List (List ConfTask)) : Prop :=
  levels.length = classNames.length ∧ levels.length = ids.length ∧
  ∀ (i : ℕ) (l : List ConfTask) (n d : List String), levels[i]? = some l → classNames[i]? = some n → ids[i]? = some d →
    ∃ tasks, l = inOrder tasks ∧ d = tasks.map (fun t => t.id) ∧
      List.Forall₂ (Restored f file strict getTask inside) n tasks

/-- All classes are known. -/
def Known (getTask : String → Option TaskClass) (classNames : List (List String)) : Prop :=
  ∀ l ∈ classNames, ∀ n ∈ l, getTask n ≠ none

end Humoto.Config.Spec
