import Verif.Lemmas.ConfProblem

/-!
# Hierarchies in configuration files: C97
-/

set_option linter.unusedSimpArgs false

namespace Humoto.Config

open Spec

/-! ## Examples -/

/-- The hierarchy of core/tests/regression_test_000.cpp:147-160, with one simple task between general ones and different gains. -/
def exampleTask (type id : String) (simple : Bool) (e : Entries) : ConfTask := ⟨type, id, simple, e⟩

/-- `TaskInfeasibleInequality(gain, id)`. -/
def infeasible (gain : ℚ) (id : String) : ConfTask := ⟨"TaskInfeasibleInequality", id, false, gainEntries gain⟩

/-- `TaskZeroVariables(gain, id, vars)`. -/
def zeroVariables (gain : ℚ) (id vars : String) : ConfTask :=
  ⟨"TaskZeroVariables", id, true, .parent (gainEntries gain) (.leaf "variables_id" (.scalar (.str vars)) .nil)⟩

theorem infeasible_class (gain : ℚ) (id : String) : OfClass coreTask "TaskInfeasibleInequality" (infeasible gain id) :=
  ⟨⟨"TaskInfeasibleInequality", false, gainEntries 0⟩, by simp [coreTask], rfl, rfl, trivial, rfl, rfl, trivial⟩

theorem zeroVariables_class (gain : ℚ) (id vars : String) :
    OfClass coreTask "TaskZeroVariables" (zeroVariables gain id vars) :=
  ⟨⟨"TaskZeroVariables", true, .parent (gainEntries 0) (.leaf "variables_id" (.scalar (.str "")) .nil)⟩, by simp [coreTask],
    rfl, rfl, ⟨trivial, rfl, rfl, trivial⟩, rfl, rfl, trivial⟩

/-- A hierarchy of two levels: `task3` is general and is pushed last, so it is the first on its level. -/
def exampleProblem : ConfProblem :=
  ⟨[[infeasible 3 "task3", infeasible (1 / 2) "task1", zeroVariables 2 "task2" "CoP"], [zeroVariables 1 "task4" ""]],
    [["TaskInfeasibleInequality", "TaskZeroVariables", "TaskInfeasibleInequality"], ["TaskZeroVariables"]],
    [["task1", "task2", "task3"], ["task4"]]⟩

theorem example_built : Built coreTask exampleProblem := by
  refine .push (p := ⟨[[infeasible 3 "task3", infeasible (1 / 2) "task1", zeroVariables 2 "task2" "CoP"], []],
    [["TaskInfeasibleInequality", "TaskZeroVariables", "TaskInfeasibleInequality"], []], [["task1", "task2", "task3"], []]⟩)
    (level := 1) ?_ (zeroVariables_class 1 "task4" "") rfl
  refine .push (p := ⟨[[infeasible (1 / 2) "task1", zeroVariables 2 "task2" "CoP"], []],
    [["TaskInfeasibleInequality", "TaskZeroVariables"], []], [["task1", "task2"], []]⟩) (level := 0) ?_ (infeasible_class 3 "task3") rfl
  refine .push (p := ⟨[[infeasible (1 / 2) "task1"], []], [["TaskInfeasibleInequality"], []], [["task1"], []]⟩) (level := 0) ?_
    (zeroVariables_class 2 "task2" "CoP") rfl
  exact .push (level := 0) (.reset .new 2) (infeasible_class (1 / 2) "task1") rfl

theorem example_sections : OwnSections exampleProblem := by
  refine ⟨by simp [exampleProblem, infeasible, zeroVariables], fun t ht => ?_⟩
  simp only [exampleProblem, List.flatten_cons, List.flatten_nil, List.append_nil, List.cons_append, List.nil_append,
    List.mem_cons, List.not_mem_nil, or_false] at ht
  rcases ht with rfl | rfl | rfl | rfl <;> simp [infeasible, zeroVariables]

theorem gain_digits {m k : ℤ} (h : |m| < 10 ^ 15) : FifteenDigits ((m : ℚ) * (10 : ℚ) ^ k) := ⟨m, k, h, rfl⟩

theorem infeasible_lossless (f : Format) {gain : ℚ} (h : FifteenDigits gain) (id : String) :
    Lossless f (infeasible gain id).entries := by
  refine ⟨?_, ?_, ?_, fun _ => ?_⟩
  · simp [infeasible, gainEntries, Distinct, names]
  · simp [infeasible, gainEntries, AllValues, WellTyped]
  · simp [infeasible, gainEntries, AllValues, NoMatrix]
  · exact ⟨trivial, h, trivial⟩

theorem zeroVariables_lossless (f : Format) {gain : ℚ} (h : FifteenDigits gain) (id vars : String) :
    Lossless f (zeroVariables gain id vars).entries := by
  refine ⟨?_, ?_, ?_, fun _ => ?_⟩
  · simp [zeroVariables, gainEntries, Distinct, names]
  · simp [zeroVariables, gainEntries, AllValues, WellTyped]
  · simp [zeroVariables, gainEntries, AllValues, NoMatrix]
  · exact ⟨⟨trivial, h, trivial⟩, trivial, trivial⟩

theorem example_lossless (f : Format) : ∀ t ∈ exampleProblem.levels.flatten, Lossless f t.entries := by
  intro t ht
  simp only [exampleProblem, List.flatten_cons, List.flatten_nil, List.append_nil, List.cons_append, List.nil_append,
    List.mem_cons, List.not_mem_nil, or_false] at ht
  rcases ht with rfl | rfl | rfl | rfl
  · exact infeasible_lossless f ⟨3, 0, by norm_num, by norm_num⟩ _
  · exact infeasible_lossless f ⟨5, -1, by norm_num, by norm_num⟩ _
  · exact zeroVariables_lossless f ⟨2, 0, by norm_num, by norm_num⟩ _ _
  · exact zeroVariables_lossless f ⟨1, 0, by norm_num, by norm_num⟩ _ _

/-! ## Building -/

/-- C97: tasks are pushed to a hierarchy with `n` levels. If one of the levels does not exist, an exception is thrown. Otherwise
each level contains the tasks which have been pushed to it, in the order which is documented, and the lists of names of classes
and of descriptions have them in the order of pushing. -/
theorem C97_push (p : ConfProblem) (n : ℕ) (tasks : List (ConfTask × ℕ × String)) :
    ((∃ t ∈ tasks, n ≤ t.2.1) →
      tasks.foldlM (fun q t => q.push t.1 t.2.1 t.2.2) (p.reset n) = .error .thrown) ∧
    ((∀ t ∈ tasks, t.2.1 < n) →
      ∃ q, tasks.foldlM (fun q t => q.push t.1 t.2.1 t.2.2) (p.reset n) = .ok q ∧
        q.levels = (List.range n).map (fun i => inOrder ((tasks.filter fun t => t.2.1 = i).map fun t => t.1)) ∧
        q.classNames = (List.range n).map (fun i => (tasks.filter fun t => t.2.1 = i).map fun t => t.2.2) ∧
        q.ids = (List.range n).map (fun i => (tasks.filter fun t => t.2.1 = i).map fun t => t.1.id)) := by
  have key : ∀ (tasks : List (ConfTask × ℕ × String)), (∀ t ∈ tasks, t.2.1 < n) →
      ∃ q, tasks.foldlM (fun q t => q.push t.1 t.2.1 t.2.2) (p.reset n) = (.ok q : Except Fault ConfProblem) ∧
        q.levels = (List.range n).map (fun i => inOrder ((tasks.filter fun t => t.2.1 = i).map fun t => t.1)) ∧
        q.classNames = (List.range n).map (fun i => (tasks.filter fun t => t.2.1 = i).map fun t => t.2.2) ∧
        q.ids = (List.range n).map (fun i => (tasks.filter fun t => t.2.1 = i).map fun t => t.1.id) := by
    intro tasks
    induction tasks using List.reverseRecOn with
    | nil =>
      intro _
      refine ⟨p.reset n, rfl, ?_, ?_, ?_⟩ <;>
      · refine List.ext_getElem? fun i => ?_
        simp only [ConfProblem.reset, List.getElem?_replicate, List.getElem?_map, List.filter_nil, List.map_nil]
        by_cases hi : i < n
        · simp [hi, inOrder]
        · simp [hi]
    | append_singleton tasks t ih =>
      intro h
      obtain ⟨q, h1, h2, h3, h4⟩ := ih fun u hu => h u (by simp [hu])
      have ht : t.2.1 < n := h t (by simp)
      refine ⟨⟨q.levels.modify t.2.1 (pushOnLevel · t.1), q.classNames.modify t.2.1 (· ++ [t.2.2]),
        q.ids.modify t.2.1 (· ++ [t.1.id])⟩, ?_, ?_, ?_, ?_⟩
      · rw [List.foldlM_append, h1]
        show ([t].foldlM (fun q t => q.push t.1 t.2.1 t.2.2) q : Except Fault ConfProblem) = _
        rw [List.foldlM_cons, ConfProblem.push, if_pos (by rw [h2]; simpa using ht)]
        rfl
      all_goals
        refine List.ext_getElem? fun i => ?_
        simp only [List.getElem?_modify, h2, h3, h4, List.getElem?_map]
        by_cases hi : i < n
        · by_cases e : t.2.1 = i
          · simp [hi, e, List.filter_append, inOrder_snoc]
          · simp [hi, e, List.filter_append]
        · simp [hi]
  refine ⟨?_, key tasks⟩
  induction tasks using List.reverseRecOn with
  | nil => rintro ⟨t, ht, _⟩; cases ht
  | append_singleton tasks t ih =>
    intro h
    rw [List.foldlM_append]
    by_cases hb : ∃ u ∈ tasks, n ≤ u.2.1
    · rw [ih hb]; rfl
    · obtain ⟨u, hu, hle⟩ := h
      rcases List.mem_append.1 hu with hu | hu
      · exact absurd ⟨u, hu, hle⟩ hb
      · rw [List.mem_singleton.1 hu] at hle
        obtain ⟨q, h1, h2, _⟩ := key tasks fun u hu => Nat.lt_of_not_le fun h => hb ⟨u, hu, h⟩
        rw [h1]
        show ([t].foldlM (fun q t => q.push t.1 t.2.1 t.2.2) q : Except Fault ConfProblem) = _
        rw [List.foldlM_cons, ConfProblem.push, if_neg (by rw [h2]; simpa using hle)]
        rfl

example : [(infeasible (1 / 2) "task1", 0, "TaskInfeasibleInequality"), (zeroVariables 2 "task2" "CoP", 0, "TaskZeroVariables"),
    (infeasible 3 "task3", 0, "TaskInfeasibleInequality"), (zeroVariables 1 "task4" "", 1, "TaskZeroVariables")].foldlM
      (fun q t => q.push t.1 t.2.1 t.2.2) (ConfProblem.new.reset 2) = .ok exampleProblem := rfl

/-- C97: a hierarchy without levels cannot be written: an exception is thrown; every other hierarchy is written, and the number
of entries which is announced (for msgpack) is the number of entries which are written: the two lists and one section for each
task. -/
theorem C97_write (getTask : String → Option TaskClass) (p : ConfProblem) (hb : Built getTask p) (f : Format) (file : Fields)
    (name : String) :
    (p.levels = [] → p.writeConfig f file name = .error .thrown) ∧
    (p.levels ≠ [] → ∃ file', p.writeConfig f file name = .ok file') ∧
    p.entries.number = 2 + p.levels.flatten.length ∧ (writeEntries f p.entries).keys.length = 2 + p.levels.flatten.length := by
  have hn := built_ne hb
  have h1 : ∀ l : List ConfTask, (taskMembers l).number = l.length := by
    intro l
    induction l with
    | nil => rfl
    | cons t l ih => simp [taskMembers, Entries.number, ih]; omega
  refine ⟨fun h => ?_, fun h => ?_, ?_, ?_⟩
  · rw [ConfProblem.writeConfig, if_pos (hn.2 h)]
  · exact ⟨_, by rw [ConfProblem.writeConfig, if_neg fun e => h (hn.1 e)]⟩
  · simp only [ConfProblem.entries, Entries.number, h1]; omega
  · rw [keys_write]
    simp only [ConfProblem.entries, names, names_taskMembers, List.length_cons, List.length_map]; omega

/-! ## Round trip -/

/-- C97: a hierarchy which is written to a file is restored: levels, tasks of the same classes with the same descriptions and
parameters in the same order, names of classes and descriptions; whatever other sections the file contains, whatever the object
contained before reading, in both formats. Descriptions of tasks must be different (otherwise refuted below). -/
theorem C97_round_trip_partial (getTask : String → Option TaskClass) (p : ConfProblem) (hb : Built getTask p) (f : Format)
    (hs : OwnSections p) (hl : ∀ t ∈ p.levels.flatten, Lossless f t.entries) (before after : Fields) (name : String)
    (hn : name ∉ before.keys) (written : Fields) (hw : p.writeConfig f before name = .ok written) (q : ConfProblem) (strict : Bool)
    (file : Fields) (hf : file = written.append after) :
    q.readConfig f file strict getTask name (openFile f file) = (.ok p, openFile f file) := by
  rw [ConfProblem.writeConfig] at hw
  split_ifs at hw with he
  cases hw
  have e : file = before.append (.map name (writeEntries f p.entries) after) := by
    rw [hf, writeConfig, append_assoc]; rfl
  have hd : descend f file name (openFile f file) = (.ok true, .map (writeEntries f p.entries) :: openFile f file) := by
    cases f with
    | yaml => rw [e]; simp [openFile, descend, Node.find, find_append_right hn, Fields.find]
    | msgpack => rw [e]; simp [openFile, descend, findMap_append_right hn, Fields.findMap]
  obtain ⟨h1, h2, h3⟩ := built_levels hb
  rw [ConfProblem.readConfig, bind_ok hd, if_pos rfl]
  have hr : q.readEntries f file strict getTask (.map (writeEntries f p.entries) :: openFile f file)
      = (.ok p, .map (writeEntries f p.entries) :: openFile f file) := by
    rw [readEntries_lists (hasLists_written f p), bind_ok (assert_true he _), bind_ok (assert_true (by rw [h1, h2]) _),
      bind_ok (readLevels_written p.levels p.classNames p.ids h1 h2 h3 fun t ht => ⟨find_task hs ht, hl t ht⟩)]
    rfl
  rw [bind_ok hr, bind_ok (ascend_cons _ _)]
  rfl

example (q : ConfProblem) (f : Format) : ∃ file, exampleProblem.writeConfig f (.map "other" .nil .nil) "hierarchy" = .ok file ∧
    q.readConfig f file true coreTask "hierarchy" (openFile f file) = (.ok exampleProblem, openFile f file) := by
  obtain ⟨file, h⟩ := (C97_write coreTask exampleProblem example_built f (.map "other" .nil .nil) "hierarchy").2.1
    (by simp [exampleProblem])
  exact ⟨file, h, C97_round_trip_partial coreTask exampleProblem example_built f example_sections (example_lossless f)
    (.map "other" .nil .nil) .nil "hierarchy" (by simp [Fields.keys]) file h q true file (append_nil _).symm⟩

/-- C97 does not hold if two tasks have the same description (which is so for two tasks of one class whose description is not
changed): both tasks get the parameters of one of them. There is no check. -/
theorem C97_same_ids_refuted : ∀ f : Format, ∃ (p p' : ConfProblem) (file : Fields), Built coreTask p ∧
    (∀ t ∈ p.levels.flatten, Lossless f t.entries) ∧ p.writeConfig f .nil "hierarchy" = .ok file ∧
    ConfProblem.new.readConfig f file true coreTask "hierarchy" (openFile f file) = (.ok p', openFile f file) ∧
    p'.ids = p.ids ∧ p'.levels ≠ p.levels := by
  intro f
  refine ⟨⟨[[infeasible 2 "Infeasible_Inequality_Task", infeasible 1 "Infeasible_Inequality_Task"]],
    [["TaskInfeasibleInequality", "TaskInfeasibleInequality"]], [["Infeasible_Inequality_Task", "Infeasible_Inequality_Task"]]⟩,
    ⟨[[infeasible 2 "Infeasible_Inequality_Task", infeasible 2 "Infeasible_Inequality_Task"]],
    [["TaskInfeasibleInequality", "TaskInfeasibleInequality"]], [["Infeasible_Inequality_Task", "Infeasible_Inequality_Task"]]⟩, _,
    ?_, ?_, rfl, ?_, rfl, ?_⟩
  · exact .push (p := ⟨[[infeasible 1 "Infeasible_Inequality_Task"]], [["TaskInfeasibleInequality"]],
      [["Infeasible_Inequality_Task"]]⟩) (level := 0) (.push (level := 0) (.reset .new 1) (infeasible_class 1 _) rfl)
      (infeasible_class 2 _) rfl
  · intro t ht
    simp only [List.flatten_cons, List.flatten_nil, List.append_nil, List.mem_cons, List.not_mem_nil, or_false] at ht
    rcases ht with rfl | rfl
    · exact infeasible_lossless f ⟨2, 0, by norm_num, by norm_num⟩ _
    · exact infeasible_lossless f ⟨1, 0, by norm_num, by norm_num⟩ _
  · set p : ConfProblem := ⟨[[infeasible 2 "Infeasible_Inequality_Task", infeasible 1 "Infeasible_Inequality_Task"]],
      [["TaskInfeasibleInequality", "TaskInfeasibleInequality"]],
      [["Infeasible_Inequality_Task", "Infeasible_Inequality_Task"]]⟩ with hp
    set file := writeConfig f .nil "hierarchy" p.entries with hfile
    have hd : descend f file "hierarchy" (openFile f file) = (.ok true, .map (writeEntries f p.entries) :: openFile f file) := by
      cases f <;> simp [hfile, writeConfig, openFile, descend, Node.find, Fields.append, Fields.find, Fields.findMap]
    have hin : ∀ (d : Entries), SameClass d (gainEntries 2) →
        readConfig f file true d "Infeasible_Inequality_Task" (.map (writeEntries f p.entries) :: openFile f file)
          = (.ok (gainEntries 2), .map (writeEntries f p.entries) :: openFile f file) := by
      intro d hd
      refine readConfig_inner hd (infeasible_lossless f ⟨2, 0, by norm_num, by norm_num⟩ "") ?_
      rw [writeEntries_problem]
      simp [Fields.find, hp, taskMembers, writeEntries, infeasible]
    have hcls : coreTask "TaskInfeasibleInequality" = some ⟨"TaskInfeasibleInequality", false, gainEntries 0⟩ := by simp [coreTask]
    have hsc : SameClass (gainEntries 0) (gainEntries 2) := ⟨trivial, rfl, rfl, trivial⟩
    have ht : readTasks f file true coreTask ["TaskInfeasibleInequality", "TaskInfeasibleInequality"]
        ["Infeasible_Inequality_Task", "Infeasible_Inequality_Task"] [] (.map (writeEntries f p.entries) :: openFile f file)
        = (.ok [infeasible 2 "Infeasible_Inequality_Task", infeasible 2 "Infeasible_Inequality_Task"],
          .map (writeEntries f p.entries) :: openFile f file) := by
      simp only [readTasks, hcls]
      rw [bind_ok (hin _ hsc), bind_ok (hin _ hsc)]
      rfl
    have hlev : readLevels f file true coreTask [["TaskInfeasibleInequality", "TaskInfeasibleInequality"]]
        [["Infeasible_Inequality_Task", "Infeasible_Inequality_Task"]] (.map (writeEntries f p.entries) :: openFile f file)
        = (.ok [[infeasible 2 "Infeasible_Inequality_Task", infeasible 2 "Infeasible_Inequality_Task"]],
          .map (writeEntries f p.entries) :: openFile f file) := by
      rw [readLevels, bind_ok (assert_true (by rfl) _), bind_ok ht]
      rfl
    rw [ConfProblem.readConfig, bind_ok hd, if_pos rfl]
    rw [bind_ok (a := ⟨[[infeasible 2 "Infeasible_Inequality_Task", infeasible 2 "Infeasible_Inequality_Task"]],
      [["TaskInfeasibleInequality", "TaskInfeasibleInequality"]], [["Infeasible_Inequality_Task", "Infeasible_Inequality_Task"]]⟩)
      (st' := .map (writeEntries f p.entries) :: openFile f file)]
    · rfl
    · rw [readEntries_lists (hasLists_written f p), bind_ok (assert_true (by simp [hp]) _), bind_ok (assert_true (by rfl) _),
        bind_ok hlev]
      rfl
  · simp [infeasible, gainEntries]

/-! ## Any file -/

/-- C97: if a section is read successfully, the lists in it match, all classes are known, and the object has the levels which
they describe: for each name of a class and each description a new task of this class with this description, whose parameters
are taken from the section of this task; the reader is where it was. -/
theorem C97_read (f : Format) (file F : Fields) (strict : Bool) (getTask : String → Option TaskClass) (name : String)
    (st : List Node) (hd : descend f file name st = (.ok true, .map F :: st)) (classNames ids : List (List String))
    (hF : HasLists F classNames ids) (q p : ConfProblem) (st' : List Node)
    (h : q.readConfig f file strict getTask name st = (.ok p, st')) :
    st' = st ∧ ListsMatch classNames ids ∧ Known getTask classNames ∧ p.classNames = classNames ∧ p.ids = ids ∧
      Describes f file strict getTask (.map F :: st) classNames ids p.levels := by
  rw [ConfProblem.readConfig, bind_ok hd, if_pos rfl] at h
  obtain ⟨a, s, h1, h2⟩ := bind_eq_ok h
  rw [readEntries_lists hF] at h1
  by_cases he : classNames ≠ []
  · rw [bind_ok (assert_true he _)] at h1
    by_cases hl : classNames.length = ids.length
    · rw [bind_ok (assert_true hl _)] at h1
      obtain ⟨levels, s', h3, h4⟩ := bind_eq_ok h1
      obtain ⟨rfl, g1, g2⟩ := readLevels_ok hl h3
      cases h4
      rw [bind_ok (ascend_cons _ _)] at h2
      cases h2
      exact ⟨rfl, ⟨he, g1⟩, known_of_describes g2, rfl, rfl, g2⟩
    · rw [bind_error (assert_false hl _)] at h1
      cases h1
  · rw [bind_error (assert_false he _)] at h1
    cases h1

example (q : ConfProblem) : ∃ F file, descend .msgpack file "hierarchy" [] = (.ok true, [.map F]) ∧
    HasLists F exampleProblem.classNames exampleProblem.ids ∧
    q.readConfig .msgpack file true coreTask "hierarchy" [] = (.ok exampleProblem, []) := by
  obtain ⟨file, h⟩ := (C97_write coreTask exampleProblem example_built .msgpack .nil "hierarchy").2.1 (by simp [exampleProblem])
  refine ⟨writeEntries .msgpack exampleProblem.entries, file, ?_, hasLists_written _ _,
    C97_round_trip_partial coreTask exampleProblem example_built .msgpack example_sections (example_lossless _) .nil .nil "hierarchy"
      (by simp [Fields.keys]) file h q true file (append_nil _).symm⟩
  rw [ConfProblem.writeConfig, if_neg (by simp [exampleProblem])] at h
  cases h
  simp [writeConfig, descend, Fields.append, Fields.findMap]

/-- C97: if all classes are known, then whatever else is in the file, reading either succeeds or throws an exception, it is never
undefined; an exception is thrown if the lists do not match: they are empty, have different numbers of levels or a level has
different numbers of names and descriptions. -/
theorem C97_rejects (f : Format) (file F : Fields) (strict : Bool) (getTask : String → Option TaskClass) (name : String)
    (st : List Node) (hd : descend f file name st = (.ok true, .map F :: st)) (classNames ids : List (List String))
    (hF : HasLists F classNames ids) (hk : Known getTask classNames) (q : ConfProblem) :
    ((∃ p, q.readConfig f file strict getTask name st = (.ok p, st)) ∨
      (q.readConfig f file strict getTask name st).1 = .error .thrown) ∧
    (¬ ListsMatch classNames ids → (q.readConfig f file strict getTask name st).1 = .error .thrown) := by
  have key : (∃ p, q.readConfig f file strict getTask name st = (.ok p, st)) ∨
      (q.readConfig f file strict getTask name st).1 = .error .thrown := by
    rw [ConfProblem.readConfig, bind_ok hd, if_pos rfl]
    have h := readEntries_lists (f := f) (file := file) (strict := strict) (getTask := getTask) hF q st
    by_cases he : classNames ≠ []
    · rw [bind_ok (assert_true he _)] at h
      by_cases hl : classNames.length = ids.length
      · rw [bind_ok (assert_true hl _)] at h
        rcases safe_readLevels (f := f) (file := file) (strict := strict) hk hl (.map F) st with ⟨a, e⟩ | ⟨s, e⟩
        · rw [bind_ok e] at h
          left
          exact ⟨_, by rw [bind_ok h, bind_ok (ascend_cons _ _)]; rfl⟩
        · rw [bind_error e] at h
          right
          rw [bind_error h]
      · rw [bind_error (assert_false hl _)] at h
        right
        rw [bind_error h]
    · rw [bind_error (assert_false he _)] at h
      right
      rw [bind_error h]
  refine ⟨key, fun hm => ?_⟩
  rcases key with ⟨p, e⟩ | h
  · exact absurd (C97_read f file F strict getTask name st hd classNames ids hF q p st e).2.1 hm
  · exact h

/-- Two names and one description. -/
example : (ConfProblem.new.readConfig .yaml (.map "hierarchy" (.leaf "task_class_names"
      (.seqs [[.str "TaskZeroVariables", .str "TaskZeroVariables"]]) (.leaf "task_ids" (.seqs [[.str "a"]])
        (.map "a" (.leaf "gain" (.scalar (.int 1)) (.leaf "variables_id" (.scalar (.str "")) .nil)) .nil))) .nil) true
    coreTask "hierarchy" (openFile .yaml (.map "hierarchy" (.leaf "task_class_names"
      (.seqs [[.str "TaskZeroVariables", .str "TaskZeroVariables"]]) (.leaf "task_ids" (.seqs [[.str "a"]])
        (.map "a" (.leaf "gain" (.scalar (.int 1)) (.leaf "variables_id" (.scalar (.str "")) .nil)) .nil))) .nil))).1
      = .error .thrown := by
  refine (C97_rejects .yaml _ _ true coreTask "hierarchy" _ rfl [["TaskZeroVariables", "TaskZeroVariables"]] [["a"]] ⟨rfl, rfl⟩
    ?_ _).2 ?_
  · intro l hl n hn
    simp only [List.mem_singleton] at hl
    subst hl
    simp only [List.mem_cons, List.not_mem_nil, or_false, or_self] at hn
    subst hn
    simp [coreTask]
  · rintro ⟨_, h⟩
    cases h with
    | cons h _ => simp at h

/-- C97: a section without the list of classes or without the list of descriptions is rejected if missing entries are not
allowed. -/
theorem C97_missing_lists (f : Format) (file F : Fields) (getTask : String → Option TaskClass) (name : String)
    (st : List Node) (hd : descend f file name st = (.ok true, .map F :: st)) (q : ConfProblem)
    (hF : F.find "task_class_names" = none ∨
      (∃ classNames, F.find "task_class_names" = some (.leaf (seqsLeaf (strings classNames)))) ∧ F.find "task_ids" = none) :
    (q.readConfig f file true getTask name st).1 = .error .thrown := by
  rw [ConfProblem.readConfig, bind_ok hd, if_pos rfl]
  rcases hF with h | ⟨⟨n, h1⟩, h2⟩
  · rw [bind_error (e := .thrown) (st' := .map F :: st)]
    rw [ConfProblem.readEntries, bind_error]
    rw [readLists_missing h, missing_strict]
  · rw [bind_error (e := .thrown) (st' := .map F :: st)]
    rw [ConfProblem.readEntries, bind_ok (readLists_found h1), bind_error]
    rw [readLists_missing h2, missing_strict]

example : (ConfProblem.new.readConfig .msgpack (.map "hierarchy" .nil .nil) true coreTask "hierarchy" []).1 = .error .thrown :=
  C97_missing_lists .msgpack (.map "hierarchy" .nil .nil) .nil coreTask "hierarchy" [] rfl _ (.inl rfl)

/-- C97: a name of a class which is not known is not reported, whatever is in the file: a null pointer is dereferenced. -/
theorem C97_unknown (f : Format) (file F : Fields) (strict : Bool) (getTask : String → Option TaskClass) (name : String)
    (st : List Node) (hd : descend f file name st = (.ok true, .map F :: st)) (unknown id : String) (names ids : List String)
    (classNames allIds : List (List String)) (hu : getTask unknown = none) (hl : names.length = ids.length)
    (hL : classNames.length = allIds.length) (hF : HasLists F ((unknown :: names) :: classNames) ((id :: ids) :: allIds))
    (q : ConfProblem) : (q.readConfig f file strict getTask name st).1 = .error .ub := by
  rw [ConfProblem.readConfig, bind_ok hd, if_pos rfl]
  have h := readEntries_lists (f := f) (file := file) (strict := strict) (getTask := getTask) hF q st
  rw [bind_ok (assert_true (by simp) _), bind_ok (assert_true (by simp [hL]) _)] at h
  have ht : readTasks f file strict getTask (unknown :: names) (id :: ids) [] (.map F :: st) = (.error .ub, .map F :: st) := by
    simp only [readTasks, hu]; rfl
  have hr : readLevels f file strict getTask ((unknown :: names) :: classNames) ((id :: ids) :: allIds) (.map F :: st)
      = (.error .ub, .map F :: st) := by
    rw [readLevels, bind_ok (assert_true (by simp [hl]) _), bind_error ht]
  rw [bind_error hr] at h
  rw [bind_error h]

/-- C97 does not hold for a file with an unknown class: the message `Unknown task name` is never produced. -/
theorem C97_unknown_refuted : ∀ f : Format, ∃ file : Fields,
    (ConfProblem.new.readConfig f file true coreTask "hierarchy" (openFile f file)).1 = .error .ub := by
  intro f
  refine ⟨.map "hierarchy" (.leaf "task_class_names" (.seqs [[.str "TaskZero"]]) (.leaf "task_ids" (.seqs [[.str "a"]])
    (.map "a" .nil .nil))) .nil, ?_⟩
  refine C97_unknown f _ (.leaf "task_class_names" (.seqs [[.str "TaskZero"]]) (.leaf "task_ids" (.seqs [[.str "a"]])
    (.map "a" .nil .nil))) true coreTask "hierarchy" _ ?_ "TaskZero" "a" [] [] [] [] (by simp [coreTask]) rfl rfl ⟨rfl, rfl⟩ _
  cases f <;> rfl

/-- C97: what is read when missing entries are allowed depends on the old contents of the object: descriptions are not reset
before reading. The same section is rejected by a new object and is accepted by an object which has been used. -/
theorem C97_stale_ids_refuted : ∀ f : Format, ∃ (file : Fields) (q p : ConfProblem), Built coreTask q ∧
    (ConfProblem.new.readConfig f file false coreTask "hierarchy" (openFile f file)).1 = .error .thrown ∧
    q.readConfig f file false coreTask "hierarchy" (openFile f file) = (.ok p, openFile f file) := by
  intro f
  refine ⟨.map "hierarchy" (.leaf "task_class_names" (.seqs [[.str "TaskInfeasibleInequality"]]) .nil) .nil,
    ⟨[[infeasible 1 "old"]], [["TaskInfeasibleInequality"]], [["old"]]⟩,
    ⟨[[infeasible 0 "old"]], [["TaskInfeasibleInequality"]], [["old"]]⟩, ?_, ?_, ?_⟩
  · exact .push (level := 0) (.reset .new 1) (infeasible_class 1 "old") rfl
  · cases f <;> rfl
  · cases f <;> rfl

/-- C97: if the section is missing and this is allowed, the tasks remain in the object, but it cannot be written any more. -/
theorem C97_missing_section (f : Format) (file : Fields) (getTask : String → Option TaskClass) (name : String)
    (hn : name ∉ file.keys) (q : ConfProblem) :
    (q.readConfig f file true getTask name (openFile f file)).1 = .error .thrown ∧
    ∃ p, q.readConfig f file false getTask name (openFile f file) = (.ok p, openFile f file) ∧ p.levels = q.levels ∧
      ∀ g file' name', p.writeConfig g file' name' = .error .thrown := by
  have hd : descend f file name (openFile f file) = (.ok false, openFile f file) := by
    cases f with
    | yaml => simp [openFile, descend, Node.find, find_none hn]
    | msgpack => simp [openFile, descend, findMap_none hn]
  refine ⟨by rw [ConfProblem.readConfig, bind_ok hd, if_neg (by simp), missing_strict], { q with classNames := [] }, ?_, rfl,
    fun g file' name' => rfl⟩
  rw [ConfProblem.readConfig, bind_ok hd, if_neg (by simp), missing_relaxed]

example : ∃ p, exampleProblem.readConfig .yaml (.map "other" .nil .nil) false coreTask "hierarchy"
      (openFile .yaml (.map "other" .nil .nil)) = (.ok p, openFile .yaml (.map "other" .nil .nil)) ∧
    p.levels = exampleProblem.levels := by
  obtain ⟨p, h1, h2, _⟩ := (C97_missing_section .yaml (.map "other" .nil .nil) coreTask "hierarchy" (by simp [Fields.keys])
    exampleProblem).2
  exact ⟨p, h1, h2⟩

/-! ## A hierarchy of the walking pattern generator -/

/-- `Hierarchy00` of modules/wpg04/config/hierarchies.yaml:2-15. -/
def wpgHierarchy00 : Fields :=
  .leaf "task_class_names" (.seqs [[.str "TaskFootstepBounds", .str "TaskCoPBounds"],
      [.str "TaskCoMVelocity", .str "TaskCoPPosition", .str "TaskCoPVelocity"]])
    (.leaf "task_ids" (.seqs [[.str "TaskFootstepBounds", .str "TaskCoPBounds"],
      [.str "TaskCoMVelocity", .str "TaskCoPPosition", .str "TaskCoPVelocity"]])
    (.map "TaskFootstepBounds" (.leaf "fix_footsteps" (.scalar (.bool false)) .nil)
    (.map "TaskCoPBounds" .nil
    (.map "TaskCoPVelocity" (.leaf "gain" (.scalar (.real (223606797749979 / 10 ^ 15))) .nil)
    (.map "TaskCoMVelocity" (.leaf "gain" (.scalar (.real (707106781186548 / 10 ^ 15))) .nil)
    (.map "TaskCoPPosition" (.leaf "gain" (.scalar (.real (122474487139159 / 10 ^ 13)))
      (.leaf "variables_id" (.scalar (.str "CoP")) .nil)) .nil))))))

/-- C97: the hierarchy which is read from this file: bounds on the first level, on the second level the velocity of the CoP is
before the velocity of the CoM, since both are general, and the position of the CoP is the last, since it is simple. -/
theorem C97_wpg (q : ConfProblem) (after : Fields) (file : Fields) (hf : file = .map "Hierarchy00" wpgHierarchy00 after) :
    q.readConfig .yaml file true wpgTask "Hierarchy00" (openFile .yaml file)
      = (.ok ⟨[[⟨"TaskFootstepBounds", "TaskFootstepBounds", true, .parent .nil (.leaf "fix_footsteps" (.scalar (.bool false)) .nil)⟩,
            ⟨"TaskCoPBounds", "TaskCoPBounds", true, .parent .nil .nil⟩],
          [⟨"TaskCoPVelocity", "TaskCoPVelocity", false, .parent (gainEntries (223606797749979 / 10 ^ 15)) .nil⟩,
            ⟨"TaskCoMVelocity", "TaskCoMVelocity", false, .parent (gainEntries (707106781186548 / 10 ^ 15)) .nil⟩,
            ⟨"TaskCoPPosition", "TaskCoPPosition", true, .parent (.parent (gainEntries (122474487139159 / 10 ^ 13))
              (.leaf "variables_id" (.scalar (.str "CoP")) .nil)) .nil⟩]],
          [["TaskFootstepBounds", "TaskCoPBounds"], ["TaskCoMVelocity", "TaskCoPPosition", "TaskCoPVelocity"]],
          [["TaskFootstepBounds", "TaskCoPBounds"], ["TaskCoMVelocity", "TaskCoPPosition", "TaskCoPVelocity"]]⟩,
        openFile .yaml file) := by
  subst hf
  rfl


/-! ## Registries of classes -/

/-- Names of the classes of the core. -/
def coreNames : List String := ["TaskInfeasibleInequality", "TaskZeroVariables", "TaskZeroSelectedVariables"]

/-- Names of the classes of the inverse kinematics of Pepper. -/
def ikNames : List String :=
  ["TaskBaseCoMTracking", "TaskBaseOrientation", "TaskBodyCoMTracking", "TaskFixArms", "TaskFixHead", "TaskJointsBounds",
    "TaskJointsReference", "TaskTagOrientation", "TaskTagAngularVelocity", "TaskTagCompleteVelocity", "TaskTagPose",
    "TaskTagPose3Dof"]

/-- Names of the classes of the planner of motions of Pepper. -/
def mpcNames : List String :=
  ["TaskBaseAccelerationBounds", "TaskBaseJerkMinimization", "TaskBasePositionReference", "TaskBaseVelocityBounds",
    "TaskBaseVelocityReference", "TaskBodyJerkMinimization", "TaskBodyPositionBounds", "TaskBodyPositionReference",
    "TaskCoPCentering", "TaskCoPPositionBounds"]

/-- Names of the classes of the walking pattern generator. -/
def wpgNames : List String :=
  ["TaskCoMVelocity", "TaskCoPPosition", "TaskCoPVelocity", "TaskFootstepBounds", "TaskCoPBounds", "TaskTerminalConstraint"]

/-- A registry knows exactly the given names, and gives for each of them the class with this name. -/
def Registers (getTask : String → Option TaskClass) (names : List String) : Prop :=
  (∀ name ∈ names, ∃ c, getTask name = some c ∧ c.type = name) ∧ ∀ name, name ∉ names → getTask name = none

/-- C97: each registry knows the classes of its module and those of the core, and nothing else; under each name it gives the
class with this name. -/
theorem C97_registered (angles : List ℚ) :
    Registers coreTask coreNames ∧ Registers wpgTask (wpgNames ++ coreNames) ∧
    Registers (ikTask angles) (ikNames ++ coreNames) ∧ Registers mpcTask (mpcNames ++ coreNames) := by
  refine ⟨⟨?_, ?_⟩, ⟨?_, ?_⟩, ⟨?_, ?_⟩, ⟨?_, ?_⟩⟩
  · intro name h
    simp only [coreNames, List.mem_cons, List.not_mem_nil, or_false] at h
    rcases h with rfl | rfl | rfl <;> exact ⟨_, rfl, rfl⟩
  · intro name h
    simp only [coreNames, List.mem_cons, List.not_mem_nil, or_false, not_or] at h
    simp only [coreTask, h, if_false]
  · intro name h
    simp only [coreNames, wpgNames, List.cons_append, List.nil_append, List.mem_cons, List.not_mem_nil, or_false] at h
    rcases h with rfl | rfl | rfl | rfl | rfl | rfl | rfl | rfl | rfl <;> exact ⟨_, rfl, rfl⟩
  · intro name h
    simp only [coreNames, wpgNames, List.cons_append, List.nil_append, List.mem_cons, List.not_mem_nil, or_false, not_or] at h
    simp only [coreTask, wpgTask, h, if_false]
  · intro name h
    simp only [coreNames, ikNames, List.cons_append, List.nil_append, List.mem_cons, List.not_mem_nil, or_false] at h
    rcases h with rfl | rfl | rfl | rfl | rfl | rfl | rfl | rfl | rfl | rfl | rfl | rfl | rfl | rfl | rfl <;>
      exact ⟨_, rfl, rfl⟩
  · intro name h
    simp only [coreNames, ikNames, List.cons_append, List.nil_append, List.mem_cons, List.not_mem_nil, or_false, not_or] at h
    simp only [coreTask, ikTask, h, if_false]
  · intro name h
    simp only [coreNames, mpcNames, List.cons_append, List.nil_append, List.mem_cons, List.not_mem_nil, or_false] at h
    rcases h with rfl | rfl | rfl | rfl | rfl | rfl | rfl | rfl | rfl | rfl | rfl | rfl | rfl <;> exact ⟨_, rfl, rfl⟩
  · intro name h
    simp only [coreNames, mpcNames, List.cons_append, List.nil_append, List.mem_cons, List.not_mem_nil, or_false, not_or] at h
    simp only [coreTask, mpcTask, h, if_false]

/-! ## Hierarchies of Pepper -/

/-- `Hierarchy04` of modules/pepper_ik/config/hierarchies_planar.yaml:73-91. -/
def ikHierarchy04 : Fields :=
  .leaf "task_class_names" (.seqs [[.str "TaskBaseCoMTracking", .str "TaskBodyCoMTracking", .str "TaskBaseOrientation",
      .str "TaskFixArms"], [.str "TaskZeroVariables"]])
    (.leaf "task_ids" (.seqs [[.str "TaskBaseCoMTracking", .str "TaskBodyCoMTracking", .str "TaskBaseOrientation",
      .str "TaskFixArms"], [.str "TaskJointsDamping"]])
    (.map "TaskBaseOrientation" (.leaf "gain" (.scalar (.real 1)) (.leaf "k_orientation_gain" (.scalar (.real 1)) .nil))
    (.map "TaskBodyCoMTracking" (.leaf "gain" (.scalar (.real 1)) (.leaf "k_position_gain" (.scalar (.real 1))
      (.leaf "axis_flag" (.scalar (.int 7)) .nil)))
    (.map "TaskBaseCoMTracking" (.leaf "gain" (.scalar (.real 1)) (.leaf "k_position_gain" (.scalar (.real 1)) .nil))
    (.map "TaskFixArms" .nil
    (.map "TaskJointsDamping" (.leaf "gain" (.scalar (.real 1)) (.leaf "variables_id" (.scalar (.str "joints_vel")) .nil))
      .nil))))))

/-- C97: the hierarchy which is read from this file: the motion of the base and of the body before the fixed arms, since they are
general, and on the second level a task of the core which damps the joints, under its own identifier. -/
theorem C97_ik (angles : List ℚ) (q : ConfProblem) (after : Fields) (file : Fields)
    (hf : file = .map "Hierarchy04" ikHierarchy04 after) :
    q.readConfig .yaml file true (ikTask angles) "Hierarchy04" (openFile .yaml file)
      = (.ok ⟨[[⟨"TaskBaseOrientation", "TaskBaseOrientation", false,
              .parent (gainEntries 1) (.leaf "k_orientation_gain" (.scalar (.real 1)) .nil)⟩,
            ⟨"TaskBodyCoMTracking", "TaskBodyCoMTracking", false, .parent (gainEntries 1)
              (.leaf "k_position_gain" (.scalar (.real 1)) (.leaf "axis_flag" (.scalar (.int 7)) .nil))⟩,
            ⟨"TaskBaseCoMTracking", "TaskBaseCoMTracking", false,
              .parent (gainEntries 1) (.leaf "k_position_gain" (.scalar (.real 1)) .nil)⟩,
            ⟨"TaskFixArms", "TaskFixArms", true, .parent .nil .nil⟩],
          [⟨"TaskZeroVariables", "TaskJointsDamping", true,
              .parent (gainEntries 1) (.leaf "variables_id" (.scalar (.str "joints_vel")) .nil)⟩]],
          [["TaskBaseCoMTracking", "TaskBodyCoMTracking", "TaskBaseOrientation", "TaskFixArms"], ["TaskZeroVariables"]],
          [["TaskBaseCoMTracking", "TaskBodyCoMTracking", "TaskBaseOrientation", "TaskFixArms"], ["TaskJointsDamping"]]⟩,
        openFile .yaml file) := by
  subst hf
  rfl

/-- `Hierarchy00` of modules/pepper_mpc/config/hierarchies.yaml:2-21. -/
def mpcHierarchy00 : Fields :=
  .leaf "task_class_names" (.seqs [[.str "TaskBaseVelocityBounds", .str "TaskBodyPositionBounds", .str "TaskCoPPositionBounds",
      .str "TaskBaseAccelerationBounds"], [.str "TaskBaseVelocityReference", .str "TaskBaseJerkMinimization",
      .str "TaskBodyJerkMinimization", .str "TaskCoPCentering"]])
    (.leaf "task_ids" (.seqs [[.str "TaskBaseVelocityBounds", .str "TaskBodyPositionBounds", .str "TaskCoPPositionBounds",
      .str "TaskBaseAccelerationBounds"], [.str "TaskBaseVelocityReference", .str "TaskBaseJerkMinimization",
      .str "TaskBodyJerkMinimization", .str "TaskCoPCentering"]])
    (.map "TaskBaseAccelerationBounds" (.leaf "gain" (.scalar (.real 0)) .nil)
    (.map "TaskCoPPositionBounds" (.leaf "gain" (.scalar (.real 0)) .nil)
    (.map "TaskBodyPositionBounds" (.leaf "gain" (.scalar (.real 0)) .nil)
    (.map "TaskBaseVelocityBounds" .nil
    (.map "TaskCoPCentering" (.leaf "gain" (.scalar (.real (707106781186548 / 10 ^ 15))) .nil)
    (.map "TaskBaseJerkMinimization" (.leaf "gain" (.scalar (.real (223606797749979 / 10 ^ 16))) .nil)
    (.map "TaskBaseVelocityReference" (.leaf "gain" (.scalar (.real 1)) .nil)
    (.map "TaskBodyJerkMinimization" (.leaf "gain" (.scalar (.real (223606797749979 / 10 ^ 16)))
      (.leaf "variables_id" (.scalar (.str "body_pos")) .nil)) .nil)))))))))

/-- C97: the hierarchy which is read from this file: bounds on the first level, on the second level the centring of the CoP and
the smoothness of the motion of the base, which are general, and the reference velocity and the smoothness of the motion of the
body, which are simple. -/
theorem C97_mpc (q : ConfProblem) (after : Fields) (file : Fields) (hf : file = .map "Hierarchy00" mpcHierarchy00 after) :
    q.readConfig .yaml file true mpcTask "Hierarchy00" (openFile .yaml file)
      = (.ok ⟨[[⟨"TaskBaseAccelerationBounds", "TaskBaseAccelerationBounds", false, gainEntries 0⟩,
            ⟨"TaskCoPPositionBounds", "TaskCoPPositionBounds", false, gainEntries 0⟩,
            ⟨"TaskBodyPositionBounds", "TaskBodyPositionBounds", false, gainEntries 0⟩,
            ⟨"TaskBaseVelocityBounds", "TaskBaseVelocityBounds", true, .nil⟩],
          [⟨"TaskCoPCentering", "TaskCoPCentering", false, gainEntries (707106781186548 / 10 ^ 15)⟩,
            ⟨"TaskBaseJerkMinimization", "TaskBaseJerkMinimization", false, gainEntries (223606797749979 / 10 ^ 16)⟩,
            ⟨"TaskBaseVelocityReference", "TaskBaseVelocityReference", true, gainEntries 1⟩,
            ⟨"TaskBodyJerkMinimization", "TaskBodyJerkMinimization", true, .parent (gainEntries (223606797749979 / 10 ^ 16))
              (.leaf "variables_id" (.scalar (.str "body_pos")) .nil)⟩]],
          [["TaskBaseVelocityBounds", "TaskBodyPositionBounds", "TaskCoPPositionBounds", "TaskBaseAccelerationBounds"],
            ["TaskBaseVelocityReference", "TaskBaseJerkMinimization", "TaskBodyJerkMinimization", "TaskCoPCentering"]],
          [["TaskBaseVelocityBounds", "TaskBodyPositionBounds", "TaskCoPPositionBounds", "TaskBaseAccelerationBounds"],
            ["TaskBaseVelocityReference", "TaskBaseJerkMinimization", "TaskBodyJerkMinimization", "TaskCoPCentering"]]⟩,
        openFile .yaml file) := by
  subst hf
  rfl

end Humoto.Config
