import Verif.Lemmas.LogClear

/-!
# C104: a log can be read back

The text which the logger writes for objects of the library is a program in the language of Octave. `read` and `load` of
`Verif/Spec/LogText.lean` read this text without any knowledge of how it was written; contents of objects are described in
`Verif/Spec/LogTree.lean` as nested structures and cell arrays. The theorems say that a reader finds exactly these contents. The text of a
number is a parameter: any function with non-empty results without separators.
-/

namespace Humoto.LogTree

open LogName LogName.Spec LogText LogText.Spec

variable {K : Type} {num : K → Str}

/-! ## Arbitrary entries -/

/-- C104: whatever is logged under names which are built with the interface of names is read as the same sequence of assignments: the same
places, the same values, in the order of logging. -/
theorem C104_entries (l : List (Path × Value)) (h0 : ∀ x ∈ l, x.1 ≠ []) (hp : ∀ x ∈ l, ∀ c ∈ x.1, Good c) (hv : ∀ x ∈ l, Legible x.2) :
    read (write (l.map fun x => ⟨entryName x.1, x.2⟩)) = some (l.map fun x => (x.1, meaning x.2)) := by
  refine read_write ?_
  rw [List.forall₂_map_left_iff, List.forall₂_map_right_iff, List.forall₂_same]
  exact fun x hx => ⟨rfl, h0 x hx, hp x hx, hv x hx, rfl⟩

/-- C104: if places of the entries do not depend on each other, every value is found in its place and nothing else is found. -/
theorem C104_places (l : List (Path × Value)) (h0 : ∀ x ∈ l, x.1 ≠ []) (hp : ∀ x ∈ l, ∀ c ∈ x.1, Good c) (hv : ∀ x ∈ l, Legible x.2)
    (hi : l.Pairwise fun x y => Independent x.1 y.1) :
    ∃ env, load (write (l.map fun x => ⟨entryName x.1, x.2⟩)) = some env ∧ Exactly env (l.map fun x => (x.1, meaning x.2)) := by
  refine load_write (D := l.map fun x => (x.1, meaning x.2)) ?_ (List.Perm.refl _) ?_
  · rw [List.forall₂_map_left_iff, List.forall₂_map_right_iff, List.forall₂_same]
    exact fun x hx => ⟨rfl, h0 x hx, hp x hx, hv x hx, rfl⟩
  · rw [Clear, List.pairwise_map]
    exact hi

/-- C104: different entries give different texts. -/
theorem C104_different (l m : List (Path × Value)) (h0 : ∀ x ∈ l ++ m, x.1 ≠ []) (hp : ∀ x ∈ l ++ m, ∀ c ∈ x.1, Good c)
    (hv : ∀ x ∈ l ++ m, Legible x.2)
    (h : write (l.map fun x => ⟨entryName x.1, x.2⟩) = write (m.map fun x => ⟨entryName x.1, x.2⟩)) :
    l.map (fun x => (x.1, meaning x.2)) = m.map (fun x => (x.1, meaning x.2)) := by
  have h1 := C104_entries l (fun x hx => h0 x (by simp [hx])) (fun x hx => hp x (by simp [hx])) (fun x hx => hv x (by simp [hx]))
  have h2 := C104_entries m (fun x hx => h0 x (by simp [hx])) (fun x hx => hp x (by simp [hx])) (fun x hx => hv x (by simp [hx]))
  rw [h, h2] at h1
  exact (Option.some.inj h1).symm

/-! ## Objects of the library -/

/-- The entries are read as the contents of the place. -/
def ReadAs (l : List Entry) (p : Path) (C : Contents) : Prop :=
  read (write l) = some (inside p C) ∧ ∃ env, load (write l) = some env ∧ Exactly env (inside p C)

theorem readAs {l : List Entry} {p : Path} {C : Contents} (h : Logs l p C) (hc : Clear C) : ReadAs l p C :=
  ⟨read_write h, load_write h (List.Perm.refl _) (hc.inside p)⟩

section
variable (hn : ∀ x, Token (num x)) (q : Path) (hq : ∀ c ∈ q, Good c) (name : String) (h : Good (.name name.toList))
include hq h

/-- C104: the active set of a hierarchy. -/
theorem C104_active_set (a : ActiveSetH) (ha : a.length < 2 ^ 64) :
    ReadAs (logActiveSet a (entryName q) name) (q ++ [.name name.toList]) (Spec.activeSet a) :=
  readAs (logs_activeSet a ha (sub_name rfl) (goodPath_snoc hq h)) (clear_activeSet a)

/-- C104: the finite state machine of stances. -/
theorem C104_fsm (x : FSM) : ReadAs (logFSM x (entryName q) name) (q ++ [.name name.toList]) (Spec.fsm x) :=
  readAs (logs_fsm x (sub_name rfl) (goodPath_snoc hq h)) (clear_fsm x)

include hn

/-- C104: violations of a hierarchy. -/
theorem C104_violations (v : List (ViolationsC K)) (hv : v.length < 2 ^ 64) :
    ReadAs (logViolations num v (entryName q) name) (q ++ [.name name.toList]) (Spec.violations num v) :=
  readAs (logs_violations hn v hv (sub_name rfl) (goodPath_snoc hq h)) (clear_violations num v)

/-- C104: solutions of the interface and of all solvers. -/
theorem C104_solutions (x : Solution K) (iterations code : ℤ) (value : K) :
    ReadAs (logSolution num x (entryName q) name) (q ++ [.name name.toList]) (Spec.solution num x) ∧
    ReadAs (logQpoasesSolution num x iterations code (entryName q) name) (q ++ [.name name.toList]) (Spec.qpoasesSolution num x iterations code) ∧
    ReadAs (logQpmadSolution num x code (entryName q) name) (q ++ [.name name.toList]) (Spec.qpmadSolution num x code) ∧
    ReadAs (logQuadprogSolution num x value (entryName q) name) (q ++ [.name name.toList]) (Spec.quadprogSolution num x value) :=
  ⟨readAs (logs_solution hn x (sub_name rfl) (goodPath_snoc hq h)) (clear_solution num x),
   readAs (logs_qpoasesSolution hn x _ _ (sub_name rfl) (goodPath_snoc hq h)) (clear_qpoasesSolution num x _ _),
   readAs (logs_qpmadSolution hn x _ (sub_name rfl) (goodPath_snoc hq h)) (clear_qpmadSolution num x _),
   readAs (logs_quadprogSolution hn x _ (sub_name rfl) (goodPath_snoc hq h)) (clear_quadprogSolution num x _)⟩

omit h in
/-- C104: hierarchies of tasks: every level, every task on it, with its description, parameters, active sets, location, matrices and
bounds. The name is not used. -/
theorem C104_problem {E : Type} (P : Hierarchy E K) (labels : ℕ → ℕ → Label K) (hl : ∀ i j, Spec.Plain (labels i j)) (hP : Spec.Fits P) :
    ReadAs (logProblem num P labels (entryName q) name) (q ++ [.name "tasks".toList]) (Spec.problem num P labels) :=
  readAs (logs_problem hn P labels hl hP rfl hq) (clear_problem num P labels)

/-- C104: the quadratic programs in the solvers. -/
theorem C104_solvers (x : QPObjective K) (status : ℕ) (c : QPConstraintsILUALU K) (d : QPConstraintsABAL K) (e : ContainerAB K) :
    ReadAs (logSolver num x status (logILUALU num c) (entryName q) name) (q ++ [.name name.toList])
      (Spec.solver num x status (Spec.constraintsILUALU num c)) ∧
    ReadAs (logSolver num x status (logABAL num d) (entryName q) name) (q ++ [.name name.toList])
      (Spec.solver num x status (Spec.constraintsABAL num d)) ∧
    ReadAs (logSolver num x status (logABOnly num e) (entryName q) name) (q ++ [.name name.toList])
      (Spec.solver num x status (Spec.constraintsAB num e)) :=
  ⟨readAs (logs_solver hn x status (fun _ _ _ => logs_ILUALU hn c) (sub_name rfl) (goodPath_snoc hq h)) (clear_solver num x status (clear_ILUALU num c)),
   readAs (logs_solver hn x status (fun _ _ _ => logs_ABAL hn d) (sub_name rfl) (goodPath_snoc hq h)) (clear_solver num x status (clear_ABAL num d)),
   readAs (logs_solver hn x status (fun _ _ _ => logs_ABOnly hn e) (sub_name rfl) (goodPath_snoc hq h)) (clear_solver num x status (clear_ABOnly num e))⟩

/-- C104: states of points and of rigid bodies, poses, parameters of feet. -/
theorem C104_states (a : PointMassState K) (b : RigidBodyState K) (position rpy : Fin 3 → K) (f : FootParameters K) :
    ReadAs (logPointMass num a (entryName q) name) (q ++ [.name name.toList]) (Spec.pointMass num a) ∧
    ReadAs (logRigidBody num b (entryName q) name) (q ++ [.name name.toList]) (Spec.rigidBody num b) ∧
    ReadAs (logPose num position rpy (entryName q) name) (q ++ [.name name.toList]) (Spec.pose num position rpy) ∧
    ReadAs (logFootParameters num f (entryName q) name) (q ++ [.name name.toList]) (Spec.footParameters num f) :=
  ⟨readAs (logs_pointMass hn a (sub_name rfl) (goodPath_snoc hq h)) (clear_pointMass num a),
   readAs (logs_rigidBody hn b (sub_name rfl) (goodPath_snoc hq h)) (clear_rigidBody num b),
   readAs (logs_pose hn position rpy (sub_name rfl) (goodPath_snoc hq h)) (clear_pose num position rpy),
   readAs (logs_footParameters hn f (sub_name rfl) (goodPath_snoc hq h)) (clear_footParameters num f)⟩

end

/-! ## Logs of whole programs -/

/-- C104: the log of the walking program, of any number of iterations (the counter has 32 bits): everything that was logged in every
iteration is found, and nothing else. -/
theorem C104_walking {num : ℝ → Str} (hn : ∀ x, Token (num x)) (steps : List WpgStep) (hl : steps.length ≤ 2 ^ 32)
    (h : ∀ x ∈ steps, Spec.WpgFits x) :
    ∃ env, load (write (logWpgProgram num steps)) = some env ∧ Exactly env (Spec.wpgProgram num steps) := by
  obtain ⟨-, env, h1, h2⟩ := readAs (logs_wpgProgram hn steps (by omega) h) (clear_wpgProgram num steps)
  have e : inside [] (Spec.wpgProgram num steps) = Spec.wpgProgram num steps := by simp [inside]
  exact ⟨env, h1, e ▸ h2⟩

/-- C104: the log of the program of Pepper. -/
theorem C104_pepper [Field K] (hn : ∀ x, Token (num x)) (steps : List (MgStep K)) (hl : steps.length < 2 ^ 64) (h : ∀ x ∈ steps, Spec.MgFits x) :
    ∃ env, load (write (logMgProgram num steps)) = some env ∧ Exactly env (Spec.mgProgram num steps) := by
  obtain ⟨-, env, h1, h2⟩ := readAs (logs_mgProgram hn steps hl h) (clear_mgProgram num steps)
  have e : inside [] (Spec.mgProgram num steps) = Spec.mgProgram num steps := by simp [inside]
  exact ⟨env, h1, e ▸ h2⟩

/-- C104: the log of the program of inverse kinematics, with any numbers of iterations of the inner loops. -/
theorem C104_inverse_kinematics {root : Ik.Root} {num : Ik.Dbl K → Str} (hn : ∀ x, Token (num x)) (steps : List (IkOuter K root))
    (h : Spec.IkFits steps) :
    ∃ env, load (write (logIkProgram num steps)) = some env ∧ Exactly env (Spec.ikProgram num steps) :=
  load_write (logs_ikProgram hn steps h) (ikWritten_perm steps) (clear_ikProgram num steps)

/-! ## What is not true -/

/-- C104, refuted for strings: a description with an apostrophe makes the whole log unreadable. -/
theorem C104_apostrophe_refuted : read (write [textE "id".toList "can't".toList, natE "n".toList 1]) = none := by decide +kernel

theorem blocks_siblings (p : Path) (a b : Str) : blocks (p ++ [.name a]) (p ++ [.name b]) = false := by
  induction p with
  | nil => simp [blocks, differentKinds]
  | cons c p ih => simpa [blocks] using ih

theorem siblings_prefix (p : Path) (a b : Str) : p ++ [Component.name a] <+: p ++ [Component.name b] ↔ a = b := by
  rw [List.prefix_append_right_inj]
  simp [List.cons_prefix_cons]

/-- The place of the vector of variables of the solution in the log of an iteration. -/
def xPath (i : ℕ) : Path := [.name "humoto".toList, .index i, .name "solution".toList, .name "x".toList]

/-- C104, refuted for equal names: in modules/pepper_mpc/tests/test_005.cpp:157, 164 the solutions of two solvers are logged with the same
(default) name. The log can be read, but the vector of variables of the first solution is not found: the only vector in the log is the one
of the second solution. -/
theorem C104_same_name_refuted (hn : ∀ x, Token (num x)) (i : ℕ) (hi : i + 1 < 2 ^ 64) (a b : Solution K) (iterations code : ℤ) :
    ∃ env, load (write (logQpoasesSolution num a iterations code (wpgPrefix i) "solution" ++ logSolution num b (wpgPrefix i) "solution")) = some env ∧
      lookup env (xPath i) = some (.matrix (b.x.map fun x => [num x])) ∧
      ∀ p m, lookup env p = some (.matrix m) → m = b.x.map fun x => [num x] := by
  have hp : GoodPath ([.name "humoto".toList] ++ [.index i]) := goodPath_snoc humoto_good (show i + 1 < 2 ^ 64 by omega)
  have h1 := logs_qpoasesSolution hn a iterations code (sub_name (n := "solution") (wpgPrefix_name i)) (good_lit hp (by decide))
  have h2 := logs_solution hn b (sub_name (n := "solution") (wpgPrefix_name i)) (good_lit hp (by decide))
  have h := read_write (List.rel_append h1 h2)
  rw [load, h]
  have e : ([Component.name "humoto".toList] ++ [.index i] ++ [.name "solution".toList] : Path) =
      [.name "humoto".toList, .index i, .name "solution".toList] := rfl
  rw [e]
  have ex : xPath i = [.name "humoto".toList, .index i, .name "solution".toList] ++ [.name "x".toList] := rfl
  rw [ex]
  generalize ([.name "humoto".toList, .index i, .name "solution".toList] : Path) = P
  have d1 : "x".toList ≠ "status".toList := by decide
  have d2 : "x".toList ≠ "number_of_iterations".toList := by decide
  have d3 : "x".toList ≠ "qpoases_return_value".toList := by decide
  have d4 : "status".toList ≠ "number_of_iterations".toList := by decide
  have d5 : "status".toList ≠ "qpoases_return_value".toList := by decide
  have d6 : "number_of_iterations".toList ≠ "qpoases_return_value".toList := by decide
  simp only [Spec.qpoasesSolution, Spec.solutionFields, Spec.solution, fields, Contents.at, inside, Spec.column, Spec.nat, Spec.int, leaf,
    List.cons_append, List.nil_append, List.append_nil, List.flatMap_cons, List.flatMap_nil, List.map_cons, List.map_nil, Option.bind_some]
  generalize "x".toList = n1 at *
  generalize "status".toList = n2 at *
  generalize "number_of_iterations".toList = n3 at *
  generalize "qpoases_return_value".toList = n4 at *
  refine ⟨[(P ++ [.name n2], .number (decimal (Spec.statusNumber b.status))), (P ++ [.name n1], .matrix (b.x.map fun x => [num x])),
    (P ++ [.name n4], .number ((if code < 0 then ['-'] else []) ++ decimal code.natAbs)),
    (P ++ [.name n3], .number ((if iterations < 0 then ['-'] else []) ++ decimal iterations.natAbs))], ?_, ?_, ?_⟩
  · simp [run, assign, blocks_siblings, siblings_prefix, d1, d2, d3, d4, d5, d6, d1.symm, d2.symm, d3.symm, d4.symm, d5.symm, d6.symm]
  · have hne : (Component.name n1 == Component.name n2) = false := beq_eq_false_iff_ne.2 (by simpa using d1)
    simp [lookup, List.lookup_cons, hne]
  · intro p m hm
    have := mem_of_lookup hm
    simp only [List.mem_cons, Prod.mk.injEq, reduceCtorEq, and_false, false_or, List.not_mem_nil, or_false, Val.matrix.injEq] at this
    exact this.2

/-- C104, refuted for hierarchies: the name which is given to the log function of a hierarchy of tasks is ignored, nothing is found there.
In particular two hierarchies with the same parent can not be logged. -/
theorem C104_name_ignored_refuted (hn : ∀ x, Token (num x)) (q : Path) (hq : ∀ c ∈ q, Good c) (name : String) (h : name ≠ "tasks")
    {E : Type} (P : Hierarchy E K) (labels : ℕ → ℕ → Label K) (hl : ∀ i j, Spec.Plain (labels i j)) (hP : Spec.Fits P) :
    ∃ env, load (write (logProblem num P labels (entryName q) name)) = some env ∧ ∀ r, lookup env (q ++ .name name.toList :: r) = none := by
  obtain ⟨-, env, h1, -, h2⟩ := C104_problem hn q hq name P labels hl hP
  refine ⟨env, h1, fun r => ?_⟩
  rcases hv : lookup env (q ++ .name name.toList :: r) with _ | v
  · rfl
  · have := h2 _ _ hv
    simp only [inside, List.mem_map, Prod.mk.injEq] at this
    obtain ⟨x, -, hx, -⟩ := this
    rw [List.append_assoc, List.append_cancel_left_eq, List.singleton_append, List.cons.injEq] at hx
    have := hx.1
    simp only [Component.name.injEq] at this
    exact absurd (String.toList_inj.1 this).symm h

/-! ## Examples -/

/-- The text of a log: names with indices, a matrix, a string. -/
example : write [⟨entryName [.name "humoto".toList, .index 9, .name "x".toList], .matrix [["1".toList, "-0.5".toList], ["2".toList, "3".toList]]⟩,
      textE (entryName [.name "humoto".toList, .index 9, .name "id".toList]) "a b".toList] =
    "humoto{10}.x = ...\n[   1, -0.5;\n     2,    3];\nhumoto{10}.id = 'a b';\n".toList := by decide +kernel

/-- It is read back. -/
example : load "humoto{10}.x = ...\n[   1, -0.5;\n     2,    3];\nhumoto{10}.id = 'a b';\n".toList =
    some [([.name "humoto".toList, .index 9, .name "id".toList], .string "a b".toList),
      ([.name "humoto".toList, .index 9, .name "x".toList], .matrix [["1".toList, "-0.5".toList], ["2".toList, "3".toList]])] := by decide +kernel

/-- A later assignment replaces an earlier one; a member of a cell array is not a member of a structure. -/
example : load "a.x = 1;\na.y = 2;\na.x = 3;\n".toList =
      some [([.name "a".toList, .name "x".toList], .number "3".toList), ([.name "a".toList, .name "y".toList], .number "2".toList)] ∧
    load "a.x = 1;\na{1} = 2;\n".toList = none := by decide +kernel

/-- Conditions on names and values are met. -/
example : Good (.name "humoto".toList) ∧ Good (.index 9) ∧ Legible (.matrix [["1".toList, "-0.5".toList], ["2".toList, "3".toList]]) ∧
    Independent [.name "humoto".toList, .index 9, .name "x".toList] [.name "humoto".toList, .index 9, .name "id".toList] := by
  refine ⟨⟨by decide, by decide, by decide, by decide, by decide⟩, by simp [Good], ⟨?_, 2, by simp⟩, ?_⟩
  · have h : ∀ l ∈ [["1".toList, "-0.5".toList], ["2".toList, "3".toList]], ∀ s ∈ l,
        s ≠ [] ∧ ∀ c ∈ s, c ≠ ' ' ∧ c ≠ ';' ∧ c ≠ ',' ∧ c ≠ '[' ∧ c ≠ ']' ∧ c ≠ '\'' ∧ c ≠ '\n' := by decide +kernel
    exact h
  · exact independent_cons (independent_cons (independent_cons_ne (by decide) rfl) _) _

/-- A hierarchy with two levels, the second one has one task: bounds with gains. -/
def exProblem : Hierarchy Unit ℕ :=
  ⟨[Level.empty, ⟨[⟨⟨⟨.ilu, 4, ⟨⟨0, 0, fun _ _ => 0⟩, 0, ⟨2, fun i => 3 - i⟩, ⟨0, fun _ => 0⟩, ⟨0, fun _ => 0⟩, ⟨2, fun i => i⟩, ⟨2, fun i => 10 + i⟩⟩⟩,
    false, [], [.inactive, .upperBound], fun _ c => .ok (c.data, false), none⟩, ⟨5, 2⟩⟩], 0, 2, 0, 2⟩], []⟩

/-- Descriptions of its tasks. -/
def exLabels (_ _ : ℕ) : Label ℕ := ⟨"limits".toList, 1, .nothing⟩

/-- The hypotheses of `C104_problem` are met, and this is what a reader finds. -/
example : (∀ x : ℕ, Token (decimal x)) ∧ Spec.Fits exProblem ∧ (∀ i j, Spec.Plain (exLabels i j)) ∧
    (load (write (logProblem decimal exProblem exLabels (wpgPrefix 2) ""))).bind
      (fun env => lookup env [.name "humoto".toList, .index 2, .name "tasks".toList, .index 1, .index 0, .name "ub".toList]) =
        some (.matrix [["10".toList], ["11".toList]]) := by
  refine ⟨decimal_token, ⟨by simp [exProblem], ?_⟩, fun _ _ => ⟨by simp [exLabels], trivial⟩, by decide +kernel⟩
  simp [exProblem, Level.empty]

/-- The hypotheses of `C104_inverse_kinematics` are met: two iterations of the inner loop. -/
example (m : Ik.IkModel ℕ .planar) (c : Ik.RobotCommand ℕ) (s : Solution ℕ) :
    let y : IkInner ℕ := ⟨exProblem, exLabels, ⟨⟨0, 0, fun _ _ => 0⟩, ⟨0, fun _ => 0⟩, .undefined⟩, 0, ⟨4, ⟨0, 0, fun _ _ => 0⟩, ⟨0, fun _ => 0⟩⟩, s⟩
    Spec.IkFits [(⟨[y, y], m.generalized_coordinates, c, m⟩ : IkOuter ℕ .planar)] := by
  refine ⟨by simp, ?_⟩
  simp only [List.mem_singleton, forall_eq, List.mem_cons, List.not_mem_nil, or_false, or_self]
  refine ⟨by simp, fun _ _ => ⟨by simp [exLabels], trivial⟩, ⟨by simp [exProblem], ?_⟩⟩
  simp [exProblem, Level.empty]

end Humoto.LogTree
