import Verif.Lemmas.LogTree

namespace Humoto.LogTree

open LogName LogName.Spec LogText LogText.Spec

variable {K : Type}

/-- All members of a structure, which have different names. -/
macro "clear_members" : tactic => `(tactic|
  (refine clear_fields (by simp) ?_
   simp only [List.cons_append, List.nil_append, List.append_nil, List.forall_mem_cons, List.mem_nil_iff, List.not_mem_nil, false_implies, implies_true, and_true]
   repeat' first | exact clear_leaf _ | assumption | apply And.intro))

theorem clear_cells_map {α : Type} {l : List α} {g : α → Contents} (h : ∀ x ∈ l, Clear (g x)) : Clear (cells (l.map g)) := by
  refine clear_cells fun x hx => ?_
  obtain ⟨y, hy, rfl⟩ := List.mem_map.1 hx
  exact h y hy

section
variable (num : K → Str)

theorem clear_activeSet (a : ActiveSetH) : Clear (Spec.activeSet a) := clear_cells_map fun _ _ => clear_leaf _

theorem clear_violationsC (v : ViolationsC K) : Clear (Spec.violationsC num v) := by
  unfold Spec.violationsC; clear_members

theorem clear_violations (v : List (ViolationsC K)) : Clear (Spec.violations num v) := clear_cells_map fun _ _ => clear_violationsC num _

theorem clear_solution (x : Solution K) : Clear (Spec.solution num x) := by
  unfold Spec.solution Spec.solutionFields; clear_members

theorem clear_qpoasesSolution (x : Solution K) (a b : ℤ) : Clear (Spec.qpoasesSolution num x a b) := by
  unfold Spec.qpoasesSolution Spec.solutionFields; clear_members

theorem clear_qpmadSolution (x : Solution K) (b : ℤ) : Clear (Spec.qpmadSolution num x b) := by
  unfold Spec.qpmadSolution Spec.solutionFields; clear_members

theorem clear_quadprogSolution (x : Solution K) (b : K) : Clear (Spec.quadprogSolution num x b) := by
  unfold Spec.quadprogSolution Spec.solutionFields; clear_members

theorem clear_location (l : Location) : Clear (Spec.location l) := by
  unfold Spec.location; clear_members

theorem clear_task {E : Type} (t : TaskInfo E K) (l : Label K) : Clear (Spec.task num t l) := by
  have hl := clear_location t.loc
  have h1 : ∀ a, Clear (Spec.activeSetC a) := fun _ => clear_leaf _
  have h2 := h1 t.task.guess
  have h3 := h1 t.task.actual
  unfold Spec.task Spec.gainFields Spec.ownFields Spec.bodyFields Spec.boundFields
  obtain ⟨d, g, o⟩ := l
  cases t.task.ctr.ctype.body <;> cases t.task.ctr.ctype.bounds <;> cases o <;> simp only [reduceCtorEq, ↓reduceIte] <;> clear_members

theorem clear_level {E : Type} (L : Level E K) (labels : ℕ → Label K) : Clear (Spec.level num L labels) :=
  clear_cells_map fun _ _ => clear_task num _ _

theorem clear_problem {E : Type} (P : Hierarchy E K) (labels : ℕ → ℕ → Label K) : Clear (Spec.problem num P labels) :=
  clear_cells_map fun _ _ => clear_level num _ _

theorem clear_objective (q : QPObjective K) (st : ℕ) : Clear (Spec.objective num q st) := by
  unfold Spec.objective; clear_members

theorem clear_AB (c : ContainerAB K) : Clear (Spec.containerAB num c) := by
  unfold Spec.containerAB; clear_members

theorem clear_AL (c : ContainerAL K) : Clear (Spec.containerAL num c) := by
  unfold Spec.containerAL; clear_members

theorem clear_ALU (c : ContainerALU K) : Clear (Spec.containerALU num c) := by
  unfold Spec.containerALU; clear_members

theorem clear_ILU (c : ContainerILU K) : Clear (Spec.containerILU num c) := by
  unfold Spec.containerILU; clear_members

theorem clear_ILUALU (c : QPConstraintsILUALU K) : Clear (Spec.constraintsILUALU num c) := by
  have h1 := clear_ILU num c.bounds
  have h2 := clear_ALU num c.general
  unfold Spec.constraintsILUALU; clear_members

theorem clear_ABAL (c : QPConstraintsABAL K) : Clear (Spec.constraintsABAL num c) := by
  have h1 := clear_AB num c.eq
  have h2 := clear_AL num c.ineq
  unfold Spec.constraintsABAL; clear_members

theorem clear_ABOnly (c : ContainerAB K) : Clear (Spec.constraintsAB num c) := by
  have h1 := clear_AB num c
  unfold Spec.constraintsAB; clear_members

theorem clear_solver (q : QPObjective K) (st : ℕ) {C : Contents} (hc : Clear C) : Clear (Spec.solver num q st C) := by
  have h1 := clear_objective num q st
  have h2 : Clear (fields [("objective", Spec.objective num q st), ("constraints", C)]) := by clear_members
  unfold Spec.solver; clear_members

theorem clear_pointMass (x : PointMassState K) : Clear (Spec.pointMass num x) := by
  unfold Spec.pointMass Spec.pointMassFields; clear_members

theorem clear_rigidBody (x : RigidBodyState K) : Clear (Spec.rigidBody num x) := by
  unfold Spec.rigidBody Spec.pointMassFields; clear_members

theorem clear_pose (x y : Fin 3 → K) : Clear (Spec.pose num x y) := by
  unfold Spec.pose; clear_members

theorem clear_footParameters (x : FootParameters K) : Clear (Spec.footParameters num x) := by
  unfold Spec.footParameters; clear_members

theorem clear_stance (x : Stance) : Clear (Spec.stance x) := by
  unfold Spec.stance; clear_members

theorem clear_fsm (x : FSM) : Clear (Spec.fsm x) := by
  have h := clear_stance x.cur
  unfold Spec.fsm; clear_members

theorem clear_mgInterval (i : Pepper.Interval K) : Clear (Spec.mgInterval num i) := by
  unfold Spec.mgInterval; clear_members

theorem clear_mg (c : Pepper.Mpc K) : Clear (Spec.mg num c) := by
  have h1 : Clear (cells (c.intervals.map (Spec.mgInterval num))) := clear_cells_map fun _ _ => clear_mgInterval num _
  have h2 : Clear (fields [("interval", cells (c.intervals.map (Spec.mgInterval num)))]) := by clear_members
  unfold Spec.mg; clear_members

theorem clear_mgState (x : Pepper.ModelState K) : Clear (Spec.mgState num x) := by
  have h1 := clear_rigidBody num x.base_state
  have h2 := clear_pointMass num x.body_state
  unfold Spec.mgState; clear_members

theorem clear_mgModel [Field K] (m : Pepper.Model K) : Clear (Spec.mgModel num m) := by
  have h1 := clear_mgState num m.state
  unfold Spec.mgModel; clear_members

theorem clear_mgStep [Field K] (x : MgStep K) : Clear (Spec.mgStep num x) := by
  have h1 := clear_problem num x.program.problem.hierarchy x.labels
  have h2 := clear_solver num x.program.solver.mem.problem.1 x.status (clear_ILUALU num x.program.solver.mem.problem.2)
  have h3 := clear_mg num x.program.mpc
  have h4 := clear_mgModel num x.program.model
  have h5 := clear_qpoasesSolution num x.program.solution x.iterations x.code
  unfold Spec.mgStep; clear_members

theorem clear_mgProgram [Field K] (l : List (MgStep K)) : Clear (Spec.mgProgram num l) := by
  have h : Clear (cells (l.map (Spec.mgStep num))) := clear_cells_map fun _ _ => clear_mgStep num _
  unfold Spec.mgProgram; clear_members

theorem clear_ikInner (x : IkInner K) : Clear (Spec.ikInner num x) := by
  have h1 := clear_problem num x.levels x.labels
  have h2 := clear_solver num x.objective x.status (clear_ABOnly num x.constraints)
  have h3 := clear_solution num x.solution
  unfold Spec.ikInner; clear_members

end

section
variable {root : Ik.Root} (num : Ik.Dbl K → Str)

theorem clear_coords (x : Ik.Coords K root) : Clear (Spec.coords num x) := by
  unfold Spec.coords; clear_members

theorem clear_command (x : Ik.RobotCommand K) : Clear (Spec.command num x) := by
  unfold Spec.command; clear_members

theorem clear_ikModel (x : Ik.IkModel K root) : Clear (Spec.ikModel num x) := by
  have h := clear_coords num x.generalized_coordinates
  unfold Spec.ikModel; clear_members

theorem clear_ikControl (x : IkOuter K root) : Clear (Spec.ikControl num x) := by
  have h1 := clear_coords num x.coords
  have h2 := clear_command num x.command
  have h3 := clear_ikModel num x.model
  unfold Spec.ikControl; clear_members

theorem clear_ikProgram (l : List (IkOuter K root)) : Clear (Spec.ikProgram num l) := by
  have h1 : Clear (cells (l.map (Spec.ikControl num))) := clear_cells_map fun _ _ => clear_ikControl num _
  have h2 : Clear (cells (l.map fun x => cells (x.inner.map (Spec.ikInner fun v => num (.fin v))))) :=
    clear_cells_map fun _ _ => clear_cells_map fun _ _ => clear_ikInner _ _
  unfold Spec.ikProgram; clear_members

end

section
variable (num : ℝ → Str)

theorem clear_walkState (w : Wpg.WalkState) : Clear (Spec.walkState num w) := by
  have h := clear_stance w.stance
  unfold Spec.walkState; clear_members

theorem clear_wpgInterval (i : Wpg.Interval) : Clear (Spec.wpgInterval num i) := by
  unfold Spec.wpgInterval; clear_members

theorem clear_wpgHorizon (h : Wpg.Horizon) : Clear (Spec.wpgHorizon num h) := by
  have h1 : Clear (cells (((List.range h.intervals.n).map h.intervals.e).map (Spec.wpgInterval num))) :=
    clear_cells_map fun _ _ => clear_wpgInterval num _
  have h2 : Clear (cells (h.walk_states.map (Spec.walkState num))) := clear_cells_map fun _ _ => clear_walkState num _
  unfold Spec.wpgHorizon; clear_members

theorem clear_wpgMpc (c : Wpg.Mpc) : Clear (Spec.wpgMpc num c) := by
  have h := clear_wpgHorizon num c.horizon
  unfold Spec.wpgMpc; clear_members

theorem clear_wpgState (x : Wpg.ModelState) : Clear (Spec.wpgState num x) := by
  have h1 := clear_pointMass num x.com_state
  have h2 := clear_rigidBody num x.feet.left
  have h3 := clear_rigidBody num x.feet.right
  unfold Spec.wpgState; clear_members

theorem clear_wpgModel (m : Wpg.Model) : Clear (Spec.wpgModel num m) := by
  have h1 := clear_footParameters num m.params
  have h2 := clear_wpgState num m.state
  unfold Spec.wpgModel; clear_members

theorem clear_wpgStep (x : WpgStep) : Clear (Spec.wpgStep num x) := by
  have h1 := clear_problem num x.program.problem.hierarchy x.labels
  have h2 := clear_solver num x.program.solver.mem.problem.1 x.status (clear_ILUALU num x.program.solver.mem.problem.2)
  have h3 := clear_wpgMpc num x.program.mpc
  have h4 := clear_wpgModel num x.program.model
  have h5 := clear_qpoasesSolution num x.program.solution x.iterations x.code
  have h6 := clear_qpoasesSolution num x.program.oldSolution x.oldIterations x.oldCode
  have h7 := clear_solution num x.program.solutionGuess
  have h8 := clear_activeSet x.activeSetGuess
  have h9 := clear_activeSet x.activeSetActual
  have h0 := clear_fsm x.program.fsm
  unfold Spec.wpgStep; clear_members

theorem clear_wpgProgram (l : List WpgStep) : Clear (Spec.wpgProgram num l) := by
  have h : Clear (cells (l.map (Spec.wpgStep num))) := clear_cells_map fun _ _ => clear_wpgStep num _
  unfold Spec.wpgProgram; clear_members

end

/-! ## Whole programs -/

theorem humoto_good : GoodPath [.name "humoto".toList] := by
  intro c hc
  rw [List.mem_singleton] at hc
  subst hc
  exact ⟨by decide, by decide, by decide, by decide, by decide⟩

theorem wpgPrefix_name (i : ℕ) : wpgPrefix i = entryName ([.name "humoto".toList] ++ [.index i]) := by
  rw [entryName_append]
  rfl

theorem logs_wpgStep {num : ℝ → Str} (hn : ∀ x, Token (num x)) (x : WpgStep) (hx : Spec.WpgFits x) {s : Str} {p : Path} (hs : s = entryName p)
    (hp : GoodPath p) : Logs (logWpgStep num x s) p (Spec.wpgStep num x) := by
  obtain ⟨hP, hl, h1, h2, h3, h4⟩ := hx
  unfold logWpgStep Spec.wpgStep
  refine logs_cons (logs_problem hn _ _ hl hP hs hp) ?_
  refine logs_cons (logs_solver hn _ _ (fun _ _ _ => logs_ILUALU hn _) (sub_name hs) (good_lit hp (by decide))) ?_
  refine logs_cons (logs_qpoasesSolution hn _ _ _ (sub_name hs) (good_lit hp (by decide))) ?_
  refine logs_cons (logs_fsm _ (sub_name hs) (good_lit hp (by decide))) ?_
  refine logs_cons (logs_wpgMpc hn _ h1 h2 (sub_name hs) (good_lit hp (by decide))) ?_
  refine logs_cons (logs_wpgModel hn _ (sub_name hs) (good_lit hp (by decide))) ?_
  refine logs_cons (logs_activeSet _ h3 (sub_name hs) (good_lit hp (by decide))) ?_
  refine logs_cons (logs_activeSet _ h4 (sub_name hs) (good_lit hp (by decide))) ?_
  refine logs_cons (logs_solution hn _ (sub_name hs) (good_lit hp (by decide))) ?_
  exact logs_last (logs_qpoasesSolution hn _ _ _ (sub_name hs) (good_lit hp (by decide)))

theorem logs_wpgProgram {num : ℝ → Str} (hn : ∀ x, Token (num x)) (l : List WpgStep) (hl : l.length < 2 ^ 64) (h : ∀ x ∈ l, Spec.WpgFits x) :
    Logs (logWpgProgram num l) [] (Spec.wpgProgram num l) := by
  unfold logWpgProgram Spec.wpgProgram
  refine logs_last ?_
  rw [List.nil_append, ← zipIdx_map_fst]
  refine logs_zipIdx (f := fun x i => logWpgStep num x (wpgPrefix i)) (g := fun x _ => Spec.wpgStep num x) fun i x hx => ?_
  obtain ⟨hi, e⟩ := List.getElem?_eq_some_iff.1 hx
  exact logs_wpgStep hn x (h x (e ▸ List.getElem_mem hi)) (wpgPrefix_name i) (goodPath_snoc humoto_good (show i + 1 < 2 ^ 64 by omega))

theorem logs_mgStep [Field K] {num : K → Str} (hn : ∀ x, Token (num x)) (x : MgStep K) (hx : Spec.MgFits x) {s : Str} {p : Path}
    (hs : s = entryName p) (hp : GoodPath p) : Logs (logMgStep num x s) p (Spec.mgStep num x) := by
  obtain ⟨hP, hl, h1⟩ := hx
  unfold logMgStep Spec.mgStep
  refine logs_cons (logs_problem hn _ _ hl hP hs hp) ?_
  refine logs_cons (logs_solver hn _ _ (fun _ _ _ => logs_ILUALU hn _) (sub_name hs) (good_lit hp (by decide))) ?_
  refine logs_cons (logs_mg hn _ h1 (sub_name hs) (good_lit hp (by decide))) ?_
  refine logs_cons (logs_mgModel hn _ (sub_name hs) (good_lit hp (by decide))) ?_
  exact logs_last (logs_qpoasesSolution hn _ _ _ (sub_name hs) (good_lit hp (by decide)))

theorem logs_mgProgram [Field K] {num : K → Str} (hn : ∀ x, Token (num x)) (l : List (MgStep K)) (hl : l.length < 2 ^ 64)
    (h : ∀ x ∈ l, Spec.MgFits x) : Logs (logMgProgram num l) [] (Spec.mgProgram num l) := by
  unfold logMgProgram Spec.mgProgram
  refine logs_last ?_
  rw [List.nil_append, ← zipIdx_map_fst]
  refine logs_zipIdx (f := fun x i => logMgStep num x (wpgPrefix i)) (g := fun x _ => Spec.mgStep num x) fun i x hx => ?_
  obtain ⟨hi, e⟩ := List.getElem?_eq_some_iff.1 hx
  exact logs_mgStep hn x (h x (e ▸ List.getElem_mem hi)) (wpgPrefix_name i) (goodPath_snoc humoto_good (show i + 1 < 2 ^ 64 by omega))

section
variable {root : Ik.Root} {num : Ik.Dbl K → Str} (hn : ∀ x, Token (num x)) {parent : Str} {name : String} {p : Path}
include hn

theorem logs_coords (x : Ik.Coords K root) (hs : sub parent name = entryName p) (hp : GoodPath p) :
    Logs (logCoords num x parent name) p (Spec.coords num x) := by
  unfold logCoords Spec.coords
  logs_leaves

theorem logs_command (x : Ik.RobotCommand K) (hs : sub parent name = entryName p) (hp : GoodPath p) :
    Logs (logCommand num x parent name) p (Spec.command num x) := by
  unfold logCommand Spec.command
  logs_leaves

theorem logs_ikModel (x : Ik.IkModel K root) (hs : sub parent name = entryName p) (hp : GoodPath p) :
    Logs (logIkModel num x parent name) p (Spec.ikModel num x) := by
  unfold logIkModel Spec.ikModel
  refine logs_cons (logs_coords hn _ (sub_name hs) (good_lit hp (by decide))) ?_
  refine logs_leaf_cons hs hp ⟨by decide, by decide, by decide, by decide, by decide⟩ (val_square (fun x => hn (.fin x)) _) ?_
  logs_leaves

/-- The contents in the order in which they are written. -/
def ikWritten (num : Ik.Dbl K → Str) (l : List (IkOuter K root)) (n : ℕ) : Contents :=
  (l.zipIdx n).flatMap fun x =>
    inside ([.name "ik_loop".toList] ++ [.index x.2]) (cells (x.1.inner.map (Spec.ikInner fun v => num (.fin v)))) ++
      inside ([.name "control_loop".toList] ++ [.index x.2]) (Spec.ikControl num x.1)

omit hn in
theorem ikWritten_perm (l : List (IkOuter K root)) : (ikWritten num l 0).Perm (Spec.ikProgram num l) := by
  have key : ∀ (l : List (IkOuter K root)) (n : ℕ), (ikWritten num l n).Perm
      (inside [.name "ik_loop".toList] ((((l.map fun x => cells (x.inner.map (Spec.ikInner fun v => num (.fin v)))).zipIdx n).flatMap
        fun x => Contents.at (.index x.2) x.1)) ++
      inside [.name "control_loop".toList] ((((l.map (Spec.ikControl num)).zipIdx n).flatMap fun x => Contents.at (.index x.2) x.1))) := by
    intro l
    induction l with
    | nil => intro n; simp [ikWritten, inside]
    | cons a l ih =>
      intro n
      simp only [ikWritten, List.map_cons, List.zipIdx_cons, List.flatMap_cons, inside_append, inside_at]
      have := ih (n + 1)
      rw [ikWritten] at this
      rw [List.append_assoc, List.append_assoc]
      refine List.Perm.append_left _ ?_
      rw [← List.append_assoc _ (inside _ (Spec.ikControl num a))]
      refine (List.Perm.append_left _ this).trans ?_
      rw [← List.append_assoc]
      exact List.Perm.append_right _ List.perm_append_comm
  refine (key l 0).trans ?_
  rw [Spec.ikProgram, fields_cons, fields_cons]
  have e : ∀ (c : Component) (C : Contents), inside [c] C = Contents.at c C := fun c C => rfl
  rw [e, e]
  simp [fields, cells]

theorem logs_ikProgram (l : List (IkOuter K root)) (h : Spec.IkFits l) : List.Forall₂ Says (logIkProgram num l) (ikWritten num l 0) := by
  obtain ⟨hl, h⟩ := h
  have hik : GoodPath [.name "ik_loop".toList] := by
    intro c hc
    rw [List.mem_singleton] at hc
    subst hc
    exact ⟨by decide, by decide, by decide, by decide, by decide⟩
  have hcl : GoodPath [.name "control_loop".toList] := by
    intro c hc
    rw [List.mem_singleton] at hc
    subst hc
    exact ⟨by decide, by decide, by decide, by decide, by decide⟩
  have n1 : sub [] "ik_loop" = entryName [.name "ik_loop".toList] := rfl
  have n2 : sub [] "control_loop" = entryName [.name "control_loop".toList] := rfl
  have key : ∀ (m : List (IkOuter K root)) (n : ℕ), n + m.length < 2 ^ 64 → (∀ x ∈ m, x ∈ l) →
      List.Forall₂ Says ((m.zipIdx n).flatMap fun x => logIkOuter num x.1 x.2) (ikWritten num m n) := by
    intro m
    induction m with
    | nil => intro n _ _; simp [ikWritten]
    | cons a m ih =>
      intro n hm hs
      rw [List.length_cons] at hm
      simp only [ikWritten, List.zipIdx_cons, List.flatMap_cons]
      refine List.rel_append ?_ (ih (n + 1) (by omega) fun x hx => hs x (List.mem_cons_of_mem _ hx))
      obtain ⟨hi, hf⟩ := h a (hs a (List.mem_cons_self))
      have g1 : GoodPath ([.name "ik_loop".toList] ++ [.index n]) := goodPath_snoc hik (show n + 1 < 2 ^ 64 by omega)
      have g2 : GoodPath ([.name "control_loop".toList] ++ [.index n]) := goodPath_snoc hcl (show n + 1 < 2 ^ 64 by omega)
      refine List.rel_append ?_ ?_
      · rw [← zipIdx_map_fst]
        refine logs_zipIdx (f := fun y i => logIkInner (fun v => num (.fin v)) y (appendIndex (appendIndex (sub [] "ik_loop") n) i))
          (g := fun y _ => Spec.ikInner (fun v => num (.fin v)) y) fun i x hx => ?_
        obtain ⟨hi', e⟩ := List.getElem?_eq_some_iff.1 hx
        have hx' := hf x (e ▸ List.getElem_mem hi')
        exact logs_ikInner (fun x => hn (.fin x)) x hx'.1 hx'.2 (index_name (index_name n1)) (goodPath_snoc g1 (show i + 1 < 2 ^ 64 by omega))
      · have e2 := index_name (i := n) n2
        show Logs _ _ (Spec.ikControl num a)
        unfold Spec.ikControl
        refine logs_cons (logs_coords hn _ (sub_name e2) (good_lit g2 (by decide))) ?_
        refine logs_cons (logs_command hn _ (sub_name e2) (good_lit g2 (by decide))) ?_
        exact logs_last (logs_ikModel hn _ (sub_name e2) (good_lit g2 (by decide)))
  exact key l 0 (by omega) fun _ h => h

end

end Humoto.LogTree
