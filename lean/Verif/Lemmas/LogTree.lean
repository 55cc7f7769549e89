import Verif.Spec.LogTree
import Verif.Lemmas.LogText

namespace Humoto.LogTree

open LogName LogName.Spec LogText LogText.Spec

variable {K : Type} {num : K → Str}

/-- All components can be read. -/
def GoodPath (p : Path) : Prop := ∀ c ∈ p, Good c

theorem goodPath_snoc {p : Path} {c : Component} (h : GoodPath p) (hc : Good c) : GoodPath (p ++ [c]) := by
  intro d hd
  rcases List.mem_append.1 hd with hd | hd
  · exact h d hd
  · rw [List.mem_singleton] at hd
    exact hd ▸ hc

/-- The entries say that the contents are in the place. -/
def Logs (es : List Entry) (p : Path) (C : Contents) : Prop := List.Forall₂ Says es (inside p C)

theorem inside_append (p : Path) (C D : Contents) : inside p (C ++ D) = inside p C ++ inside p D := by simp [inside]

theorem inside_at (p : Path) (c : Component) (C : Contents) : inside p (Contents.at c C) = inside (p ++ [c]) C := by
  simp [inside, Contents.at]

theorem Logs.append {es es' : List Entry} {p : Path} {C D : Contents} (h : Logs es p C) (h' : Logs es' p D) : Logs (es ++ es') p (C ++ D) := by
  rw [Logs, inside_append]
  exact List.rel_append h h'

theorem fields_cons (x : String × Contents) (l : List (String × Contents)) :
    fields (x :: l) = Contents.at (.name x.1.toList) x.2 ++ fields l := by simp [fields]

theorem fields_append (a b : List (String × Contents)) : fields (a ++ b) = fields a ++ fields b := by simp [fields]

theorem logs_nil (p : Path) : Logs [] p (fields []) := by simp [Logs, fields, inside]

theorem logs_cons {es es' : List Entry} {p : Path} {n : String} {C : Contents} {l : List (String × Contents)}
    (h : Logs es (p ++ [.name n.toList]) C) (h' : Logs es' p (fields l)) : Logs (es ++ es') p (fields ((n, C) :: l)) := by
  rw [fields_cons]
  refine Logs.append ?_ h'
  rwa [Logs, inside_at]

theorem logs_last {es : List Entry} {p : Path} {n : String} {C : Contents} (h : Logs es (p ++ [.name n.toList]) C) :
    Logs es p (fields [(n, C)]) := by
  have := logs_cons h (logs_nil p)
  rwa [List.append_nil] at this

theorem logs_leaf {p : Path} {s : Str} {V : Value} {w : Val} (hs : s = entryName p) (hp : GoodPath p) (h0 : p ≠ [])
    (hv : Legible V ∧ meaning V = w) : Logs [⟨s, V⟩] p (leaf w) := by
  simp only [Logs, leaf, inside, List.map_cons, List.map_nil, List.append_nil]
  exact .cons ⟨hs, h0, hp, hv.1, hv.2⟩ .nil

theorem sub_name {s : Str} {p : Path} {n : String} (hs : s = entryName p) : sub s n = entryName (p ++ [.name n.toList]) := by
  rw [entryName_append, hs]; rfl

theorem sub_empty (s : Str) : sub s "" = s := by simp [sub, appendName]

theorem index_name {s : Str} {p : Path} {i : ℕ} (hs : s = entryName p) : appendIndex s i = entryName (p ++ [.index i]) := by
  rw [entryName_append, hs]; rfl

theorem logs_leaf_cons {s : Str} {p : Path} {n : String} {V : Value} {w : Val} {es : List Entry} {l : List (String × Contents)}
    (hs : s = entryName p) (hp : GoodPath p) (hn : Good (.name n.toList)) (hv : Legible V ∧ meaning V = w)
    (h : Logs es p (fields l)) : Logs (⟨sub s n, V⟩ :: es) p (fields ((n, leaf w) :: l)) :=
  logs_cons (logs_leaf (sub_name hs) (goodPath_snoc hp hn) (by simp) hv) h

/-- Entries of an array. -/
theorem logs_zipIdx {α : Type} {l : List α} {f : α → ℕ → List Entry} {g : α → ℕ → Contents} {p : Path}
    (h : ∀ i x, l[i]? = some x → Logs (f x i) (p ++ [.index i]) (g x i)) :
    Logs (l.zipIdx.flatMap fun x => f x.1 x.2) p (cells (l.zipIdx.map fun x => g x.1 x.2)) := by
  have key : ∀ (m : List α) (n : ℕ), (∀ i x, m[i]? = some x → Logs (f x (n + i)) (p ++ [.index (n + i)]) (g x (n + i))) →
      Logs ((m.zipIdx n).flatMap fun x => f x.1 x.2) p
        ((((m.zipIdx n).map fun x => g x.1 x.2).zipIdx n).flatMap fun x => Contents.at (.index x.2) x.1) := by
    intro m
    induction m with
    | nil => intro n _; simp [Logs, inside]
    | cons a m ih =>
      intro n hm
      simp only [List.zipIdx_cons, List.flatMap_cons, List.map_cons]
      refine Logs.append ?_ (ih (n + 1) fun i x hx => ?_)
      · rw [Logs, inside_at]
        exact hm 0 a rfl
      · have := hm (i + 1) x (by simpa using hx)
        rwa [show n + 1 + i = n + (i + 1) by omega]
  exact key l 0 (by simpa using h)

theorem zipIdx_map_fst {α β : Type} (l : List α) (g : α → β) : (l.zipIdx.map fun x => g x.1) = l.map g := by
  have h : (l.zipIdx.map fun x => g x.1) = (l.zipIdx.map Prod.fst).map g := by rw [List.map_map]; rfl
  rw [h, List.zipIdx_map_fst]

theorem logs_each {α : Type} {l : List α} {f : α → Str → String → List Entry} {g : α → Contents} {s : Str} {p : Path} (hs : s = entryName p)
    (hl : l.length < 2 ^ 64) (hp : GoodPath p)
    (h : ∀ x ∈ l, ∀ s q, s = entryName q → GoodPath q → q ≠ [] → Logs (f x s "") q (g x)) : Logs (logEach f l s) p (cells (l.map g)) := by
  rw [← zipIdx_map_fst]
  refine logs_zipIdx (f := fun x i => f x (appendIndex s i) "") (g := fun x _ => g x) fun i x hx => ?_
  obtain ⟨hi, e⟩ := List.getElem?_eq_some_iff.1 hx
  exact h x (e ▸ List.getElem_mem hi) _ _ (index_name hs) (goodPath_snoc hp (show i + 1 < 2 ^ 64 by omega)) (by simp)

/-! ## Values -/

theorem decimal_token (n : ℕ) : Token (decimal n) := by
  refine ⟨decimal_ne_nil n, fun c hc => ?_⟩
  have := decimal_digits n c hc
  refine ⟨?_, ?_, ?_, ?_, ?_, ?_, ?_⟩ <;> (rintro rfl; revert this; decide)

theorem val_nat (n : ℕ) : Legible (.data (decimal n)) ∧ meaning (.data (decimal n)) = .number (decimal n) := ⟨decimal_token n, rfl⟩

theorem val_int (z : ℤ) : Legible (.data (intText z)) ∧ meaning (.data (intText z)) = .number ((if z < 0 then ['-'] else []) ++ decimal z.natAbs) := by
  have ht := decimal_token z.natAbs
  by_cases hz : z < 0
  · rw [intText, if_pos hz, if_pos hz]
    refine ⟨⟨by simp, fun c hc => ?_⟩, rfl⟩
    rcases List.mem_cons.1 hc with rfl | hc
    · decide
    · exact ht.2 c hc
  · rw [intText, if_neg hz, if_neg hz]
    exact ⟨ht, rfl⟩

theorem val_text {s : Str} (h : '\'' ∉ s) : Legible (.text s) ∧ meaning (.text s) = .string s := ⟨h, rfl⟩

theorem val_num (hn : ∀ x, Token (num x)) (x : K) : Legible (.data (num x)) ∧ meaning (.data (num x)) = .number (num x) := ⟨hn x, rfl⟩

theorem val_list (l : List ℕ) : Legible (.vector (l.map decimal)) ∧ meaning (.vector (l.map decimal)) = .matrix (l.map fun n => [decimal n]) := by
  refine ⟨?_, by simp [meaning]⟩
  intro s hs
  obtain ⟨n, -, rfl⟩ := List.mem_map.1 hs
  exact decimal_token n

theorem val_rows {r : List (List Str)} (n : ℕ) (h1 : ∀ l ∈ r, ∀ s ∈ l, Token s) (h2 : ∀ l ∈ r, l.length = n) (w : List (List Str))
    (hw : (if r = [] ∨ n = 0 then [] else r) = w) : Legible (.matrix r) ∧ meaning (.matrix r) = .matrix w := by
  refine ⟨⟨h1, n, h2⟩, ?_⟩
  rw [meaning, ← hw]
  congr 1
  by_cases hr : r = []
  · simp [hr]
  · by_cases hn : n = 0
    · have : r.flatten = [] := List.flatten_eq_nil_iff.2 fun l hl => List.length_eq_zero_iff.1 (hn ▸ h2 l hl)
      rw [if_pos this, if_pos (.inr hn)]
    · have : r.flatten ≠ [] := by
        obtain ⟨l, m, rfl⟩ := List.exists_cons_of_ne_nil hr
        intro he
        have := List.flatten_eq_nil_iff.1 he l (by simp)
        have h0 := h2 l (by simp)
        rw [this] at h0
        exact hn h0.symm
      rw [if_neg this, if_neg (by simp [hr, hn])]

theorem val_column (hn : ∀ x, Token (num x)) (l : List K) :
    Legible (.matrix (l.map fun x => [num x])) ∧ meaning (.matrix (l.map fun x => [num x])) = .matrix (l.map fun x => [num x]) := by
  refine val_rows 1 ?_ ?_ _ ?_
  · simp only [List.mem_map, forall_exists_index, and_imp, forall_apply_eq_imp_iff₂, List.mem_singleton, forall_eq]
    exact fun x _ => hn x
  · simp
  · by_cases hl : l = []
    · simp [hl]
    · simp [hl]

theorem val_vec (hn : ∀ x, Token (num x)) (v : Vec K) : Legible (.matrix ((List.range v.n).map fun i => [num (v.e i)])) ∧
    meaning (.matrix ((List.range v.n).map fun i => [num (v.e i)])) = .matrix (((List.range v.n).map v.e).map fun x => [num x]) := by
  have := val_column hn ((List.range v.n).map v.e)
  simp only [List.map_map] at this ⊢
  exact this

theorem val_fin (hn : ∀ x, Token (num x)) {n : ℕ} (v : Fin n → K) : Legible (.matrix ((List.finRange n).map fun i => [num (v i)])) ∧
    meaning (.matrix ((List.finRange n).map fun i => [num (v i)])) = .matrix ((List.ofFn v).map fun x => [num x]) := by
  have := val_column hn (List.ofFn v)
  have e : (List.ofFn v).map (fun x => [num x]) = (List.finRange n).map fun i => [num (v i)] := by
    rw [List.ofFn_eq_map, List.map_map]; rfl
  rw [e] at this ⊢
  exact this

theorem val_mat (hn : ∀ x, Token (num x)) (M : Mat K) :
    Legible (.matrix ((List.range M.rows).map fun i => (List.range M.cols).map fun j => num (M.e i j))) ∧
    meaning (.matrix ((List.range M.rows).map fun i => (List.range M.cols).map fun j => num (M.e i j))) =
      .matrix (if M.rows = 0 ∨ M.cols = 0 then [] else (List.range M.rows).map fun i => (List.range M.cols).map fun j => num (M.e i j)) := by
  refine val_rows M.cols ?_ ?_ _ ?_
  · intro l hl s hs
    obtain ⟨i, -, rfl⟩ := List.mem_map.1 hl
    obtain ⟨j, -, rfl⟩ := List.mem_map.1 hs
    exact hn _
  · intro l hl
    obtain ⟨i, -, rfl⟩ := List.mem_map.1 hl
    simp
  · simp only [List.map_eq_nil_iff, List.range_eq_nil]

theorem val_square (hn : ∀ x, Token (num x)) {n : ℕ} (M : Fin n → Fin n → K) :
    Legible (.matrix ((List.finRange n).map fun i => (List.finRange n).map fun j => num (M i j))) ∧
    meaning (.matrix ((List.finRange n).map fun i => (List.finRange n).map fun j => num (M i j))) =
      .matrix (List.ofFn fun i => List.ofFn fun j => num (M i j)) := by
  refine val_rows n ?_ ?_ _ ?_
  · intro l hl s hs
    obtain ⟨i, -, rfl⟩ := List.mem_map.1 hl
    obtain ⟨j, -, rfl⟩ := List.mem_map.1 hs
    exact hn _
  · intro l hl
    obtain ⟨i, -, rfl⟩ := List.mem_map.1 hl
    simp
  · simp only [List.ofFn_eq_map]
    split_ifs with h
    · rcases h with h | h
      · exact h.symm
      · subst h; rfl
    · rfl

/-- A value which is a number, a string or a matrix. -/
macro "logs_val" : tactic => `(tactic| first
  | exact val_nat _ | exact val_int _ | exact val_num ‹_› _ | exact val_column ‹_› _ | exact val_vec ‹_› _ | exact val_fin ‹_› _
  | exact val_mat ‹_› _ | exact val_square ‹_› _ | exact val_list _ | exact val_vec decimal_token _ | exact val_text ‹_›)

/-- Simple members. -/
macro "logs_leaves" : tactic => `(tactic| repeat' first
  | exact logs_nil _
  | refine logs_leaf_cons ‹_› ‹GoodPath _› ⟨by decide, by decide, by decide, by decide, by decide⟩ (by logs_val) ?_)

section
variable (hn : ∀ x, Token (num x)) {parent : Str} {name : String} {p : Path}
include hn

omit hn in
theorem actNumber_eq : Spec.actNumber = actCode := funext fun a => by cases a <;> rfl

omit hn in
theorem statusNumber_eq : Spec.statusNumber = statusCode := funext fun a => by cases a <;> rfl

omit hn in
theorem stanceNumber_eq : Spec.stanceNumber = stanceCode := funext fun a => by cases a <;> rfl

omit hn in
theorem subtypeNumber_eq : Spec.subtypeNumber = subtypeCode := funext fun a => by cases a <;> rfl

omit hn in
theorem hessianNumber_eq : Spec.hessianNumber = hessianCode := funext fun a => by cases a <;> rfl

omit hn in
theorem good_lit {n : String} {p : Path} (hp : GoodPath p)
    (h : n.toList ≠ [] ∧ '.' ∉ n.toList ∧ '{' ∉ n.toList ∧ '}' ∉ n.toList ∧ ' ' ∉ n.toList) : GoodPath (p ++ [.name n.toList]) :=
  goodPath_snoc hp h

omit hn in
theorem logs_location (l : Location) (hs : sub parent name = entryName p) (hp : GoodPath p) : Logs (logLocation l parent name) p (Spec.location l) := by
  unfold logLocation Spec.location
  logs_leaves

omit hn in
theorem logs_activeSetC (a : ActiveSetC) (hs : sub parent name = entryName p) (hp : GoodPath p) (h0 : p ≠ []) :
    Logs (logActiveSetC a parent name) p (Spec.activeSetC a) := by
  unfold Spec.activeSetC
  rw [actNumber_eq]
  exact logs_leaf hs hp h0 (val_list _)

omit hn in
theorem logs_activeSet (a : ActiveSetH) (ha : a.length < 2 ^ 64) (hs : sub parent name = entryName p) (hp : GoodPath p) :
    Logs (logActiveSet a parent name) p (Spec.activeSet a) :=
  logs_each hs ha hp fun x _ s q hq hg h0 => logs_activeSetC x (by rw [sub_empty]; exact hq) hg h0

theorem logs_violationsC (v : ViolationsC K) (hs : sub parent name = entryName p) (hp : GoodPath p) :
    Logs (logViolationsC num v parent name) p (Spec.violationsC num v) := by
  unfold logViolationsC Spec.violationsC
  logs_leaves

theorem logs_violations (v : List (ViolationsC K)) (hv : v.length < 2 ^ 64) (hs : sub parent name = entryName p) (hp : GoodPath p) :
    Logs (logViolations num v parent name) p (Spec.violations num v) :=
  logs_each hs hv hp fun x _ s q hq hg _ => logs_violationsC hn x (by rw [sub_empty]; exact hq) hg

theorem logs_solution (x : Solution K) (hs : sub parent name = entryName p) (hp : GoodPath p) :
    Logs (logSolution num x parent name) p (Spec.solution num x) := by
  unfold logSolution Spec.solution Spec.solutionFields
  rw [statusNumber_eq]
  logs_leaves

theorem logs_qpoasesSolution (x : Solution K) (a b : ℤ) (hs : sub parent name = entryName p) (hp : GoodPath p) :
    Logs (logQpoasesSolution num x a b parent name) p (Spec.qpoasesSolution num x a b) := by
  unfold logQpoasesSolution Spec.qpoasesSolution
  rw [fields_append]
  refine Logs.append (logs_solution hn x (by rw [sub_empty]; exact hs) hp) ?_
  logs_leaves

theorem logs_qpmadSolution (x : Solution K) (b : ℤ) (hs : sub parent name = entryName p) (hp : GoodPath p) :
    Logs (logQpmadSolution num x b parent name) p (Spec.qpmadSolution num x b) := by
  unfold logQpmadSolution Spec.qpmadSolution
  rw [fields_append]
  refine Logs.append (logs_solution hn x (by rw [sub_empty]; exact hs) hp) ?_
  logs_leaves

theorem logs_quadprogSolution (x : Solution K) (b : K) (hs : sub parent name = entryName p) (hp : GoodPath p) :
    Logs (logQuadprogSolution num x b parent name) p (Spec.quadprogSolution num x b) := by
  unfold logQuadprogSolution Spec.quadprogSolution
  rw [fields_append]
  refine Logs.append (logs_solution hn x (by rw [sub_empty]; exact hs) hp) ?_
  logs_leaves

theorem logs_body (c : Ctr K) (hs : sub parent name = entryName p) (hp : GoodPath p) :
    Logs (logBody num c parent name) p (fields (Spec.bodyFields num c)) := by
  unfold logBody Spec.bodyFields
  cases c.ctype.body
  · logs_leaves
  · logs_leaves
  · logs_leaves
  · simp only [sub_empty]
    logs_leaves

theorem logs_bounds (c : Ctr K) (hs : sub parent name = entryName p) (hp : GoodPath p) :
    Logs (logBounds num c parent name) p (fields (Spec.boundFields num c)) := by
  unfold logBounds Spec.boundFields
  cases c.ctype.bounds
  · logs_leaves
  · logs_leaves
  · logs_leaves
  · logs_leaves
  · simp only [sub_empty]
    logs_leaves

theorem logs_task (body : BodyKind) (l : Label K) (hl : Spec.Plain l) (hs : sub parent name = entryName p) (hp : GoodPath p) :
    Logs (logTask num body l parent name) p (fields (Spec.gainFields num body l ++ Spec.ownFields num l.own)) := by
  unfold logTask Spec.gainFields Spec.ownFields
  rw [fields_append]
  obtain ⟨d, g, o⟩ := l
  obtain ⟨-, ho⟩ := hl
  refine Logs.append ?_ ?_
  · cases body
    · rw [if_neg (by decide)]; logs_leaves
    · rw [if_neg (by decide)]; logs_leaves
    · rw [if_pos rfl]; logs_leaves
    · rw [if_neg (by decide)]; logs_leaves
  · cases o <;> simp only at ho ⊢ <;> logs_leaves

theorem logs_constraints (c : Ctr K) (hs : sub parent name = entryName p) (hp : GoodPath p) :
    Logs (logConstraints num c parent name) p
      (fields (("number_of_variables", Spec.nat c.nvars) :: (Spec.bodyFields num c ++ Spec.boundFields num c))) := by
  unfold logConstraints
  refine logs_leaf_cons hs hp ⟨by decide, by decide, by decide, by decide, by decide⟩ (val_nat _) ?_
  rw [fields_append]
  exact Logs.append (logs_body hn c (by rw [sub_empty]; exact hs) hp) (logs_bounds hn c (by rw [sub_empty]; exact hs) hp)

theorem logs_taskInfo {E : Type} (t : TaskInfo E K) (l : Label K) (hl : Spec.Plain l) {s : Str} (hs : s = entryName p) (hp : GoodPath p) :
    Logs (logLocation t.loc s "location" ++ logTaskBase num t.task l s "") p (Spec.task num t l) := by
  unfold logTaskBase Spec.task
  rw [sub_empty]
  have hd := hl.1
  simp only [List.append_assoc, List.cons_append, List.nil_append]
  refine logs_cons (logs_location _ (sub_name hs) (good_lit hp (by decide))) ?_
  refine logs_leaf_cons hs hp ⟨by decide, by decide, by decide, by decide, by decide⟩ (val_text hd) ?_
  rw [← List.append_assoc (Spec.gainFields _ _ _), fields_append]
  refine Logs.append (logs_task hn _ l hl (by rw [sub_empty]; exact hs) hp) ?_
  refine logs_cons (logs_activeSetC _ (sub_name hs) (good_lit hp (by decide)) (by simp)) ?_
  refine logs_cons (logs_activeSetC _ (sub_name hs) (good_lit hp (by decide)) (by simp)) ?_
  exact logs_constraints hn t.task.ctr (by rw [sub_empty]; exact hs) hp

theorem logs_level {E : Type} (L : Level E K) (labels : ℕ → Label K) (hl : ∀ i, Spec.Plain (labels i)) (hL : L.tasks.length < 2 ^ 64)
    (hs : sub parent name = entryName p) (hp : GoodPath p) : Logs (logLevel num L labels parent name) p (Spec.level num L labels) := by
  unfold logLevel Spec.level
  refine logs_zipIdx (f := fun x i => logLocation x.loc (appendIndex (sub parent name) i) "location" ++
    logTaskBase num x.task (labels i) (appendIndex (sub parent name) i) "") (g := fun x i => Spec.task num x (labels i)) fun i x hx => ?_
  obtain ⟨hi, -⟩ := List.getElem?_eq_some_iff.1 hx
  exact logs_taskInfo hn x _ (hl i) (index_name hs) (goodPath_snoc hp (show i + 1 < 2 ^ 64 by omega))

theorem logs_problem {E : Type} (P : Hierarchy E K) (labels : ℕ → ℕ → Label K) (hl : ∀ i j, Spec.Plain (labels i j)) (hP : Spec.Fits P)
    (hs : parent = entryName p) (hp : GoodPath p) :
    Logs (logProblem num P labels parent name) (p ++ [.name "tasks".toList]) (Spec.problem num P labels) := by
  unfold logProblem Spec.problem
  refine logs_zipIdx (f := fun x i => logLevel num x (labels i) (appendIndex (sub parent "tasks") i) "")
    (g := fun x i => Spec.level num x (labels i)) fun i x hx => ?_
  obtain ⟨hi, e⟩ := List.getElem?_eq_some_iff.1 hx
  have h1 := hP.1
  refine logs_level hn x _ (hl i) (hP.2 x (e ▸ List.getElem_mem hi)) ?_
    (goodPath_snoc (good_lit hp (by decide)) (show i + 1 < 2 ^ 64 by omega))
  rw [sub_empty]
  exact index_name (sub_name hs)

theorem logs_objective (q : QPObjective K) (st : ℕ) (hs : sub parent name = entryName p) (hp : GoodPath p) :
    Logs (logObjective num q st parent name) p (Spec.objective num q st) := by
  unfold logObjective Spec.objective
  rw [hessianNumber_eq]
  logs_leaves

theorem logs_AB (c : ContainerAB K) (hs : sub parent name = entryName p) (hp : GoodPath p) :
    Logs (logAB num c parent name) p (Spec.containerAB num c) := by
  unfold logAB Spec.containerAB
  logs_leaves

theorem logs_AL (c : ContainerAL K) (hs : sub parent name = entryName p) (hp : GoodPath p) :
    Logs (logAL num c parent name) p (Spec.containerAL num c) := by
  unfold logAL Spec.containerAL
  logs_leaves

theorem logs_ALU (c : ContainerALU K) (hs : sub parent name = entryName p) (hp : GoodPath p) :
    Logs (logALU num c parent name) p (Spec.containerALU num c) := by
  unfold logALU Spec.containerALU
  logs_leaves

theorem logs_ILU (c : ContainerILU K) (hs : sub parent name = entryName p) (hp : GoodPath p) :
    Logs (logILU num c parent name) p (Spec.containerILU num c) := by
  unfold logILU Spec.containerILU
  logs_leaves

theorem logs_ILUALU (c : QPConstraintsILUALU K) (hs : sub parent name = entryName p) (hp : GoodPath p) :
    Logs (logILUALU num c parent name) p (Spec.constraintsILUALU num c) := by
  unfold logILUALU Spec.constraintsILUALU
  refine logs_cons (logs_ILU hn _ (sub_name hs) (good_lit hp (by decide))) ?_
  refine logs_cons (logs_ALU hn _ (sub_name hs) (good_lit hp (by decide))) ?_
  logs_leaves

theorem logs_ABAL (c : QPConstraintsABAL K) (hs : sub parent name = entryName p) (hp : GoodPath p) :
    Logs (logABAL num c parent name) p (Spec.constraintsABAL num c) := by
  unfold logABAL Spec.constraintsABAL
  refine logs_cons (logs_AB hn _ (sub_name hs) (good_lit hp (by decide))) ?_
  exact logs_last (logs_AL hn _ (sub_name hs) (good_lit hp (by decide)))

theorem logs_ABOnly (c : ContainerAB K) (hs : sub parent name = entryName p) (hp : GoodPath p) :
    Logs (logABOnly num c parent name) p (Spec.constraintsAB num c) := by
  unfold logABOnly Spec.constraintsAB
  exact logs_last (logs_AB hn _ (sub_name hs) (good_lit hp (by decide)))

theorem logs_solver (q : QPObjective K) (st : ℕ) {c : Str → String → List Entry} {C : Contents}
    (hc : ∀ parent name p, sub parent name = entryName p → GoodPath p → Logs (c parent name) p C)
    (hs : sub parent name = entryName p) (hp : GoodPath p) :
    Logs (logSolver num q st c parent name) p (Spec.solver num q st C) := by
  unfold logSolver logQP Spec.solver
  have h1 : sub (sub parent name) "qp_problem" = _ := sub_name hs
  have h2 := good_lit (n := "qp_problem") hp (by decide)
  refine logs_last ?_
  refine logs_cons (logs_objective hn _ _ (sub_name h1) (good_lit h2 (by decide))) ?_
  exact logs_last (hc _ _ _ (sub_name h1) (good_lit h2 (by decide)))

theorem logs_pointMassFields (x : PointMassState K) (hs : sub parent name = entryName p) (hp : GoodPath p) :
    Logs (logPointMass num x parent name) p (fields (Spec.pointMassFields num x.position x.velocity x.acceleration)) := by
  unfold logPointMass Spec.pointMassFields
  logs_leaves

theorem logs_pointMass (x : PointMassState K) (hs : sub parent name = entryName p) (hp : GoodPath p) :
    Logs (logPointMass num x parent name) p (Spec.pointMass num x) := logs_pointMassFields hn x hs hp

theorem logs_rigidBody (x : RigidBodyState K) (hs : sub parent name = entryName p) (hp : GoodPath p) :
    Logs (logRigidBody num x parent name) p (Spec.rigidBody num x) := by
  unfold logRigidBody Spec.rigidBody
  rw [fields_append]
  refine Logs.append (logs_pointMassFields hn ⟨x.position, x.velocity, x.acceleration⟩ hs hp) ?_
  unfold logRotary
  logs_leaves

theorem logs_pose (x y : Fin 3 → K) (hs : sub parent name = entryName p) (hp : GoodPath p) :
    Logs (logPose num x y parent name) p (Spec.pose num x y) := by
  unfold logPose Spec.pose
  logs_leaves

theorem logs_footParameters (x : FootParameters K) (hs : sub parent name = entryName p) (hp : GoodPath p) :
    Logs (logFootParameters num x parent name) p (Spec.footParameters num x) := by
  unfold logFootParameters Spec.footParameters
  logs_leaves

omit hn in
theorem logs_stance (x : Stance) (hs : sub parent name = entryName p) (hp : GoodPath p) :
    Logs (logStance x parent name) p (Spec.stance x) := by
  unfold logStance Spec.stance
  rw [stanceNumber_eq, subtypeNumber_eq]
  logs_leaves

omit hn in
theorem logs_fsm (x : FSM) (hs : sub parent name = entryName p) (hp : GoodPath p) : Logs (logFSM x parent name) p (Spec.fsm x) := by
  unfold logFSM Spec.fsm
  refine logs_cons (logs_stance _ (sub_name hs) (good_lit hp (by decide))) ?_
  logs_leaves

theorem logs_mgInterval (i : Pepper.Interval K) (hs : sub parent name = entryName p) (hp : GoodPath p) :
    Logs (logMgInterval num i parent name) p (Spec.mgInterval num i) := by
  unfold logMgInterval Spec.mgInterval
  logs_leaves

theorem logs_mg (c : Pepper.Mpc K) (hc : c.intervals.length < 2 ^ 64) (hs : sub parent name = entryName p) (hp : GoodPath p) :
    Logs (logMg num c parent name) p (Spec.mg num c) := by
  unfold logMg Spec.mg
  refine logs_cons ?_ ?_
  · have h1 : sub (sub parent name) "preview_horizon" = _ := sub_name hs
    have h2 := good_lit (n := "preview_horizon") hp (by decide)
    refine logs_last ?_
    exact logs_each (sub_name h1) hc (good_lit h2 (by decide)) fun x _ s q hq hg _ =>
      logs_mgInterval hn x (by rw [sub_empty]; exact hq) hg
  · logs_leaves

theorem logs_mgState (x : Pepper.ModelState K) (hs : sub parent name = entryName p) (hp : GoodPath p) :
    Logs (logMgState num x parent name) p (Spec.mgState num x) := by
  unfold logMgState Spec.mgState
  refine logs_leaf_cons hs hp ⟨by decide, by decide, by decide, by decide, by decide⟩ (val_num hn _) ?_
  refine logs_leaf_cons hs hp ⟨by decide, by decide, by decide, by decide, by decide⟩ (val_num hn _) ?_
  refine logs_cons (logs_rigidBody hn _ (sub_name hs) (good_lit hp (by decide))) ?_
  exact logs_last (logs_pointMass hn _ (sub_name hs) (good_lit hp (by decide)))

theorem logs_mgModel [Field K] (m : Pepper.Model K) (hs : sub parent name = entryName p) (hp : GoodPath p) :
    Logs (logMgModel num m parent name) p (Spec.mgModel num m) := by
  unfold logMgModel Spec.mgModel
  refine logs_cons (logs_mgState hn _ (sub_name hs) (good_lit hp (by decide))) ?_
  logs_leaves

theorem logs_ikInner (x : IkInner K) (hl : ∀ i j, Spec.Plain (x.labels i j)) (hP : Spec.Fits x.levels) (hs : parent = entryName p)
    (hp : GoodPath p) : Logs (logIkInner num x parent) p (Spec.ikInner num x) := by
  unfold logIkInner Spec.ikInner
  refine logs_cons (logs_problem hn _ _ hl hP hs hp) ?_
  refine logs_cons (logs_solver hn _ _ (fun _ _ _ => logs_ABOnly hn _) (sub_name hs) (good_lit hp (by decide))) ?_
  exact logs_last (logs_solution hn _ (sub_name hs) (good_lit hp (by decide)))

end

section
variable {num : ℝ → Str} (hn : ∀ x, Token (num x)) {parent : Str} {name : String} {p : Path}
include hn

theorem logs_walkState (w : Wpg.WalkState) (hs : sub parent name = entryName p) (hp : GoodPath p) :
    Logs (logWalkState num w parent name) p (Spec.walkState num w) := by
  unfold logWalkState Spec.walkState
  simp only [List.cons_append, List.nil_append]
  refine logs_leaf_cons hs hp ⟨by decide, by decide, by decide, by decide, by decide⟩ (val_num hn _) ?_
  refine logs_leaf_cons hs hp ⟨by decide, by decide, by decide, by decide, by decide⟩ (val_num hn _) ?_
  refine logs_leaf_cons hs hp ⟨by decide, by decide, by decide, by decide, by decide⟩ (val_fin hn _) ?_
  refine logs_leaf_cons hs hp ⟨by decide, by decide, by decide, by decide, by decide⟩ (val_square hn _) ?_
  refine logs_leaf_cons hs hp ⟨by decide, by decide, by decide, by decide, by decide⟩ (val_fin hn _) ?_
  refine logs_leaf_cons hs hp ⟨by decide, by decide, by decide, by decide, by decide⟩ (val_square hn _) ?_
  refine logs_leaf_cons hs hp ⟨by decide, by decide, by decide, by decide, by decide⟩ (val_square hn _) ?_
  exact logs_last (logs_stance _ (sub_name hs) (good_lit hp (by decide)))

theorem logs_wpgInterval (i : Wpg.Interval) (hs : sub parent name = entryName p) (hp : GoodPath p) :
    Logs (logWpgInterval num i parent name) p (Spec.wpgInterval num i) := by
  unfold logWpgInterval Spec.wpgInterval
  logs_leaves

theorem logs_wpgHorizon (h : Wpg.Horizon) (h1 : h.intervals.n < 2 ^ 64) (h2 : h.walk_states.length < 2 ^ 64)
    (hs : sub parent name = entryName p) (hp : GoodPath p) : Logs (logWpgHorizon num h parent name) p (Spec.wpgHorizon num h) := by
  unfold logWpgHorizon Spec.wpgHorizon
  refine logs_leaf_cons hs hp ⟨by decide, by decide, by decide, by decide, by decide⟩ (val_list _) ?_
  refine logs_cons (logs_each (sub_name hs) (by simpa using h1) (good_lit hp (by decide)) fun x _ s q hq hg _ =>
    logs_wpgInterval hn x (by rw [sub_empty]; exact hq) hg) ?_
  exact logs_last (logs_each (sub_name hs) h2 (good_lit hp (by decide)) fun x _ s q hq hg _ =>
    logs_walkState hn x (by rw [sub_empty]; exact hq) hg)

theorem logs_wpgMpc (c : Wpg.Mpc) (h1 : c.horizon.intervals.n < 2 ^ 64) (h2 : c.horizon.walk_states.length < 2 ^ 64)
    (hs : sub parent name = entryName p) (hp : GoodPath p) : Logs (logWpgMpc num c parent name) p (Spec.wpgMpc num c) := by
  unfold logWpgMpc Spec.wpgMpc
  refine logs_cons (logs_wpgHorizon hn _ h1 h2 (sub_name hs) (good_lit hp (by decide))) ?_
  logs_leaves

theorem logs_wpgState (x : Wpg.ModelState) (hs : sub parent name = entryName p) (hp : GoodPath p) :
    Logs (logWpgState num x parent name) p (Spec.wpgState num x) := by
  unfold logWpgState Spec.wpgState
  rw [stanceNumber_eq]
  refine logs_leaf_cons hs hp ⟨by decide, by decide, by decide, by decide, by decide⟩ (val_nat _) ?_
  refine logs_leaf_cons hs hp ⟨by decide, by decide, by decide, by decide, by decide⟩ (val_nat _) ?_
  refine logs_cons (logs_pointMass hn _ (sub_name hs) (good_lit hp (by decide))) ?_
  refine logs_cons (logs_rigidBody hn _ (sub_name hs) (good_lit hp (by decide))) ?_
  exact logs_last (logs_rigidBody hn _ (sub_name hs) (good_lit hp (by decide)))

theorem logs_wpgModel (m : Wpg.Model) (hs : sub parent name = entryName p) (hp : GoodPath p) :
    Logs (logWpgModel num m parent name) p (Spec.wpgModel num m) := by
  unfold logWpgModel Spec.wpgModel
  refine logs_cons (logs_footParameters hn _ (sub_name hs) (good_lit hp (by decide))) ?_
  refine logs_cons (logs_wpgState hn _ (sub_name hs) (good_lit hp (by decide))) ?_
  logs_leaves

end

end Humoto.LogTree
