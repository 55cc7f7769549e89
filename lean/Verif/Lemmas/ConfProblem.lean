import Verif.Spec.ConfProblem
import Verif.Lemmas.Config

/-!
# Hierarchies in configuration files: lemmas
-/

namespace Humoto.Config

open Spec

theorem fromStrings_strings (l : List (List String)) : fromStrings (strings l) = l := by
  have h : ∀ k : List String, (k.map Scalar.str).filterMap (fun s => match s with | .str x => some x | _ => none) = k := by
    intro k
    induction k with
    | nil => rfl
    | cons a k ih => simp [ih]
  simp only [fromStrings, strings, List.map_map]
  conv_rhs => rw [← List.map_id l]
  exact List.map_congr_left fun k _ => h k

theorem emit_strings (f : Format) (l : List (List String)) : ((strings l).map fun k => k.map (emit f)) = strings l := by
  simp only [strings, List.map_map]
  refine List.map_congr_left fun k _ => ?_
  simp only [Function.comp_apply, List.map_map]
  refine List.map_congr_left fun s _ => ?_
  cases f <;> rfl

theorem strings_typed (l : List (List String)) : ∀ k ∈ strings l, ∀ s ∈ k, s.type = .str := by
  intro k hk s hs
  obtain ⟨k', _, rfl⟩ := List.mem_map.1 hk
  obtain ⟨x, _, rfl⟩ := List.mem_map.1 hs
  rfl

theorem readLists_found {f : Format} {file F : Fields} {strict : Bool} {d : List (List Scalar)} {l : List (List String)}
    {name : String} {r : List Node} (h : F.find name = some (.leaf (seqsLeaf (strings l)))) :
    readLists f file strict .str d name (.map F :: r) = (.ok (strings l), .map F :: r) := by
  rw [readLists, bind_ok (descend_found h), if_pos rfl, bind_ok (currentSeqs_run (strings_typed l) _), bind_ok (ascend_cons _ _)]
  rfl

theorem readLists_missing {f : Format} {file F : Fields} {strict : Bool} {d : List (List Scalar)}
    {name : String} {r : List Node} (h : F.find name = none) :
    readLists f file strict .str d name (.map F :: r) = missing strict d (.map F :: r) := by
  rw [readLists, bind_ok (descend_missing h), if_neg (by simp)]

theorem assert_true {p : Prop} [Decidable p] (h : p) (st : List Node) : RM.assert p st = (.ok (), st) := by
  rw [RM.assert, if_pos h]; rfl

theorem assert_false {p : Prop} [Decidable p] (h : ¬ p) (st : List Node) : RM.assert p st = (.error .thrown, st) := by
  rw [RM.assert, if_neg h]; rfl

/-! ## The order on a level -/

theorem inOrder_snoc (l : List ConfTask) (t : ConfTask) : inOrder (l ++ [t]) = pushOnLevel (inOrder l) t := by
  by_cases h : t.simple = true
  · simp [inOrder, pushOnLevel, h]
  · simp [inOrder, pushOnLevel, h]

theorem mem_inOrder (l : List ConfTask) (t : ConfTask) : t ∈ inOrder l ↔ t ∈ l := by
  simp only [inOrder, List.mem_append, List.mem_reverse, List.mem_filter]
  cases t.simple <;> simp

/-- What is known about a level. -/
def LevelOf (getTask : String → Option TaskClass) (names ids : List String) (l : List ConfTask) : Prop :=
  ∃ tasks, l = inOrder tasks ∧ ids = tasks.map (fun t => t.id) ∧ List.Forall₂ (OfClass getTask) names tasks

/-- Invariant of hierarchies which are built. -/
theorem built_levels {getTask : String → Option TaskClass} {p : ConfProblem} (h : Built getTask p) :
    p.classNames.length = p.levels.length ∧ p.ids.length = p.levels.length ∧
      ∀ (i : ℕ) l n d, p.levels[i]? = some l → p.classNames[i]? = some n → p.ids[i]? = some d → LevelOf getTask n d l := by
  induction h with
  | reset p n =>
    refine ⟨by simp [ConfProblem.reset], by simp [ConfProblem.reset], fun i l n d hl hn hd => ?_⟩
    simp only [ConfProblem.reset, List.getElem?_replicate] at hl hn hd
    split_ifs at hl hn hd
    cases hl; cases hn; cases hd
    exact ⟨[], rfl, rfl, .nil⟩
  | @push p p' t level className h hc hp ih =>
    obtain ⟨h1, h2, h3⟩ := ih
    rw [ConfProblem.push] at hp
    split_ifs at hp with hlt
    cases hp
    refine ⟨by simp [h1], by simp [h2], fun i l n d hl hn hd => ?_⟩
    simp only [List.getElem?_modify] at hl hn hd
    cases hl' : p.levels[i]? with
    | none => rw [hl'] at hl; simp at hl
    | some l' =>
      cases hn' : p.classNames[i]? with
      | none => rw [hn'] at hn; simp at hn
      | some n' =>
        cases hd' : p.ids[i]? with
        | none => rw [hd'] at hd; simp at hd
        | some d' =>
          obtain ⟨tasks, e1, e2, e3⟩ := h3 i l' n' d' hl' hn' hd'
          rw [hl'] at hl; rw [hn'] at hn; rw [hd'] at hd
          simp only [Option.map_eq_map, Option.map_some, Option.some.injEq] at hl hn hd
          by_cases hi : level = i
          · rw [if_pos hi] at hl hn hd
            refine ⟨tasks ++ [t], ?_, ?_, ?_⟩
            · rw [← hl, e1, inOrder_snoc]
            · rw [← hd, e2]; simp
            · rw [← hn]; exact List.rel_append e3 (.cons hc .nil)
          · rw [if_neg hi] at hl hn hd
            exact ⟨tasks, by rw [← hl, e1], by rw [← hd, e2], by rw [← hn]; exact e3⟩

/-! ## Sections of tasks -/

theorem names_taskMembers (l : List ConfTask) : names (taskMembers l) = l.map fun t => t.id := by
  induction l with
  | nil => rfl
  | cons t l ih => simp [taskMembers, names, ih]

theorem find_taskMembers (f : Format) {l : List ConfTask} (hn : (l.map fun t => t.id).Nodup) {t : ConfTask} (ht : t ∈ l) :
    (writeEntries f (taskMembers l)).find t.id = some (.map (writeEntries f t.entries)) := by
  induction l with
  | nil => cases ht
  | cons u l ih =>
    simp only [List.map_cons, List.nodup_cons] at hn
    simp only [taskMembers, writeEntries, Fields.find]
    rcases List.mem_cons.1 ht with rfl | h
    · rw [if_pos rfl]
    · have hne : ¬ t.id = u.id := fun e => hn.1 (List.mem_map.2 ⟨t, h, e⟩)
      rw [if_neg hne]
      exact ih hn.2 h

theorem writeEntries_problem (f : Format) (p : ConfProblem) :
    writeEntries f p.entries = .leaf "task_class_names" (seqsLeaf (strings p.classNames))
      (.leaf "task_ids" (seqsLeaf (strings p.ids)) (writeEntries f (taskMembers p.levels.flatten))) := by
  simp only [ConfProblem.entries, writeEntries, writeVal, emit_strings]

theorem hasLists_written (f : Format) (p : ConfProblem) : HasLists (writeEntries f p.entries) p.classNames p.ids := by
  rw [writeEntries_problem]
  exact ⟨by simp [Fields.find], by simp [Fields.find]⟩

theorem find_task {f : Format} {p : ConfProblem} (h : OwnSections p) {t : ConfTask} (ht : t ∈ p.levels.flatten) :
    (writeEntries f p.entries).find t.id = some (.map (writeEntries f t.entries)) := by
  rw [writeEntries_problem]
  simp only [Fields.find]
  rw [if_neg (h.2 t ht).1, if_neg (h.2 t ht).2]
  exact find_taskMembers f h.1 ht

theorem readConfig_inner {f : Format} {file F : Fields} {strict : Bool} {d e : Entries} {name : String} {r : List Node}
    (hc : SameClass d e) (hl : Lossless f e) (hf : F.find name = some (.map (writeEntries f e))) :
    readConfig f file strict d name (.map F :: r) = (.ok e, .map F :: r) := by
  have hmap : mapValues (stored f) e = e := by
    refine mapValues_id ?_
    cases f with
    | yaml => exact allValues_imp₂ (fun v hv h => stored_exact hv h) hl.2.2.1 (hl.2.2.2 rfl)
    | msgpack => exact allValues_imp (fun v hv => stored_msgpack hv) hl.2.2.1
  rw [readConfig, bind_ok (descend_found hf), if_pos rfl, bind_ok (read_written hc hl.2.1 hl.1 _), hmap, bind_ok (ascend_cons _ _)]
  rfl

theorem readTasks_written {f : Format} {file F : Fields} {strict : Bool} {getTask : String → Option TaskClass} {r : List Node}
    {names : List String} {tasks : List ConfTask} (h : List.Forall₂ (OfClass getTask) names tasks)
    (hF : ∀ t ∈ tasks, F.find t.id = some (.map (writeEntries f t.entries)) ∧ Lossless f t.entries) (l : List ConfTask) :
    readTasks f file strict getTask names (tasks.map fun t => t.id) l (.map F :: r)
      = (.ok (tasks.foldl pushOnLevel l), .map F :: r) := by
  induction h generalizing l with
  | nil => rfl
  | @cons n t ns ts hc _ ih =>
    obtain ⟨c, hc, h1, h2, h3⟩ := hc
    obtain ⟨hf, hl⟩ := hF t (by simp)
    simp only [List.map_cons, readTasks, hc]
    rw [bind_ok (readConfig_inner h3 hl hf), ← h1, ← h2]
    exact ih (fun u hu => hF u (by simp [hu])) _

theorem foldl_pushOnLevel (tasks done : List ConfTask) : tasks.foldl pushOnLevel (inOrder done) = inOrder (done ++ tasks) := by
  induction tasks generalizing done with
  | nil => simp
  | cons t ts ih => rw [List.foldl_cons, ← inOrder_snoc, ih]; simp

theorem readLevels_written {f : Format} {file F : Fields} {strict : Bool} {getTask : String → Option TaskClass} {r : List Node}
    (levels : List (List ConfTask)) (names ids : List (List String)) (hn : names.length = levels.length)
    (hi : ids.length = levels.length)
    (h : ∀ (i : ℕ) l n d, levels[i]? = some l → names[i]? = some n → ids[i]? = some d → LevelOf getTask n d l)
    (hF : ∀ t ∈ levels.flatten, F.find t.id = some (.map (writeEntries f t.entries)) ∧ Lossless f t.entries) :
    readLevels f file strict getTask names ids (.map F :: r) = (.ok levels, .map F :: r) := by
  induction levels generalizing names ids with
  | nil =>
    have : names = [] := List.length_eq_zero_iff.1 hn
    subst this
    rfl
  | cons l levels ih =>
    cases names with
    | nil => simp at hn
    | cons n names =>
      cases ids with
      | nil => simp at hi
      | cons d ids =>
        obtain ⟨tasks, e1, e2, e3⟩ := h 0 l n d rfl rfl rfl
        have hl := readTasks_written (file := file) (strict := strict) (r := r) e3 (F := F)
          (fun t ht => hF t (by simp [e1, mem_inOrder, ht])) []
        have hr := ih names ids (by simpa using hn) (by simpa using hi) (fun i l' n' d' a b c => h (i + 1) l' n' d' a b c)
          (fun t ht => hF t (by simp only [List.flatten_cons, List.mem_append]; exact .inr ht))
        have e : tasks.foldl pushOnLevel [] = l := by
          rw [e1, show ([] : List ConfTask) = inOrder [] from rfl, foldl_pushOnLevel]; rfl
        rw [e, ← e2] at hl
        rw [readLevels, bind_ok (assert_true (by rw [e2, List.length_map]; exact e3.length_eq) _), bind_ok hl, bind_ok hr]
        rfl

theorem built_ne {getTask : String → Option TaskClass} {p : ConfProblem} (h : Built getTask p) :
    p.classNames = [] ↔ p.levels = [] := by
  have := (built_levels h).1
  rw [← List.length_eq_zero_iff, this, List.length_eq_zero_iff]

/-! ## Any file -/

/-- A computation on a stack which is not empty returns it unchanged or throws. -/
def Safe {α : Type} (x : RM α) : Prop :=
  ∀ n r, (∃ a, x (n :: r) = (.ok a, n :: r)) ∨ ∃ st, x (n :: r) = (.error .thrown, st)

theorem safe_pure {α : Type} (a : α) : Safe (pure a : RM α) := fun _ _ => .inl ⟨a, rfl⟩

theorem safe_throw {α : Type} : Safe (RM.throw : RM α) := fun _ _ => .inr ⟨_, rfl⟩

theorem safe_bind {α β : Type} {x : RM α} {g : α → RM β} (hx : Safe x) (hg : ∀ a, Safe (g a)) : Safe (x >>= g) := by
  intro n r
  rcases hx n r with ⟨a, e⟩ | ⟨st, e⟩
  · rw [bind_ok e]; exact hg a n r
  · rw [bind_error e]; exact .inr ⟨st, rfl⟩

theorem safe_assert (p : Prop) [Decidable p] : Safe (RM.assert p) := by
  unfold RM.assert; split_ifs
  · exact safe_pure _
  · exact safe_throw

theorem safe_missing {α : Type} (strict : Bool) (d : α) : Safe (missing strict d) := by
  unfold missing; split_ifs
  · exact safe_throw
  · exact safe_pure _

theorem safe_convert (ty : ScalarType) (s : Scalar) : Safe (convert ty s) := by
  unfold convert; split_ifs
  · exact safe_pure _
  · split
    · exact safe_pure _
    · exact safe_throw

theorem safe_convertAll (ty : ScalarType) (l : List Scalar) : Safe (convertAll ty l) := by
  induction l with
  | nil => exact safe_pure _
  | cons s l ih => exact safe_bind (safe_convert ty s) fun _ => safe_bind ih fun _ => safe_pure _

theorem safe_convertSeqs (ty : ScalarType) (l : List (List Scalar)) : Safe (convertSeqs ty l) := by
  induction l with
  | nil => exact safe_pure _
  | cons s l ih => exact safe_bind (safe_convertAll ty s) fun _ => safe_bind ih fun _ => safe_pure _

theorem safe_current : Safe getCurrentNode := fun n r => .inl ⟨n, rfl⟩

theorem safe_currentScalar (ty : ScalarType) : Safe (currentScalar ty) :=
  safe_bind safe_current fun n => by split <;> first | exact safe_convert _ _ | exact safe_throw

theorem safe_currentSeq (ty : ScalarType) : Safe (currentSeq ty) :=
  safe_bind safe_current fun n => by split <;> first | exact safe_convertAll _ _ | exact safe_throw

theorem safe_currentSeqs (ty : ScalarType) : Safe (currentSeqs ty) :=
  safe_bind safe_current fun n => by
    split <;> first | exact safe_convertSeqs _ _ | exact safe_pure _ | exact safe_throw

/-- Descending, reading, ascending. -/
theorem safe_nested {α β : Type} {f : Format} {file : Fields} {name : String} {x : RM α} {g : α → RM β} {y : RM β} (hx : Safe x)
    (hg : ∀ a, Safe (g a)) (hy : Safe y) :
    Safe (do
      let found ← descend f file name
      if found then do
        let a ← x
        ascend
        g a
      else y) := by
  intro n r
  cases hf : n.find name with
  | none =>
    have : descend f file name (n :: r) = (.ok false, n :: r) := by simp [descend, hf]
    rw [bind_ok this, if_neg (by simp)]
    exact hy n r
  | some c =>
    have : descend f file name (n :: r) = (.ok true, c :: n :: r) := by simp [descend, hf]
    rw [bind_ok this, if_pos rfl]
    rcases hx c (n :: r) with ⟨a, e⟩ | ⟨st, e⟩
    · rw [bind_ok e, bind_ok (ascend_cons _ _)]
      exact hg a n r
    · rw [bind_error e]
      exact .inr ⟨st, rfl⟩

theorem safe_readScalar {f : Format} {file : Fields} {strict : Bool} {d : Scalar} {name : String} :
    Safe (readScalar f file strict d name) := safe_nested (safe_currentScalar _) safe_pure (safe_missing _ _)

theorem safe_readEnum {f : Format} {file : Fields} {strict : Bool} {d : ℤ} {name : String} :
    Safe (readEnum f file strict d name) :=
  safe_nested (safe_currentScalar _) (fun s => by split <;> first | exact safe_pure _ | exact safe_throw) (safe_missing _ _)

theorem rm_assoc {α β γ : Type} (x : RM α) (g : α → RM β) (h : β → RM γ) : x >>= g >>= h = x >>= fun a => g a >>= h := by
  funext st
  simp only [bind_run]
  rcases x st with ⟨_ | a, st'⟩ <;> rfl

theorem rm_pure_bind {α β : Type} (a : α) (g : α → RM β) : (pure a : RM α) >>= g = g a := rfl

theorem safe_readVector {f : Format} {file : Fields} {strict fixed : Bool} {d : List ℚ} {name : String} :
    Safe (readVector f file strict fixed d name) := by
  have := safe_nested (f := f) (file := file) (name := name) (x := do
      let l ← currentSeq .real
      RM.assert (fixed = true → l.length = d.length)
      pure l) (g := fun l => (pure (reals l) : RM (List ℚ))) (y := missing strict d)
    (safe_bind (safe_currentSeq _) fun _ => safe_bind (safe_assert _) fun _ => safe_pure _) (fun _ => safe_pure _) (safe_missing _ _)
  simp only [rm_assoc, rm_pure_bind] at this
  exact this

theorem safe_readMatrix {f : Format} {file : Fields} {strict : Bool} {d : ℕ × ℕ × List ℚ} {name : String} :
    Safe (readMatrix f file strict d name) := by
  have := safe_nested (f := f) (file := file) (name := name) (x := do
      let rows ← readEnum f file true 0 "rows"
      let cols ← readEnum f file true 0 "cols"
      let v ← readVector f file true false [] "data"
      RM.assert (0 ≤ rows ∧ 0 ≤ cols ∧ (v.length : ℤ) = rows * cols)
      pure (rows, cols, v))
    (g := fun x => (pure (x.1.toNat, x.2.1.toNat, fromRowMajor x.1.toNat x.2.1.toNat x.2.2) : RM (ℕ × ℕ × List ℚ)))
    (y := missing strict d)
    (safe_bind safe_readEnum fun _ => safe_bind safe_readEnum fun _ => safe_bind safe_readVector fun _ =>
      safe_bind (safe_assert _) fun _ => safe_pure _) (fun _ => safe_pure _) (safe_missing _ _)
  simp only [rm_assoc, rm_pure_bind] at this
  exact this

theorem safe_readList {f : Format} {file : Fields} {strict : Bool} {ty : ScalarType} {d : List Scalar} {name : String} :
    Safe (readList f file strict ty d name) := safe_nested (safe_currentSeq _) safe_pure (safe_missing _ _)

theorem safe_readLists {f : Format} {file : Fields} {strict : Bool} {ty : ScalarType} {d : List (List Scalar)} {name : String} :
    Safe (readLists f file strict ty d name) := safe_nested (safe_currentSeqs _) safe_pure (safe_missing _ _)

theorem safe_readVal {f : Format} {file : Fields} {strict : Bool} {v : Val} {name : String} :
    Safe (readVal f file strict v name) := by
  cases v
  · exact safe_bind safe_readScalar fun _ => safe_pure _
  · exact safe_bind safe_readEnum fun _ => safe_pure _
  · exact safe_bind safe_readVector fun _ => safe_pure _
  · exact safe_bind safe_readList fun _ => safe_pure _
  · exact safe_bind safe_readLists fun _ => safe_pure _
  · exact safe_bind safe_readMatrix fun _ => safe_pure _

theorem safe_readEntries {f : Format} {file : Fields} {strict : Bool} (d : Entries) : Safe (readEntries f file strict d) := by
  induction d with
  | nil => exact safe_pure _
  | leaf n v r ih => exact safe_bind safe_readVal fun _ => safe_bind ih fun _ => safe_pure _
  | member n s r ihs ih =>
    exact safe_bind (safe_nested ihs safe_pure (safe_missing _ _)) fun _ => safe_bind ih fun _ => safe_pure _
  | parent s r ihs ih => exact safe_bind ihs fun _ => safe_bind ih fun _ => safe_pure _

theorem safe_readConfig {f : Format} {file : Fields} {strict : Bool} (d : Entries) (name : String) :
    Safe (readConfig f file strict d name) := safe_nested (safe_readEntries d) safe_pure (safe_missing _ _)

/-! ## The class of what is read -/

/-- All results satisfy the condition. -/
def Returns {α : Type} (x : RM α) (P : α → Prop) : Prop := ∀ st a st', x st = (.ok a, st') → P a

theorem returns_pure {α : Type} {P : α → Prop} {a : α} (h : P a) : Returns (pure a : RM α) P := by
  intro st b st' e
  cases e
  exact h

theorem returns_throw {α : Type} {P : α → Prop} : Returns (RM.throw : RM α) P := by
  intro st b st' e
  cases e

theorem returns_bind {α β : Type} {x : RM α} {g : α → RM β} {Q : α → Prop} {P : β → Prop} (hx : Returns x Q)
    (hg : ∀ a, Q a → Returns (g a) P) : Returns (x >>= g) P := by
  intro st b st' e
  obtain ⟨a, s, h1, h2⟩ := bind_eq_ok e
  exact hg a (hx _ _ _ h1) _ _ _ h2

theorem returns_true {α : Type} (x : RM α) : Returns x fun _ => True := fun _ _ _ _ => trivial

theorem returns_missing {α : Type} {P : α → Prop} {strict : Bool} {d : α} (h : P d) : Returns (missing strict d) P := by
  unfold missing; split_ifs
  · exact returns_throw
  · exact returns_pure h

theorem returns_nested {α β : Type} {f : Format} {file : Fields} {name : String} {x : RM α} {g : α → RM β} {y : RM β}
    {Q : α → Prop} {P : β → Prop} (hx : Returns x Q) (hg : ∀ a, Q a → Returns (g a) P) (hy : Returns y P) :
    Returns (do
      let found ← descend f file name
      if found then do
        let a ← x
        ascend
        g a
      else y) P := by
  refine returns_bind (returns_true _) fun b _ => ?_
  split_ifs
  · exact returns_bind hx fun a ha => returns_bind (returns_true _) fun _ _ => hg a ha
  · exact hy

theorem returns_convert (ty : ScalarType) (s : Scalar) : Returns (convert ty s) fun x => x.type = ty := by
  unfold convert; split_ifs with h
  · exact returns_pure h
  · split
    · exact returns_pure rfl
    · exact returns_throw

theorem returns_convertAll (ty : ScalarType) (l : List Scalar) :
    Returns (convertAll ty l) fun x => ∀ s ∈ x, s.type = ty := by
  induction l with
  | nil => exact returns_pure (by simp)
  | cons s l ih =>
    refine returns_bind (returns_convert ty s) fun a ha => returns_bind ih fun b hb => returns_pure ?_
    intro x hx
    rcases List.mem_cons.1 hx with rfl | hx
    · exact ha
    · exact hb x hx

theorem reals_length {l : List Scalar} (h : ∀ s ∈ l, s.type = .real) : (reals l).length = l.length := by
  induction l with
  | nil => rfl
  | cons s l ih =>
    have hs := h s (by simp)
    cases s <;> simp only [Scalar.type, reduceCtorEq] at hs
    have := ih fun t ht => h t (by simp [ht])
    simpa [reals] using this

theorem returns_readVal {f : Format} {file : Fields} {strict : Bool} {v : Val} {name : String} :
    Returns (readVal f file strict v name) fun x => SameType v x := by
  cases v with
  | scalar s =>
    refine returns_bind (Q := fun x : Scalar => s.type = x.type) ?_ fun a ha => returns_pure (show s.type = a.type from ha)
    refine returns_nested (Q := fun x : Scalar => s.type = x.type) ?_ (fun a ha => returns_pure ha) (returns_missing rfl)
    refine returns_bind (returns_true _) fun n _ => ?_
    split
    · intro st a st' e
      exact ((returns_convert _ _) _ _ _ e).symm
    · exact returns_throw
  | enum i => exact returns_bind (returns_true _) fun a _ => returns_pure trivial
  | vec fixed l =>
    refine returns_bind (Q := fun x => fixed = true → l.length = x.length) ?_ fun a ha => returns_pure ⟨rfl, ha⟩
    refine returns_bind (returns_true _) fun b _ => ?_
    split_ifs
    · refine returns_bind (Q := fun x => ∀ s ∈ x, s.type = .real) ?_ fun x hx => ?_
      · refine returns_bind (returns_true _) fun n _ => ?_
        split
        · exact returns_convertAll _ _
        · exact returns_throw
      · refine returns_bind (Q := fun _ => fixed = true → x.length = l.length) ?_ fun _ h =>
          returns_bind (returns_true _) fun _ _ => returns_pure fun hf => by rw [reals_length hx, h hf]
        unfold RM.assert
        split_ifs with h
        · exact returns_pure h
        · exact returns_throw
    · exact returns_missing fun _ => rfl
  | list ty l => exact returns_bind (returns_true _) fun a _ => returns_pure rfl
  | lists ty l => exact returns_bind (returns_true _) fun a _ => returns_pure rfl
  | mat r c d => exact returns_bind (returns_true _) fun a _ => returns_pure trivial

theorem sameClass_refl (d : Entries) : SameClass d d := by
  induction d with
  | nil => trivial
  | leaf n v r ih => exact ⟨rfl, by cases v <;> simp [SameType], ih⟩
  | member n s r ihs ih => exact ⟨rfl, ihs, ih⟩
  | parent s r ihs ih => exact ⟨ihs, ih⟩

theorem returns_readEntries {f : Format} {file : Fields} {strict : Bool} (d : Entries) :
    Returns (readEntries f file strict d) fun x => SameClass d x := by
  induction d with
  | nil => exact returns_pure trivial
  | leaf n v r ih => exact returns_bind returns_readVal fun a ha => returns_bind ih fun b hb => returns_pure ⟨rfl, ha, hb⟩
  | member n s r ihs ih =>
    exact returns_bind (returns_nested ihs (fun a ha => returns_pure ha) (returns_missing (sameClass_refl s))) fun a ha =>
      returns_bind ih fun b hb => returns_pure ⟨rfl, ha, hb⟩
  | parent s r ihs ih => exact returns_bind ihs fun a ha => returns_bind ih fun b hb => returns_pure ⟨ha, hb⟩

theorem returns_readConfig {f : Format} {file : Fields} {strict : Bool} (d : Entries) (name : String) :
    Returns (readConfig f file strict d name) fun x => SameClass d x :=
  returns_nested (returns_readEntries d) (fun a ha => returns_pure ha) (returns_missing (sameClass_refl d))

/-! ## Levels which are read -/

section
variable {f : Format} {file : Fields} {strict : Bool} {getTask : String → Option TaskClass}

theorem safe_readTasks {names ids : List String} (hk : ∀ n ∈ names, getTask n ≠ none) (hl : names.length = ids.length)
    (l : List ConfTask) : Safe (readTasks f file strict getTask names ids l) := by
  induction names generalizing ids l with
  | nil => exact safe_pure _
  | cons n names ih =>
    cases ids with
    | nil => simp at hl
    | cons i ids =>
      rw [readTasks]
      cases hn : getTask n with
      | none => exact absurd hn (hk n (by simp))
      | some c => exact safe_bind (safe_readConfig _ _) fun _ => ih (fun m hm => hk m (by simp [hm])) (by simpa using hl) _

theorem safe_readLevels {names ids : List (List String)} (hk : Known getTask names) (hl : names.length = ids.length) :
    Safe (readLevels f file strict getTask names ids) := by
  induction names generalizing ids with
  | nil => exact safe_pure _
  | cons n names ih =>
    cases ids with
    | nil => simp at hl
    | cons i ids =>
      rw [readLevels]
      intro m r
      by_cases h : n.length = i.length
      · rw [bind_ok (assert_true h _)]
        exact safe_bind (safe_readTasks (hk n (by simp)) h []) (fun _ => safe_bind (ih (fun k hk' => hk k (by simp [hk']))
          (by simpa using hl)) fun _ => safe_pure _) m r
      · rw [bind_error (assert_false h _)]
        exact .inr ⟨_, rfl⟩

theorem readTasks_ok {names ids : List String} (hl : names.length = ids.length) {l l' : List ConfTask} {m : Node}
    {r st : List Node} (h : readTasks f file strict getTask names ids l (m :: r) = (.ok l', st)) :
    st = m :: r ∧ ∃ tasks, l' = tasks.foldl pushOnLevel l ∧ ids = tasks.map (fun t => t.id) ∧
      List.Forall₂ (Restored f file strict getTask (m :: r)) names tasks := by
  induction names generalizing ids l with
  | nil =>
    cases h
    have : ids = [] := List.length_eq_zero_iff.1 hl.symm
    exact ⟨rfl, [], rfl, by simp [this], .nil⟩
  | cons n names ih =>
    cases ids with
    | nil => simp at hl
    | cons i ids =>
      rw [readTasks] at h
      cases hn : getTask n with
      | none => rw [hn] at h; cases h
      | some c =>
        rw [hn] at h
        dsimp only at h
        rcases safe_readConfig (f := f) (file := file) (strict := strict) c.defaults i m r with ⟨e, he⟩ | ⟨s, he⟩
        · rw [bind_ok he] at h
          obtain ⟨h1, tasks, h2, h3, h4⟩ := ih (by simpa using hl) h
          refine ⟨h1, ⟨c.type, i, c.simple, e⟩ :: tasks, by rw [List.foldl_cons]; exact h2, by simp [h3], .cons ?_ h4⟩
          exact ⟨c, hn, rfl, rfl, returns_readConfig _ _ _ _ _ he, he⟩
        · rw [bind_error he] at h
          cases h

theorem readLevels_ok {names ids : List (List String)} (hl : names.length = ids.length) {levels : List (List ConfTask)} {m : Node}
    {r st : List Node} (h : readLevels f file strict getTask names ids (m :: r) = (.ok levels, st)) :
    st = m :: r ∧ List.Forall₂ (fun n i => n.length = i.length) names ids ∧
      Describes f file strict getTask (m :: r) names ids levels := by
  induction names generalizing ids levels st with
  | nil =>
    cases h
    have : ids = [] := List.length_eq_zero_iff.1 hl.symm
    subst this
    exact ⟨rfl, .nil, rfl, rfl, by simp⟩
  | cons n names ih =>
    cases ids with
    | nil => simp at hl
    | cons i ids =>
      rw [readLevels] at h
      by_cases hs : n.length = i.length
      · rw [bind_ok (assert_true hs _)] at h
        obtain ⟨a, s, h1, h2⟩ := bind_eq_ok h
        obtain ⟨rfl, tasks, e1, e2, e3⟩ := readTasks_ok hs h1
        obtain ⟨b, s', h3, h4⟩ := bind_eq_ok h2
        obtain ⟨rfl, g1, g2, g3, g4⟩ := ih (by simpa using hl) h3
        cases h4
        refine ⟨rfl, .cons hs g1, by simp [g2], by simp [g3], fun j l k d hj hk hd => ?_⟩
        cases j with
        | zero =>
          simp only [List.getElem?_cons_zero, Option.some.injEq] at hj hk hd
          subst hj hk hd
          refine ⟨tasks, ?_, e2, e3⟩
          rw [e1, show ([] : List ConfTask) = inOrder [] from rfl, foldl_pushOnLevel]; rfl
        | succ j => exact g4 j l k d (by simpa using hj) (by simpa using hk) (by simpa using hd)
      · rw [bind_error (assert_false hs _)] at h
        cases h

theorem readLevels_mismatch {names ids : List (List String)} (hk : Known getTask names) (hl : names.length = ids.length)
    (h : ¬ List.Forall₂ (fun n i => n.length = i.length) names ids) (m : Node) (r : List Node) :
    ∃ st, readLevels f file strict getTask names ids (m :: r) = (.error .thrown, st) := by
  rcases safe_readLevels (f := f) (file := file) (strict := strict) hk hl m r with ⟨a, e⟩ | h'
  · exact absurd (readLevels_ok hl e).2.1 h
  · exact h'

theorem known_of_describes {inside : List Node} {names ids : List (List String)} {levels : List (List ConfTask)}
    (h : Describes f file strict getTask inside names ids levels) : Known getTask names := by
  intro l hl n hn
  obtain ⟨i, hi, rfl⟩ := List.getElem_of_mem hl
  obtain ⟨tasks, _, _, h3⟩ := h.2.2 i _ _ _ (List.getElem?_eq_getElem (h.1 ▸ hi)) (List.getElem?_eq_getElem hi)
    (List.getElem?_eq_getElem (h.2.1 ▸ h.1 ▸ hi))
  have : ∀ {a : List String} {b : List ConfTask}, List.Forall₂ (Restored f file strict getTask inside) a b → ∀ n ∈ a,
      getTask n ≠ none := by
    intro a b hab
    induction hab with
    | nil => simp
    | cons hc _ ih =>
      intro m hm
      rcases List.mem_cons.1 hm with rfl | hm
      · obtain ⟨c, hc, _⟩ := hc
        simp [hc]
      · exact ih m hm
  exact this h3 n hn

/-- What is done after the lists have been read. -/
theorem readEntries_lists {F : Fields} {names ids : List (List String)} (hF : HasLists F names ids) (q : ConfProblem)
    (r : List Node) :
    q.readEntries f file strict getTask (.map F :: r) = (do
      RM.assert (names ≠ [])
      RM.assert (names.length = ids.length)
      let levels ← readLevels f file strict getTask names ids
      pure ⟨levels, names, ids⟩ : RM ConfProblem) (.map F :: r) := by
  rw [ConfProblem.readEntries, bind_ok (readLists_found hF.1), bind_ok (readLists_found hF.2)]
  have e1 := fromStrings_strings names
  have e2 := fromStrings_strings ids
  generalize fromStrings (strings names) = a at e1 ⊢
  generalize fromStrings (strings ids) = b at e2 ⊢
  subst e1 e2
  rfl

end

end Humoto.Config
