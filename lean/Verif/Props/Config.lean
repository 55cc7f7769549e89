import Verif.Lemmas.Config
import Mathlib.Tactic.IntervalCases

/-!
# Properties of configuration files: C46, C47, C48
-/

set_option linter.unusedSimpArgs false

namespace Humoto.Config

open Spec

/-! ## Examples -/

/-- A class with a parent, a vector, a list of names and a member. -/
def exampleDefaults : Entries :=
  .parent (.leaf "gain" (.scalar (.real 1)) .nil)
    (.leaf "names" (.list .str [])
      (.member "foot" (.leaf "size" (.vec true [0, 0]) (.leaf "type" (.enum 0) .nil)) .nil))

/-- An object of this class. -/
def exampleObject : Entries :=
  .parent (.leaf "gain" (.scalar (.real (5 / 2))) .nil)
    (.leaf "names" (.list .str [.str "left", .str "right"])
      (.member "foot" (.leaf "size" (.vec true [1 / 4, -(1 / 8)]) (.leaf "type" (.enum 3) .nil)) .nil))

/-- The same class with a vector of vectors. -/
def exampleNestedLists : Entries :=
  .leaf "hierarchy" (.lists .str [[.str "a", .str "b"], [], [.str "c"]]) exampleObject

/-- All entries except one of the member and one of the parent. -/
def exampleKeep (p : List String) : Prop := p ≠ ["foot", "type"] ∧ p ≠ ["gain"]

instance : DecidablePred exampleKeep := fun p => by unfold exampleKeep; infer_instance

theorem example_class : SameClass exampleDefaults exampleObject := by
  simp [exampleDefaults, exampleObject, SameClass, SameType, Scalar.type]

theorem example_distinct : Distinct exampleObject := by
  simp [exampleObject, Distinct, names]

theorem example_typed : AllValues WellTyped exampleObject := by
  simp [exampleObject, AllValues, WellTyped, Scalar.type]

theorem example_noMatrix : AllValues NoMatrix exampleObject := by
  simp [exampleObject, AllValues, NoMatrix]

theorem example_digits : AllValues (Numbers FifteenDigits) exampleObject := by
  simp only [exampleObject, AllValues, Numbers, scalarNumbers, and_true, true_and]
  refine ⟨⟨25, -1, by norm_num, by norm_num⟩, fun s hs => ?_, fun x hx => ?_⟩
  · simp only [List.mem_cons, List.not_mem_nil, or_false] at hs
    rcases hs with rfl | rfl <;> trivial
  · simp only [List.mem_cons, List.not_mem_nil, or_false] at hx
    rcases hx with rfl | rfl
    · exact ⟨25, -2, by norm_num, by norm_num⟩
    · exact ⟨-125, -3, by norm_num, by norm_num⟩

/-! ## C46 -/

/-- C46: for msgpack, the object which is written is restored, for every class without matrices, whatever other sections are in
the file and whatever the values of the object which is read were; the reader can be used again. -/
theorem C46_msgpack (sections : List (String × Entries)) (hn : (sections.map Prod.fst).Nodup) (name : String) (o d : Entries)
    (h : (name, o) ∈ sections) (hc : SameClass d o) (hd : Distinct o) (hw : AllValues WellTyped o)
    (hm : AllValues NoMatrix o) (strict : Bool) :
    readConfig .msgpack (fileWith .msgpack sections) strict d name (openFile .msgpack (fileWith .msgpack sections))
      = (.ok o, openFile .msgpack (fileWith .msgpack sections)) := by
  obtain ⟨before, after, hb, e⟩ := fileWith_mem .msgpack hn h
  have hmap : mapValues (stored .msgpack) o = o := mapValues_id (allValues_imp (fun v hv => stored_msgpack hv) hm)
  rw [e, readConfig_section hb, read_written (f := .msgpack) hc hw hd, hmap]
  rfl

example : readConfig .msgpack (fileWith .msgpack [("first", exampleDefaults), ("object", exampleNestedLists)]) true
    (.leaf "hierarchy" (.lists .str []) exampleDefaults) "object" [] = (.ok exampleNestedLists, []) := by
  refine C46_msgpack _ (by simp) _ _ _ (by simp) ?_ ?_ ?_ ?_ true
  · exact ⟨rfl, rfl, example_class⟩
  · exact ⟨by simp [exampleObject, names], example_distinct⟩
  · exact ⟨by simp [WellTyped, Scalar.type], example_typed⟩
  · exact ⟨trivial, example_noMatrix⟩

/-- C46: the items which the msgpack writer puts in the file are parsed to the same tree: the announced numbers of entries are
the numbers of the entries that follow. -/
theorem C46_msgpack_stream (name : String) (o : Entries) (rest : List Tok) :
    ∃ N, ∀ fuel, N ≤ fuel → ∃ t, packConfig name o ++ rest = .map 1 :: t ∧
      unpackMap fuel 1 t = some (writeConfig .msgpack .nil name o, rest) := by
  have h := unpacks_entries o (unpacks_zero rest)
  rw [append_nil] at h
  obtain ⟨N, hN⟩ := unpacks_map (name := name) h (unpacks_zero rest)
  exact ⟨N, fun fuel hf => ⟨_, rfl, hN fuel hf⟩⟩

example : unpackMap 10 1 ((packConfig "object" exampleNestedLists).tail)
    = some (writeConfig .msgpack .nil "object" exampleNestedLists, []) := rfl

/-- C46: for YAML, objects with scalars, enumerations, vectors, `std::vector`, vectors of vectors and members are restored exactly
if their numbers have at most 15 significant digits. Missing: other numbers (refuted below). -/
theorem C46_yaml_partial (sections : List (String × Entries)) (hn : (sections.map Prod.fst).Nodup) (name : String)
    (o d : Entries) (h : (name, o) ∈ sections) (hc : SameClass d o) (hd : Distinct o) (hw : AllValues WellTyped o)
    (hm : AllValues NoMatrix o) (h15 : AllValues (Numbers FifteenDigits) o) (strict : Bool) :
    readConfig .yaml (fileWith .yaml sections) strict d name (openFile .yaml (fileWith .yaml sections))
      = (.ok o, openFile .yaml (fileWith .yaml sections)) := by
  obtain ⟨before, after, hb, e⟩ := fileWith_mem .yaml hn h
  have hmap : mapValues (stored .yaml) o = o := mapValues_id (allValues_imp₂ (fun v hv h => stored_exact hv h) hm h15)
  rw [e, readConfig_section hb, read_written (f := .yaml) hc hw hd, hmap]
  rfl

example : readConfig .yaml (fileWith .yaml [("first", exampleDefaults), ("object", exampleObject)]) true
    exampleDefaults "object" (openFile .yaml (fileWith .yaml [("first", exampleDefaults), ("object", exampleObject)]))
      = (.ok exampleObject, openFile .yaml (fileWith .yaml [("first", exampleDefaults), ("object", exampleObject)])) := by
  refine C46_yaml_partial _ (by simp) _ _ _ (by simp) example_class example_distinct example_typed example_noMatrix ?_ true
  simp only [exampleObject, AllValues, Numbers, scalarNumbers, and_true, true_and]
  refine ⟨⟨25, -1, by norm_num, by norm_num⟩, fun s hs => ?_, fun x hx => ?_⟩
  · simp only [List.mem_cons, List.not_mem_nil, or_false] at hs
    rcases hs with rfl | rfl <;> trivial
  · simp only [List.mem_cons, List.not_mem_nil, or_false] at hx
    rcases hx with rfl | rfl
    · exact ⟨25, -2, by norm_num, by norm_num⟩
    · exact ⟨-125, -3, by norm_num, by norm_num⟩

/-- C46: for YAML, all numbers are restored with the relative error of at most 5e-15, everything else is restored exactly. -/
theorem C46_yaml_accuracy (sections : List (String × Entries)) (hn : (sections.map Prod.fst).Nodup) (name : String)
    (o d : Entries) (h : (name, o) ∈ sections) (hc : SameClass d o) (hd : Distinct o) (hw : AllValues WellTyped o)
    (hm : AllValues NoMatrix o) (strict : Bool) :
    ∃ x, readConfig .yaml (fileWith .yaml sections) strict d name (openFile .yaml (fileWith .yaml sections))
        = (.ok x, openFile .yaml (fileWith .yaml sections)) ∧
      ∀ p, match valueAt x p, valueAt o p with
        | some v, some w => CloseVal (5 / 10 ^ 15) v w
        | none, none => True
        | _, _ => False := by
  obtain ⟨before, after, hb, e⟩ := fileWith_mem .yaml hn h
  refine ⟨mapValues (stored .yaml) o, ?_, fun p => ?_⟩
  · rw [e, readConfig_section hb, read_written (f := .yaml) hc hw hd]
    rfl
  · rw [valueAt_mapValues]
    have key : ∀ (o : Entries), AllValues NoMatrix o → ∀ p v, valueAt o p = some v → NoMatrix v := by
      intro o
      induction o with
      | nil => intro _ p v hv; simp [valueAt] at hv
      | leaf n w r ih =>
        intro ha p v hv
        simp only [valueAt] at hv
        split_ifs at hv
        · cases hv; exact ha.1
        · exact ih ha.2 p v hv
      | member n s r ihs ih =>
        intro ha p v hv
        match p with
        | [] => exact ih ha.2 [] v (by simpa [valueAt] using hv)
        | [a] => exact ih ha.2 [a] v (by simpa [valueAt] using hv)
        | a :: b :: q =>
          simp only [valueAt] at hv
          split_ifs at hv
          · exact ihs ha.1 _ v hv
          · exact ih ha.2 _ v hv
      | parent s r ihs ih =>
        intro ha p v hv
        simp only [valueAt, Option.or_eq_some_iff] at hv
        rcases hv with hv | ⟨_, hv⟩
        · exact ihs ha.1 p v hv
        · exact ih ha.2 p v hv
    cases hv : valueAt o p with
    | none => simp
    | some v => simpa using stored_close (key o hm p v hv)

/-- C46 does not hold for YAML: there is a number which is represented exactly in `double` and is not restored. -/
theorem C46_yaml_digits_refuted : ∃ (x : ℚ) (y : Entries) (d : Entries), IsDouble x ∧
    SameClass d (.leaf "gain" (.scalar (.real x)) .nil) ∧
    readConfig .yaml (fileWith .yaml [("object", .leaf "gain" (.scalar (.real x)) .nil)]) true d "object"
      (openFile .yaml (fileWith .yaml [("object", .leaf "gain" (.scalar (.real x)) .nil)]))
        = (.ok y, openFile .yaml (fileWith .yaml [("object", .leaf "gain" (.scalar (.real x)) .nil)])) ∧
    valueAt y ["gain"] ≠ some (.scalar (.real x)) := by
  have hr : round15 (1 + 1 / 2 ^ 52) = 1 := by
    have hl : Int.log 10 |(1 + 1 / 2 ^ 52 : ℚ)| = 0 := by
      rw [abs_of_pos (by norm_num), Int.log_of_one_le_right _ (by norm_num)]
      have : ⌊(1 + 1 / 2 ^ 52 : ℚ)⌋₊ = 1 := by
        rw [Nat.floor_eq_iff (by norm_num)]; norm_num
      rw [this]; rfl
    have hround : round ((1 + 1 / 2 ^ 52 : ℚ) * (10 : ℚ) ^ (14 - 0 : ℤ)) = 10 ^ 14 := by
      rw [round_eq, Int.floor_eq_iff]; norm_num
    rw [round15, if_neg (by norm_num), hl, hround]
    norm_num
  refine ⟨1 + 1 / 2 ^ 52, mapValues (stored .yaml) (.leaf "gain" (.scalar (.real (1 + 1 / 2 ^ 52))) .nil),
    .leaf "gain" (.scalar (.real 0)) .nil, ⟨2 ^ 52 + 1, -52, by norm_num, by norm_num⟩, ⟨rfl, rfl, trivial⟩, ?_, ?_⟩
  · obtain ⟨before, after, hb, e⟩ := fileWith_mem .yaml
      (sections := [("object", .leaf "gain" (.scalar (.real (1 + 1 / 2 ^ 52))) .nil)]) (by simp) (List.mem_singleton.2 rfl)
    rw [e, readConfig_section hb, read_written (f := .yaml) (d := .leaf "gain" (.scalar (.real 0)) .nil)
      (o := .leaf "gain" (.scalar (.real (1 + 1 / 2 ^ 52))) .nil) ⟨rfl, rfl, trivial⟩ ⟨trivial, trivial⟩
      ⟨by simp [names], trivial⟩]
    rfl
  · simp only [mapValues, valueAt, stored, emit, hr, if_true]
    norm_num

/-- A vector of vectors in YAML, as in configuration files of hierarchies. -/
example : readConfig .yaml (fileWith .yaml [("first", exampleDefaults), ("object", exampleNestedLists)]) true
    (.leaf "hierarchy" (.lists .str []) exampleDefaults) "object"
      (openFile .yaml (fileWith .yaml [("first", exampleDefaults), ("object", exampleNestedLists)]))
    = (.ok exampleNestedLists, openFile .yaml (fileWith .yaml [("first", exampleDefaults), ("object", exampleNestedLists)])) := by
  refine C46_yaml_partial _ (by simp) _ _ _ (by simp) ?_ ?_ ?_ ?_ ?_ true
  · exact ⟨rfl, rfl, example_class⟩
  · exact ⟨by simp [exampleObject, names], example_distinct⟩
  · exact ⟨by simp [WellTyped, Scalar.type], example_typed⟩
  · exact ⟨trivial, example_noMatrix⟩
  · exact ⟨by simp [Numbers, scalarNumbers], example_digits⟩

/-! ## C47 -/

/-- C47: what is read in place of a matrix of any size (numbers have at most 15 digits): the sizes are restored, the elements are
taken by rows from the storage, which is filled by columns. -/
theorem C47_effect (f : Format) (rows cols : ℕ) (data : List ℚ) (h : data.length = cols * rows)
    (h15 : ∀ x ∈ data, FifteenDigits x) (d : Val) (hd : SameType d (.mat rows cols data)) (strict : Bool) (file : Fields)
    (hf : file = fileWith f [("object", .leaf "matrix" (.mat rows cols data) .nil)]) :
    ∃ data', readConfig f file strict (.leaf "matrix" d .nil) "object" (openFile f file)
        = (.ok (.leaf "matrix" (.mat rows cols data') .nil), openFile f file) ∧ data'.length = cols * rows ∧
      ∀ i < rows, ∀ j < cols, element rows data' i j = data[i * cols + j]? := by
  have hmap : data.map (emitReal f) = data := by
    cases f with
    | yaml =>
      rw [List.map_congr_left (f := emitReal .yaml) (g := id) fun x hx => round15_exact (h15 x hx), List.map_id]
    | msgpack => exact List.map_id _
  refine ⟨fromRowMajor rows cols data, ?_, fromRowMajor_length _ _ _, fun i hi j hj =>
    fromRowMajor_element hi hj (by rw [h, Nat.mul_comm])⟩
  obtain ⟨before, after, hb, e⟩ := fileWith_mem f
    (sections := [("object", .leaf "matrix" (.mat rows cols data) .nil)]) (by simp) (List.mem_singleton.2 rfl)
  cases d <;> simp only [SameType] at hd
  rename_i r' c' d'
  rw [hf, e, readConfig_section hb, read_written (f := f) (d := .leaf "matrix" (.mat r' c' d') .nil)
    (o := .leaf "matrix" (.mat rows cols data) .nil) ⟨rfl, trivial, trivial⟩ ⟨h, trivial⟩ ⟨by simp [names], trivial⟩]
  simp only [mapValues, stored, hmap]
  rfl

/-- C47: matrices with one row or one column and symmetric matrices are restored. Missing: all other matrices (refuted below). -/
theorem C47_partial (f : Format) (rows cols : ℕ) (data : List ℚ) (h : data.length = cols * rows)
    (h15 : ∀ x ∈ data, FifteenDigits x) (d : Val) (hd : SameType d (.mat rows cols data)) (strict : Bool) (file : Fields)
    (hf : file = fileWith f [("object", .leaf "matrix" (.mat rows cols data) .nil)])
    (hs : rows = 1 ∨ cols = 1 ∨ (rows = cols ∧ ∀ i < rows, ∀ j < cols, element rows data i j = element rows data j i)) :
    readConfig f file strict (.leaf "matrix" d .nil) "object" (openFile f file)
      = (.ok (.leaf "matrix" (.mat rows cols data) .nil), openFile f file) := by
  obtain ⟨data', e, hl, he⟩ := C47_effect f rows cols data h h15 d hd strict file hf
  suffices data' = data by rw [e, this]
  have key : ∀ i < rows, ∀ j < cols, element rows data' i j = element rows data i j := by
    intro i hi j hj
    rw [he i hi j hj]
    rcases hs with rfl | rfl | ⟨rfl, hs⟩
    · have : i = 0 := by omega
      subst this; simp [element]
    · have : j = 0 := by omega
      subst this; simp [element]
    · rw [hs i hi j hj, element]
  refine List.ext_getElem? fun k => ?_
  by_cases hk : k < cols * rows
  · have hr : 0 < rows := by
      rcases Nat.eq_zero_or_pos rows with h0 | h0
      · simp [h0] at hk
      · exact h0
    have := key (k % rows) (Nat.mod_lt _ hr) (k / rows) ((Nat.div_lt_iff_lt_mul hr).2 hk)
    simpa [element, Nat.mul_comm (k / rows), Nat.div_add_mod] using this
  · rw [List.getElem?_eq_none (by omega), List.getElem?_eq_none (by omega)]

example : readConfig .yaml (fileWith .yaml [("object", .leaf "matrix" (.mat 2 2 [1, 5, 5, 3]) .nil)]) true
    (.leaf "matrix" (.mat 0 0 []) .nil) "object"
    (openFile .yaml (fileWith .yaml [("object", .leaf "matrix" (.mat 2 2 [1, 5, 5, 3]) .nil)]))
      = (.ok (.leaf "matrix" (.mat 2 2 [1, 5, 5, 3]) .nil),
          openFile .yaml (fileWith .yaml [("object", .leaf "matrix" (.mat 2 2 [1, 5, 5, 3]) .nil)])) := by
  refine C47_partial .yaml 2 2 [1, 5, 5, 3] rfl ?_ (.mat 0 0 []) trivial true _ rfl (.inr (.inr ⟨rfl, ?_⟩))
  · intro x hx
    simp only [List.mem_cons, List.not_mem_nil, or_false] at hx
    rcases hx with rfl | rfl | rfl | rfl
    · exact ⟨1, 0, by norm_num, by norm_num⟩
    · exact ⟨5, 0, by norm_num, by norm_num⟩
    · exact ⟨5, 0, by norm_num, by norm_num⟩
    · exact ⟨3, 0, by norm_num, by norm_num⟩
  · intro i hi j hj
    interval_cases i <;> interval_cases j <;> rfl

/-- C47 does not hold: a matrix which is written and read back is transposed, with both formats. -/
theorem C47_refuted : ∀ f : Format, ∃ y,
    readConfig f (fileWith f [("object", .leaf "matrix" (.mat 2 2 [1, 3, 2, 4]) .nil)]) true
      (.leaf "matrix" (.mat 0 0 []) .nil) "object"
      (openFile f (fileWith f [("object", .leaf "matrix" (.mat 2 2 [1, 3, 2, 4]) .nil)]))
        = (.ok (.leaf "matrix" (.mat 2 2 y) .nil),
            openFile f (fileWith f [("object", .leaf "matrix" (.mat 2 2 [1, 3, 2, 4]) .nil)])) ∧
    element 2 [1, 3, 2, 4] 0 1 = some 2 ∧ element 2 y 0 1 = some 3 := by
  intro f
  obtain ⟨y, e, _, hy⟩ := C47_effect f 2 2 [1, 3, 2, 4] rfl (by
    intro x hx
    simp only [List.mem_cons, List.not_mem_nil, or_false] at hx
    rcases hx with rfl | rfl | rfl | rfl
    · exact ⟨1, 0, by norm_num, by norm_num⟩
    · exact ⟨3, 0, by norm_num, by norm_num⟩
    · exact ⟨2, 0, by norm_num, by norm_num⟩
    · exact ⟨4, 0, by norm_num, by norm_num⟩) (.mat 0 0 []) trivial true _ rfl
  exact ⟨y, e, rfl, by rw [hy 0 (by norm_num) 1 (by norm_num)]; rfl⟩

/-! ## C48 -/

/-- C48: an object is read with default values from a file where some entries are missing: each entry which is in the file has
the value which is read from the complete file, the others have their default values. Any class: matrices included. -/
theorem C48_relaxed (f : Format) (before after : Fields) (name : String) (hb : name ∉ before.keys) (o d : Entries)
    (hc : SameClass d o) (hd : Distinct o) (hw : AllValues WellTyped o)
    (keep : List String → Prop) [DecidablePred keep] (hk : WholeMatrices keep [] o) (file complete : Fields)
    (hf : file = before.append (.map name (remove keep [] (writeEntries f o)) after))
    (hg : complete = before.append (.map name (writeEntries f o) after)) :
    ∃ x y, readConfig f file false d name (openFile f file) = (.ok x, openFile f file) ∧
      readConfig f complete true d name (openFile f complete) = (.ok y, openFile f complete) ∧ SameClass x o ∧
      ∀ p, (Present keep p → valueAt x p = valueAt y p) ∧ (¬ Present keep p → valueAt x p = valueAt d p) := by
  refine ⟨merge keep f [] d o, mapValues (stored f) o, ?_, ?_, sameClass_merge keep hc [], fun p => ?_⟩
  · rw [hf, readConfig_section hb, read_relaxed keep hc hw hd [] hk _ _ (contains_write keep hd hw [] hk)]
    rfl
  · rw [hg, readConfig_section hb, read_written hc hw hd]
    rfl
  · rw [valueAt_merge keep hc hd [] p]
    have e : (∀ t, t ≠ [] → t <+: p → keep ([] ++ t)) ↔ Present keep p := Iff.rfl
    rw [← e]
    refine ⟨fun h => ?_, fun h => by rw [if_neg h]⟩
    rw [if_pos h, valueAt_mapValues]

/-- C48: in a class without matrices and with numbers of at most 15 digits the value which is read is the
value of the object which has been written. -/
theorem C48_relaxed_values (f : Format) (before after : Fields) (name : String) (hb : name ∉ before.keys) (o d : Entries)
    (hc : SameClass d o) (hd : Distinct o) (hw : AllValues WellTyped o) (hm : AllValues NoMatrix o)
    (h15 : AllValues (Numbers FifteenDigits) o) (keep : List String → Prop) [DecidablePred keep] (file : Fields)
    (hf : file = before.append (.map name (remove keep [] (writeEntries f o)) after)) :
    ∃ x, readConfig f file false d name (openFile f file) = (.ok x, openFile f file) ∧ SameClass x o ∧
      ∀ p, (Present keep p → valueAt x p = valueAt o p) ∧ (¬ Present keep p → valueAt x p = valueAt d p) := by
  obtain ⟨x, y, h1, h2, h3, h4⟩ := C48_relaxed f before after name hb o d hc hd hw
    keep
    (wholeMatrices_of_noMatrix keep hm []) file _ hf rfl
  refine ⟨x, h1, h3, ?_⟩
  rw [readConfig_section hb, read_written hc hw hd, mapValues_id (allValues_imp₂ (fun v hv h =>
    stored_eq f hv h) hm h15)] at h2
  have : o = y := by
    have := congrArg Prod.fst h2
    simpa [ascend] using this
  rw [this]; exact h4

/-- C48: if missing entries are not allowed, an exception is thrown if and only if an entry of the object is missing, and
otherwise the same object is read as from the complete file. Any class: matrices included. -/
theorem C48_strict (f : Format) (before after : Fields) (name : String) (hb : name ∉ before.keys) (o d : Entries)
    (hc : SameClass d o) (hd : Distinct o) (hw : AllValues WellTyped o)
    (keep : List String → Prop) [DecidablePred keep] (hk : WholeMatrices keep [] o) (file complete : Fields)
    (hf : file = before.append (.map name (remove keep [] (writeEntries f o)) after))
    (hg : complete = before.append (.map name (writeEntries f o) after)) :
    ∃ y, readConfig f complete true d name (openFile f complete) = (.ok y, openFile f complete) ∧
    ((∀ p ∈ paths o, keep p) → readConfig f file true d name (openFile f file) = (.ok y, openFile f file)) ∧
    ((∃ p ∈ paths o, ¬ keep p) → (readConfig f file true d name (openFile f file)).1 = .error .thrown) := by
  have ha := allKept_iff keep [] o
  simp only [List.nil_append] at ha
  obtain ⟨h1, h2⟩ := read_strict (file := file) keep hc hw hd [] hk _ (openFile f file) (contains_write keep hd hw [] hk)
  rw [hf] at h1 h2 ⊢
  refine ⟨mapValues (stored f) o, ?_, ?_, ?_⟩
  · rw [hg, readConfig_section hb, read_written hc hw hd]
    rfl
  · intro hp
    rw [readConfig_section hb, h1 (ha.2 hp)]
    rfl
  · rintro ⟨p, hp, hnk⟩
    obtain ⟨st, e⟩ := h2 fun h => hnk (ha.1 h p hp)
    rw [readConfig_section hb, e]

/-- C48: a section which is not in the file. -/
theorem C48_section (f : Format) (file : Fields) (name : String) (hn : name ∉ file.keys) (d : Entries) :
    readConfig f file false d name (openFile f file) = (.ok d, openFile f file) ∧
    readConfig f file true d name (openFile f file) = (.error .thrown, openFile f file) := by
  have hd : descend f file name (openFile f file) = (.ok false, openFile f file) := by
    cases f with
    | yaml => simp [openFile, descend, Node.find, find_none hn]
    | msgpack => simp [openFile, descend, findMap_none hn]
  constructor
  · rw [readConfig, bind_ok hd, if_neg (by simp), missing_relaxed]
  · rw [readConfig, bind_ok hd, if_neg (by simp), missing_strict]

/-- In the example one entry of the member and the entry of the parent are missing. -/
example : ∃ x, readConfig .msgpack (.map "object" (remove exampleKeep [] (writeEntries .msgpack exampleObject)) .nil) false
      exampleDefaults "object" [] = (.ok x, []) ∧
    valueAt x ["foot", "type"] = some (.enum 0) ∧ valueAt x ["foot", "size"] = some (.vec true [1 / 4, -(1 / 8)]) ∧
    valueAt x ["gain"] = some (.scalar (.real 1)) := by
  obtain ⟨x, hx, _, hv⟩ := C48_relaxed_values .msgpack .nil .nil "object" (by simp [Fields.keys]) exampleObject exampleDefaults
    example_class example_distinct example_typed example_noMatrix example_digits exampleKeep _ rfl
  refine ⟨x, hx, ?_, ?_, ?_⟩
  · rw [(hv _).2 fun h => (h ["foot", "type"] (by simp) (List.prefix_refl _)).1 rfl]
    simp [exampleDefaults, valueAt]
  · rw [(hv _).1]
    · simp [exampleObject, valueAt]
    · intro q hq hp
      have : q = ["foot"] ∨ q = ["foot", "size"] := by
        match q, hq, hp with
        | [a], _, hp => simp only [List.cons_prefix_cons] at hp; simp [hp.1]
        | [a, b], _, hp => simp only [List.cons_prefix_cons] at hp; simp [hp.1, hp.2.1]
        | a :: b :: c :: t, _, hp => simp [List.cons_prefix_cons] at hp
      rcases this with rfl | rfl <;> simp [exampleKeep]
  · rw [(hv _).2 fun h => (h ["gain"] (by simp) (List.prefix_refl _)).2 rfl]
    simp [exampleDefaults, valueAt]

/-- A class with a matrix. -/
def exampleMatrix : Entries := .leaf "matrix" (.mat 1 2 [3, 4]) exampleObject

/-- All entries except for the matrix. -/
def exampleKeepMatrix (p : List String) : Prop := p ≠ ["matrix"]

instance : DecidablePred exampleKeepMatrix := fun p => by unfold exampleKeepMatrix; infer_instance

/-- All entries except for one of the member. -/
def exampleKeepMember (p : List String) : Prop := p ≠ ["foot", "type"]

instance : DecidablePred exampleKeepMember := fun p => by unfold exampleKeepMember; infer_instance

example : ∃ x, readConfig .yaml (.map "object" (remove exampleKeepMember [] (writeEntries .yaml exampleMatrix)) .nil) false
      (.leaf "matrix" (.mat 0 0 []) exampleDefaults) "object"
      (openFile .yaml (.map "object" (remove exampleKeepMember [] (writeEntries .yaml exampleMatrix)) .nil))
      = (.ok x, openFile .yaml (.map "object" (remove exampleKeepMember [] (writeEntries .yaml exampleMatrix)) .nil)) ∧
    valueAt x ["foot", "type"] = some (.enum 0) := by
  obtain ⟨x, _, hx, _, _, hv⟩ := C48_relaxed .yaml .nil .nil "object" (by simp [Fields.keys]) exampleMatrix
    (.leaf "matrix" (.mat 0 0 []) exampleDefaults) ⟨rfl, trivial, example_class⟩
    ⟨by simp [exampleObject, names], example_distinct⟩ ⟨rfl, example_typed⟩
    exampleKeepMember
    ⟨fun _ k _ => by simp [exampleKeepMember], wholeMatrices_of_noMatrix _ example_noMatrix []⟩ _ _ rfl rfl
  refine ⟨x, hx, ?_⟩
  rw [(hv _).2 fun h => (h ["foot", "type"] (by simp) (List.prefix_refl _)) rfl]
  simp [exampleDefaults, valueAt]

example : (readConfig .yaml (.map "object" (remove exampleKeepMatrix [] (writeEntries .yaml exampleMatrix)) .nil) true
      (.leaf "matrix" (.mat 0 0 []) exampleDefaults) "object"
      (openFile .yaml (.map "object" (remove exampleKeepMatrix [] (writeEntries .yaml exampleMatrix)) .nil))).1
      = .error .thrown := by
  obtain ⟨_, _, _, h⟩ := C48_strict .yaml .nil .nil "object" (by simp [Fields.keys]) exampleMatrix
    (.leaf "matrix" (.mat 0 0 []) exampleDefaults) ⟨rfl, trivial, example_class⟩
    ⟨by simp [exampleObject, names], example_distinct⟩ ⟨rfl, example_typed⟩
    exampleKeepMatrix
    ⟨fun h => absurd rfl h, wholeMatrices_of_noMatrix _ example_noMatrix []⟩ _ _ rfl rfl
  exact h ⟨["matrix"], by simp [exampleMatrix, paths], by simp [exampleKeepMatrix]⟩

/-! ## C65 -/

/-- C65 does not hold: after an exception due to a missing entry, the same reader does not find sections which are in the
file. -/
theorem C65_refuted : ∀ f : Format, ∃ (file : Fields) (d₁ d₂ : Entries) (st : List Node),
    readConfig f file true d₁ "first" (openFile f file) = (.error .thrown, st) ∧
    readConfig f file true d₂ "second" (openFile f file) = (.ok d₂, openFile f file) ∧
    (readConfig f file true d₂ "second" st).1 = .error .thrown := by
  intro f
  refine ⟨.map "first" .nil (.map "second" .nil .nil), .leaf "gain" (.enum 0) .nil, .nil,
    .map .nil :: openFile f (.map "first" .nil (.map "second" .nil .nil)), ?_, ?_, ?_⟩ <;> cases f <;> rfl

/-- C65: after each successful reading the reader is in the same state as before it, so any number of sections can be read in
any order. Missing: the reader after an exception (refuted above). -/
theorem C65_success_partial (f : Format) (file : Fields) (strict : Bool) (d x : Entries) (name : String) (st st' : List Node)
    (h : readConfig f file strict d name st = (.ok x, st')) : st' = st := by
  refine (show Balanced (readConfig f file strict d name) from ?_) _ _ _ h
  rw [readConfig]
  exact balanced_nested (pops_bind_left (balanced_readEntries _ _ _ _) fun _ => pops_bind_right pops_ascend fun _ =>
    balanced_pure _) (balanced_missing _ _)

end Humoto.Config
