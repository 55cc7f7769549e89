import Verif.Spec.Config
import Mathlib.Tactic.Linarith
import Mathlib.Tactic.Ring
import Mathlib.Tactic.NormNum
import Mathlib.Tactic.FieldSimp
import Mathlib.Tactic.Positivity

set_option linter.unusedSectionVars false
set_option linter.unnecessarySeqFocus false

namespace Humoto.Config

open Spec

/-! ## Readers -/

theorem bind_run {α β : Type} (x : RM α) (g : α → RM β) (st : List Node) :
    (x >>= g) st = match x st with
      | (.ok a, st') => g a st'
      | (.error e, st') => (.error e, st') := rfl

theorem pure_run {α : Type} (a : α) (st : List Node) : (pure a : RM α) st = (.ok a, st) := rfl

theorem bind_ok {α β : Type} {x : RM α} {g : α → RM β} {st st' : List Node} {a : α} (h : x st = (.ok a, st')) :
    (x >>= g) st = g a st' := by rw [bind_run, h]

theorem bind_error {α β : Type} {x : RM α} {g : α → RM β} {st st' : List Node} {e : Fault} (h : x st = (.error e, st')) :
    (x >>= g) st = (.error e, st') := by rw [bind_run, h]

theorem descend_found {f : Format} {file F : Fields} {r : List Node} {name : String} {c : Node}
    (h : F.find name = some c) : descend f file name (.map F :: r) = (.ok true, c :: .map F :: r) := by
  simp [descend, Node.find, h]

theorem descend_missing {f : Format} {file F : Fields} {r : List Node} {name : String}
    (h : F.find name = none) : descend f file name (.map F :: r) = (.ok false, .map F :: r) := by
  simp [descend, Node.find, h]

theorem getCurrentNode_cons (c : Node) (r : List Node) : getCurrentNode (c :: r) = (.ok c, c :: r) := rfl

theorem ascend_cons (c : Node) (r : List Node) : ascend (c :: r) = (.ok (), r) := rfl

theorem convert_same {ty : ScalarType} {s : Scalar} (h : s.type = ty) (st : List Node) :
    convert ty s st = (.ok s, st) := by
  simp [convert, h, pure_run]

theorem convertAll_same {ty : ScalarType} {l : List Scalar} (h : ∀ s ∈ l, s.type = ty) (st : List Node) :
    convertAll ty l st = (.ok l, st) := by
  induction l with
  | nil => rfl
  | cons s l ih =>
    rw [convertAll, bind_ok (convert_same (h s (by simp)) st), bind_ok (ih fun t ht => h t (by simp [ht]))]
    rfl

theorem convertSeqs_same {ty : ScalarType} {l : List (List Scalar)} (h : ∀ k ∈ l, ∀ s ∈ k, s.type = ty) (st : List Node) :
    convertSeqs ty l st = (.ok l, st) := by
  induction l with
  | nil => rfl
  | cons s l ih =>
    rw [convertSeqs, bind_ok (convertAll_same (h s (by simp)) st), bind_ok (ih fun t ht => h t (by simp [ht]))]
    rfl

theorem emit_type (f : Format) (s : Scalar) : (emit f s).type = s.type := by
  cases f <;> cases s <;> rfl

theorem emit_int (f : Format) (i : ℤ) : emit f (.int i) = .int i := by cases f <;> rfl

theorem emit_msgpack (s : Scalar) : emit .msgpack s = s := by cases s <;> rfl

/-- The number in the file. -/
def emitReal : Format → ℚ → ℚ
  | .yaml, x => round15 x
  | .msgpack, x => x

theorem emit_real (f : Format) (x : ℚ) : emit f (.real x) = .real (emitReal f x) := by cases f <;> rfl

theorem reals_map (l : List ℚ) : reals (l.map .real) = l := by
  induction l with
  | nil => rfl
  | cons x l ih => simp [reals]

/-- Value which is obtained from the file. -/
def stored (f : Format) : Val → Val
  | .scalar s => .scalar (emit f s)
  | .enum i => .enum i
  | .vec fixed l => .vec fixed (l.map (emitReal f))
  | .list ty l => .list ty (l.map (emit f))
  | .lists ty l => .lists ty (l.map fun k => k.map (emit f))
  | .mat rows cols data => .mat rows cols (fromRowMajor rows cols (data.map (emitReal f)))

/-- Entries with other values. -/
def mapValues (g : Val → Val) : Entries → Entries
  | .nil => .nil
  | .leaf n v r => .leaf n (g v) (mapValues g r)
  | .member n s r => .member n (mapValues g s) (mapValues g r)
  | .parent s r => .parent (mapValues g s) (mapValues g r)

/-- The map of a matrix. -/
def matrixFields (f : Format) (rows cols : ℕ) (data : List ℚ) : Fields :=
  .leaf "cols" (.scalar (.int cols)) (.leaf "rows" (.scalar (.int rows))
    (.leaf "data" (.seq ((data.map (emitReal f)).map .real)) .nil))

/-- What is written for a value. -/
def nodeOf (f : Format) : Val → Node
  | .scalar s => .leaf (.scalar (emit f s))
  | .enum i => .leaf (.scalar (.int i))
  | .vec _ l => .leaf (.seq (l.map fun x => emit f (.real x)))
  | .list _ l => .leaf (.seq (l.map (emit f)))
  | .lists _ l => .leaf (seqsLeaf (l.map fun k => k.map (emit f)))
  | .mat rows cols data => .map (matrixFields f rows cols data)

/-- A key and a value in front of a map. -/
def consNode (name : String) (n : Node) (rest : Fields) : Fields :=
  match n with
  | .leaf l => .leaf name l rest
  | .map s => .map name s rest

theorem find_consNode (name m : String) (n : Node) (rest : Fields) :
    (consNode name n rest).find m = if m = name then some n else rest.find m := by
  cases n <;> simp [consNode, Fields.find]

theorem currentScalar_run {ty : ScalarType} {s : Scalar} (h : s.type = ty) (r : List Node) :
    currentScalar ty (.leaf (.scalar s) :: r) = (.ok s, .leaf (.scalar s) :: r) := by
  rw [currentScalar]
  rw [bind_ok (getCurrentNode_cons _ _)]
  exact convert_same h _

theorem currentSeq_run {ty : ScalarType} {l : List Scalar} (h : ∀ s ∈ l, s.type = ty) (r : List Node) :
    currentSeq ty (.leaf (.seq l) :: r) = (.ok l, .leaf (.seq l) :: r) := by
  rw [currentSeq]
  rw [bind_ok (getCurrentNode_cons _ _)]
  exact convertAll_same h _

theorem currentSeqs_run {ty : ScalarType} {l : List (List Scalar)} (h : ∀ k ∈ l, ∀ s ∈ k, s.type = ty) (r : List Node) :
    currentSeqs ty (.leaf (seqsLeaf l) :: r) = (.ok l, .leaf (seqsLeaf l) :: r) := by
  rw [currentSeqs]
  rw [bind_ok (getCurrentNode_cons _ _)]
  cases l with
  | nil => rfl
  | cons k l => exact convertSeqs_same h _

/-! ## Matrices -/

theorem range_flatMap_getD (rows cols : ℕ) (g : ℕ → ℕ → ℚ) {k : ℕ} (hk : k < cols * rows) :
    ((List.range cols).flatMap fun i => (List.range rows).map fun j => g i j)[k]? = some (g (k / rows) (k % rows)) := by
  induction cols generalizing k with
  | zero => simp at hk
  | succ n ih =>
    have hlen : ((List.range n).flatMap fun i => (List.range rows).map fun j => g i j).length = n * rows := by
      simp [List.length_flatMap]
    rw [List.range_succ, List.flatMap_append]
    by_cases h : k < n * rows
    · rw [List.getElem?_append_left (by rw [hlen]; exact h)]
      exact ih h
    · rw [List.getElem?_append_right (by rw [hlen]; omega), hlen]
      have hr : 0 < rows := by
        rcases Nat.eq_zero_or_pos rows with h0 | h0
        · simp [h0] at hk
        · exact h0
      obtain ⟨m, rfl⟩ := Nat.exists_eq_add_of_le (not_lt.1 h)
      have hm : m < rows := by rw [Nat.succ_mul] at hk; omega
      have e1 : (n * rows + m) / rows = n := by
        rw [Nat.add_comm, Nat.add_mul_div_right _ _ hr, Nat.div_eq_of_lt hm, Nat.zero_add]
      have e2 : (n * rows + m) % rows = m := by
        rw [Nat.add_comm, Nat.add_mul_mod_self_right, Nat.mod_eq_of_lt hm]
      rw [e1, e2, Nat.add_sub_cancel_left]
      simp [hm]

theorem length_flatMap_range (rows cols : ℕ) (g : ℕ → ℕ → ℚ) :
    ((List.range cols).flatMap fun i => (List.range rows).map fun j => g i j).length = cols * rows := by
  simp [List.length_flatMap]

theorem columnMajor_eq {rows cols : ℕ} {data : List ℚ} (h : data.length = cols * rows) :
    columnMajor rows cols data = data := by
  refine List.ext_getElem? fun k => ?_
  by_cases hk : k < cols * rows
  · rw [columnMajor, range_flatMap_getD rows cols (fun i j => data.getD (i * rows + j) 0) hk]
    rw [Nat.mul_comm (k / rows), Nat.div_add_mod, List.getD_eq_getElem?_getD, List.getElem?_eq_getElem (by omega)]
    rfl
  · rw [List.getElem?_eq_none (by rw [columnMajor, length_flatMap_range]; omega), List.getElem?_eq_none (by omega)]

theorem fromRowMajor_length (rows cols : ℕ) (v : List ℚ) : (fromRowMajor rows cols v).length = cols * rows := by
  rw [fromRowMajor, length_flatMap_range]

theorem fromRowMajor_element {rows cols : ℕ} {v : List ℚ} {i j : ℕ} (hi : i < rows) (hj : j < cols)
    (h : v.length = rows * cols) : element rows (fromRowMajor rows cols v) i j = v[i * cols + j]? := by
  have hk : j * rows + i < cols * rows := by
    calc j * rows + i < j * rows + rows := by omega
      _ = (j + 1) * rows := by ring
      _ ≤ cols * rows := Nat.mul_le_mul_right _ hj
  have hk' : i * cols + j < rows * cols := by
    calc i * cols + j < i * cols + cols := by omega
      _ = (i + 1) * cols := by ring
      _ ≤ rows * cols := Nat.mul_le_mul_right _ hi
  have e1 : (j * rows + i) / rows = j := by
    rw [Nat.add_comm, Nat.add_mul_div_right _ _ (by omega), Nat.div_eq_of_lt hi, Nat.zero_add]
  have e2 : (j * rows + i) % rows = i := by
    rw [Nat.add_comm, Nat.add_mul_mod_self_right, Nat.mod_eq_of_lt hi]
  rw [element, fromRowMajor, range_flatMap_getD rows cols (fun j i => v.getD (i * cols + j) 0) hk, e1, e2,
    List.getD_eq_getElem?_getD, List.getElem?_eq_getElem (by omega)]
  rfl

theorem readEnum_found {f : Format} {file F : Fields} {strict : Bool} {d i : ℤ} {name : String} {r : List Node}
    (h : F.find name = some (.leaf (.scalar (.int i)))) :
    readEnum f file strict d name (.map F :: r) = (.ok i, .map F :: r) := by
  rw [readEnum, bind_ok (descend_found h), if_pos rfl, bind_ok (currentScalar_run (ty := .int) rfl _), bind_ok (ascend_cons _ _)]
  rfl

theorem readVector_found {f : Format} {file F : Fields} {strict : Bool} {d l : List ℚ} {name : String} {r : List Node}
    (h : F.find name = some (.leaf (.seq (l.map .real)))) :
    readVector f file strict false d name (.map F :: r) = (.ok l, .map F :: r) := by
  have ha : RM.assert (false = true → (l.map Scalar.real).length = d.length) (.leaf (.seq (l.map .real)) :: .map F :: r)
      = (.ok (), .leaf (.seq (l.map .real)) :: .map F :: r) := by
    rw [RM.assert, if_pos (by simp)]
    rfl
  rw [readVector, bind_ok (descend_found h), if_pos rfl, bind_ok (currentSeq_run (ty := .real) (by simp [Scalar.type]) _),
    bind_ok ha, bind_ok (ascend_cons _ _), reals_map]
  rfl

theorem writeVal_eq {f : Format} {v : Val} (hw : WellTyped v) (name : String) (rest : Fields) :
    writeVal f name v rest = consNode name (nodeOf f v) rest := by
  cases v with
  | mat rows cols data =>
    cases f <;> simp [writeVal, columnMajor_eq (show data.length = cols * rows from hw), emit_real, Function.comp_def, consNode,
      nodeOf, matrixFields]
  | _ => cases f <;> rfl

/-- What is read in place of a matrix. -/
theorem readMatrix_found {f : Format} {file F : Fields} {strict : Bool} {rows cols : ℕ} {data : List ℚ}
    (h : data.length = cols * rows) {name : String} {d : ℕ × ℕ × List ℚ} {r : List Node}
    (hf : F.find name = some (.map (matrixFields f rows cols data))) :
    readMatrix f file strict d name (.map F :: r)
      = (.ok (rows, cols, fromRowMajor rows cols (data.map (emitReal f))), .map F :: r) := by
  set G := matrixFields f rows cols data with hG
  have h1 : G.find "rows" = some (.leaf (.scalar (.int rows))) := by simp [hG, matrixFields, Fields.find]
  have h2 : G.find "cols" = some (.leaf (.scalar (.int cols))) := by simp [hG, matrixFields, Fields.find]
  have h3 : G.find "data" = some (.leaf (.seq ((data.map (emitReal f)).map .real))) := by
    simp [hG, matrixFields, Fields.find]
  have ha : RM.assert (0 ≤ (rows : ℤ) ∧ 0 ≤ (cols : ℤ) ∧ ((data.map (emitReal f)).length : ℤ) = rows * cols)
      (.map G :: .map F :: r) = (.ok (), .map G :: .map F :: r) := by
    rw [RM.assert, if_pos ⟨by omega, by omega, by rw [List.length_map, h]; push_cast; ring⟩]
    rfl
  rw [readMatrix, bind_ok (descend_found hf), if_pos rfl, bind_ok (readEnum_found h1), bind_ok (readEnum_found h2),
    bind_ok (readVector_found h3), bind_ok ha, bind_ok (ascend_cons _ _)]
  rfl

theorem readVal_found {f : Format} {file F : Fields} {strict : Bool} {d v : Val} {name : String} {r : List Node}
    (ht : SameType d v) (hw : WellTyped v) (hf : F.find name = some (nodeOf f v)) :
    readVal f file strict d name (.map F :: r) = (.ok (stored f v), .map F :: r) := by
  have hd := descend_found (f := f) (file := file) (r := r) hf
  cases d <;> cases v <;> simp only [SameType] at ht
  · rename_i a b
    rw [readVal, readScalar]
    refine bind_ok ?_
    rw [nodeOf] at hd
    rw [bind_ok hd, if_pos rfl, bind_ok (currentScalar_run (by rw [emit_type, ht]) _), bind_ok (ascend_cons _ _)]
    rfl
  · rename_i a b
    rw [readVal, readEnum]
    refine bind_ok ?_
    rw [nodeOf] at hd
    rw [bind_ok hd, if_pos rfl, bind_ok (currentScalar_run (ty := .int) rfl _), bind_ok (ascend_cons _ _)]
    rfl
  · rename_i fa a fb b
    obtain ⟨rfl, hl⟩ := ht
    rw [readVal, readVector]
    refine bind_ok ?_
    have e : nodeOf f (.vec fa b) = .leaf (.seq ((b.map (emitReal f)).map .real)) := by simp [nodeOf, emit_real]
    rw [e] at hd
    rw [bind_ok hd, if_pos rfl, bind_ok (currentSeq_run (by simp [Scalar.type]) _)]
    have ha : RM.assert (fa = true → ((b.map (emitReal f)).map Scalar.real).length = a.length)
        (.leaf (.seq ((b.map (emitReal f)).map .real)) :: .map F :: r)
        = (.ok (), .leaf (.seq ((b.map (emitReal f)).map .real)) :: .map F :: r) := by
      rw [RM.assert, if_pos (fun h => by simp [hl h])]
      rfl
    rw [bind_ok ha, bind_ok (ascend_cons _ _), reals_map]
    rfl
  · rename_i ta a tb b
    subst ht
    rw [readVal, readList]
    refine bind_ok ?_
    rw [nodeOf] at hd
    rw [bind_ok hd, if_pos rfl, bind_ok (currentSeq_run ?_ _), bind_ok (ascend_cons _ _)]
    · rfl
    · intro s hs
      obtain ⟨s', h', rfl⟩ := List.mem_map.1 hs
      rw [emit_type]; exact hw s' h'
  · rename_i ta a tb b
    subst ht
    rw [readVal, readLists]
    refine bind_ok ?_
    rw [nodeOf] at hd
    rw [bind_ok hd, if_pos rfl, bind_ok (currentSeqs_run ?_ _), bind_ok (ascend_cons _ _)]
    · rfl
    · intro k hk s hs
      obtain ⟨k', h', rfl⟩ := List.mem_map.1 hk
      obtain ⟨s', h'', rfl⟩ := List.mem_map.1 hs
      rw [emit_type]; exact hw k' h' s' h''
  · rename_i r1 c1 d1 r2 c2 d2
    rw [readVal]
    exact (bind_ok (readMatrix_found hw hf)).trans rfl

theorem missing_relaxed {α : Type} (d : α) (st : List Node) : missing false d st = (.ok d, st) := rfl

theorem missing_strict {α : Type} (d : α) (st : List Node) : missing true d st = (.error .thrown, st) := rfl

theorem readVal_missing {f : Format} {file F : Fields} {d : Val} {name : String} {r : List Node}
    (hf : F.find name = none) :
    readVal f file false d name (.map F :: r) = (.ok d, .map F :: r) := by
  have hd := descend_missing (f := f) (file := file) (r := r) hf
  cases d <;> simp only [readVal, readScalar, readEnum, readVector, readList, readLists, readMatrix] <;>
    refine (bind_ok (by rw [bind_ok hd, if_neg (by simp), missing_relaxed])).trans rfl

theorem readVal_missing_strict {f : Format} {file F : Fields} {d : Val} {name : String} {r : List Node}
    (hf : F.find name = none) :
    readVal f file true d name (.map F :: r) = (.error .thrown, .map F :: r) := by
  have hd := descend_missing (f := f) (file := file) (r := r) hf
  cases d <;> simp only [readVal, readScalar, readEnum, readVector, readList, readLists, readMatrix] <;>
    exact bind_error (by rw [bind_ok hd, if_neg (by simp), missing_strict])

/-! ## Documents -/

/-- The name is a key of the map. -/
def Fields.keys : Fields → List String
  | .nil => []
  | .leaf n _ r => n :: r.keys
  | .map n _ r => n :: r.keys

theorem keys_append (a b : Fields) : (a.append b).keys = a.keys ++ b.keys := by
  induction a with
  | nil => rfl
  | leaf n v r ih => simp [Fields.append, Fields.keys, ih]
  | map n s r _ ih => simp [Fields.append, Fields.keys, ih]

theorem find_append_left {a : Fields} {name : String} (h : name ∈ a.keys) (b : Fields) :
    (a.append b).find name = a.find name := by
  induction a with
  | nil => simp [Fields.keys] at h
  | leaf n v r ih =>
    simp only [Fields.append, Fields.find]
    split_ifs with hn
    · rfl
    · exact ih (by simpa [Fields.keys, hn] using h)
  | map n s r _ ih =>
    simp only [Fields.append, Fields.find]
    split_ifs with hn
    · rfl
    · exact ih (by simpa [Fields.keys, hn] using h)

theorem find_append_right {a : Fields} {name : String} (h : name ∉ a.keys) (b : Fields) :
    (a.append b).find name = b.find name := by
  induction a with
  | nil => rfl
  | leaf n v r ih =>
    simp only [Fields.keys, List.mem_cons, not_or] at h
    simp only [Fields.append, Fields.find, if_neg h.1]
    exact ih h.2
  | map n s r _ ih =>
    simp only [Fields.keys, List.mem_cons, not_or] at h
    simp only [Fields.append, Fields.find, if_neg h.1]
    exact ih h.2

theorem findMap_append_right {a : Fields} {name : String} (h : name ∉ a.keys) (b : Fields) :
    (a.append b).findMap name = b.findMap name := by
  induction a with
  | nil => rfl
  | leaf n v r ih =>
    simp only [Fields.keys, List.mem_cons, not_or] at h
    simp only [Fields.append, Fields.findMap]
    exact ih h.2
  | map n s r _ ih =>
    simp only [Fields.keys, List.mem_cons, not_or] at h
    simp only [Fields.append, Fields.findMap, if_neg h.1]
    exact ih h.2

theorem find_none {a : Fields} {name : String} (h : name ∉ a.keys) : a.find name = none := by
  induction a with
  | nil => rfl
  | leaf n v r ih =>
    simp only [Fields.keys, List.mem_cons, not_or] at h
    simp only [Fields.find, if_neg h.1]
    exact ih h.2
  | map n s r _ ih =>
    simp only [Fields.keys, List.mem_cons, not_or] at h
    simp only [Fields.find, if_neg h.1]
    exact ih h.2

theorem findMap_none {a : Fields} {name : String} (h : name ∉ a.keys) : a.findMap name = none := by
  induction a with
  | nil => rfl
  | leaf n v r ih =>
    simp only [Fields.keys, List.mem_cons, not_or] at h
    simp only [Fields.findMap]
    exact ih h.2
  | map n s r _ ih =>
    simp only [Fields.keys, List.mem_cons, not_or] at h
    simp only [Fields.findMap, if_neg h.1]
    exact ih h.2

theorem append_assoc (a b c : Fields) : (a.append b).append c = a.append (b.append c) := by
  induction a with
  | nil => rfl
  | leaf n v r ih => simp [Fields.append, ih]
  | map n s r _ ih => simp [Fields.append, ih]

theorem append_nil (a : Fields) : a.append .nil = a := by
  induction a with
  | nil => rfl
  | leaf n v r ih => simp [Fields.append, ih]
  | map n s r _ ih => simp [Fields.append, ih]

variable (keep : List String → Prop) [DecidablePred keep]

theorem remove_append (path : List String) (a b : Fields) :
    remove keep path (a.append b) = (remove keep path a).append (remove keep path b) := by
  induction a with
  | nil => rfl
  | leaf n v r ih => simp only [Fields.append, remove, ih]; split_ifs <;> rfl
  | map n s r _ ih => simp only [Fields.append, remove, ih]; split_ifs <;> rfl

theorem keys_remove (path : List String) (a : Fields) {n : String} (h : n ∈ (remove keep path a).keys) : n ∈ a.keys := by
  induction a with
  | nil => simpa [remove] using h
  | leaf m v r ih =>
    simp only [remove] at h
    simp only [Fields.keys, List.mem_cons]
    split_ifs at h
    · rcases List.mem_cons.1 h with h | h
      · exact .inl h
      · exact .inr (ih h)
    · exact .inr (ih h)
  | map m s r _ ih =>
    simp only [remove] at h
    simp only [Fields.keys, List.mem_cons]
    split_ifs at h
    · rcases List.mem_cons.1 h with h | h
      · exact .inl h
      · exact .inr (ih h)
    · exact .inr (ih h)

theorem keys_write {f : Format} {o : Entries} : (writeEntries f o).keys = names o := by
  induction o with
  | nil => rfl
  | leaf n v r ih => cases v <;> cases f <;> simp [writeEntries, writeVal, Fields.keys, names, ih]
  | member n s r _ ih => simp [writeEntries, Fields.keys, names, ih]
  | parent s r ihs ihr => simp [writeEntries, keys_append, names, ihs, ihr]

/-- The map contains what remains of the object. -/
def Contains (f : Format) (path : List String) (F : Fields) : Entries → Prop
  | .nil => True
  | .leaf n v r => (F.find n = if keep (path ++ [n]) then some (nodeOf f v) else none) ∧ Contains f path F r
  | .member n s r =>
    (F.find n = if keep (path ++ [n]) then some (.map (remove keep (path ++ [n]) (writeEntries f s))) else none)
      ∧ Contains f path F r
  | .parent s r => Contains f path F s ∧ Contains f path F r

theorem contains_congr {f : Format} {path : List String} {F G : Fields} {o : Entries}
    (h : ∀ n ∈ names o, F.find n = G.find n) (hc : Contains keep f path G o) : Contains keep f path F o := by
  induction o with
  | nil => trivial
  | leaf n v r ih =>
    exact ⟨(h n (by simp [names])).trans hc.1, ih (fun m hm => h m (by simp [names, hm])) hc.2⟩
  | member n s r _ ih =>
    exact ⟨(h n (by simp [names])).trans hc.1, ih (fun m hm => h m (by simp [names, hm])) hc.2⟩
  | parent s r ihs ihr =>
    exact ⟨ihs (fun m hm => h m (by simp [names, hm])) hc.1, ihr (fun m hm => h m (by simp [names, hm])) hc.2⟩

theorem contains_cons {f : Format} {path : List String} {o : Entries} {n : String} (hn : n ∉ names o) {F G : Fields}
    (hF : ∀ m, m ≠ n → F.find m = G.find m) (hc : Contains keep f path G o) : Contains keep f path F o :=
  contains_congr keep (fun m hm => hF m fun e => hn (e ▸ hm)) hc

/-- Nothing is removed from a value. -/
theorem remove_value {f : Format} {n : String} {v : Val} {r : Entries} {path : List String}
    (hm : WholeMatrices keep path (.leaf n v r)) (rest : Fields) :
    remove keep path (consNode n (nodeOf f v) rest)
      = if keep (path ++ [n]) then consNode n (nodeOf f v) (remove keep path rest) else remove keep path rest := by
  cases v with
  | mat rows cols data =>
    simp only [nodeOf, consNode, remove]
    split_ifs with hk
    · have hk' := hm.1 hk
      have h1 := hk' "cols" (by simp)
      have h2 := hk' "rows" (by simp)
      have h3 := hk' "data" (by simp)
      simp only [List.append_assoc, List.cons_append, List.nil_append] at h1 h2 h3
      simp [matrixFields, remove, h1, h2, h3]
    · rfl
  | _ => rfl

theorem contains_write {f : Format} {o : Entries} (hd : Distinct o)
    (hw : AllValues WellTyped o) (path : List String) (hm : WholeMatrices keep path o) :
    Contains keep f path (remove keep path (writeEntries f o)) o := by
  induction o with
  | nil => trivial
  | leaf n v r ih =>
    obtain ⟨hn, hd⟩ := hd
    have h := ih hd hw.2 hm.2
    rw [writeEntries, writeVal_eq hw.1, remove_value keep hm]
    split_ifs with hk
    · refine ⟨by simp [find_consNode, hk], ?_⟩
      exact contains_cons keep hn (fun m hm => by simp [find_consNode, hm]) h
    · refine ⟨?_, h⟩
      rw [if_neg hk]
      exact find_none fun h' => hn (by simpa [keys_write] using keys_remove keep path _ h')
  | member n s r _ ih =>
    obtain ⟨hn, hds, hd⟩ := hd
    have h := ih hd hw.2 hm.2
    rw [writeEntries]
    simp only [remove]
    split_ifs with hk
    · refine ⟨by simp [Fields.find, hk], ?_⟩
      exact contains_cons keep hn (fun m hm => by simp [Fields.find, hm]) h
    · refine ⟨?_, h⟩
      rw [if_neg hk]
      exact find_none fun h' => hn (by simpa [keys_write] using keys_remove keep path _ h')
  | parent s r ihs ihr =>
    obtain ⟨hn, hds, hdr⟩ := hd
    rw [writeEntries, remove_append]
    constructor
    · refine contains_congr keep (fun m hm => ?_) (ihs hds hw.1 hm.1)
      by_cases hk : m ∈ (remove keep path (writeEntries f s)).keys
      · exact find_append_left hk _
      · rw [find_append_right hk, find_none hk]
        exact find_none fun h' => hn m hm (by simpa [keys_write] using keys_remove keep path _ h')
    · refine contains_congr keep (fun m hm => ?_) (ihr hdr hw.2 hm.2)
      refine find_append_right (fun h' => ?_) _
      have : m ∈ names s := by simpa [keys_write] using keys_remove keep path _ h'
      exact hn m this hm

/-! ## What is read -/

/-- Values of the file where they are present, default values elsewhere. -/
def merge (f : Format) : List String → Entries → Entries → Entries
  | path, .leaf n d r, .leaf _ v r' =>
    .leaf n (if keep (path ++ [n]) then stored f v else d) (merge f path r r')
  | path, .member n s r, .member _ s' r' =>
    .member n (if keep (path ++ [n]) then merge f (path ++ [n]) s s' else s) (merge f path r r')
  | path, .parent s r, .parent s' r' => .parent (merge f path s s') (merge f path r r')
  | _, d, _ => d

theorem read_relaxed {f : Format} {file : Fields} {d o : Entries} (hc : SameClass d o) (hw : AllValues WellTyped o)
    (hd : Distinct o) (path : List String) (hm : WholeMatrices keep path o) (F : Fields)
    (r : List Node) (hF : Contains keep f path F o) :
    readEntries f file false d (.map F :: r) = (.ok (merge keep f path d o), .map F :: r) := by
  induction d generalizing o path F r with
  | nil => cases o <;> simp_all [SameClass, merge] <;> rfl
  | leaf n v rest ih =>
    cases o <;> simp only [SameClass] at hc
    rename_i n' v' rest'
    obtain ⟨rfl, ht, hc⟩ := hc
    rw [readEntries]
    have h1 : readVal f file false v n (.map F :: r)
        = (.ok (if keep (path ++ [n]) then stored f v' else v), .map F :: r) := by
      have h := hF.1
      split_ifs at h ⊢ with hk
      · exact readVal_found ht hw.1 h
      · exact readVal_missing h
    rw [bind_ok h1, bind_ok (ih hc hw.2 hd.2 path hm.2 F r hF.2)]
    rfl
  | member n s rest ihs ih =>
    cases o <;> simp only [SameClass] at hc
    rename_i n' s' rest'
    obtain ⟨rfl, hcs, hc⟩ := hc
    rw [readEntries]
    have h := hF.1
    split_ifs at h with hk
    · have h1 := ihs hcs hw.1 hd.2.1 (path ++ [n]) hm.1 _ (.map F :: r)
        (contains_write keep hd.2.1 hw.1 (path ++ [n]) hm.1)
      rw [bind_ok (a := merge keep f (path ++ [n]) s s') (st' := .map F :: r)]
      · rw [bind_ok (ih hc hw.2 hd.2.2 path hm.2 F r hF.2)]
        simp [merge, hk, pure_run]
      · rw [bind_ok (descend_found h), if_pos rfl, bind_ok h1, bind_ok (ascend_cons _ _)]
        rfl
    · rw [bind_ok (a := s) (st' := .map F :: r)]
      · rw [bind_ok (ih hc hw.2 hd.2.2 path hm.2 F r hF.2)]
        simp [merge, hk, pure_run]
      · rw [bind_ok (descend_missing h), if_neg (by simp), missing_relaxed]
  | parent s rest ihs ih =>
    cases o <;> simp only [SameClass] at hc
    rename_i s' rest'
    rw [readEntries, bind_ok (ihs hc.1 hw.1 hd.2.1 path hm.1 F r hF.1), bind_ok (ih hc.2 hw.2 hd.2.2 path hm.2 F r hF.2)]
    rfl

/-- Nothing is removed from the object. -/
def AllKept : List String → Entries → Prop
  | _, .nil => True
  | path, .leaf n _ r => keep (path ++ [n]) ∧ AllKept path r
  | path, .member n s r => keep (path ++ [n]) ∧ AllKept (path ++ [n]) s ∧ AllKept path r
  | path, .parent s r => AllKept path s ∧ AllKept path r

theorem allKept_iff (path : List String) (o : Entries) : AllKept keep path o ↔ ∀ p ∈ paths o, keep (path ++ p) := by
  induction o generalizing path with
  | nil => simp [AllKept, paths]
  | leaf n v r ih => simp [AllKept, paths, ih]
  | member n s r ihs ihr =>
    simp only [AllKept, paths, ihs, ihr, List.cons_append, List.mem_cons, List.mem_append, List.mem_map]
    constructor
    · rintro ⟨h1, h2, h3⟩ p (rfl | ⟨q, hq, rfl⟩ | hp)
      · exact h1
      · simpa using h2 q hq
      · exact h3 p hp
    · intro h
      exact ⟨h [n] (.inl rfl), fun q hq => by simpa using h (n :: q) (.inr (.inl ⟨q, hq, rfl⟩)), fun p hp => h p (.inr (.inr hp))⟩
  | parent s r ihs ihr =>
    simp only [AllKept, paths, ihs, ihr, List.mem_append]
    exact ⟨fun h p hp => hp.elim (h.1 p) (h.2 p), fun h => ⟨fun p hp => h p (.inl hp), fun p hp => h p (.inr hp)⟩⟩

theorem merge_allKept {f : Format} {d o : Entries} (hc : SameClass d o) (path : List String) (h : AllKept keep path o) :
    merge keep f path d o = mapValues (stored f) o := by
  induction d generalizing o path with
  | nil => cases o <;> simp_all [SameClass, merge, mapValues]
  | leaf n v r ih =>
    cases o <;> simp only [SameClass] at hc
    obtain ⟨rfl, _, hc⟩ := hc
    simp [merge, mapValues, h.1, ih hc path h.2]
  | member n s r ihs ih =>
    cases o <;> simp only [SameClass] at hc
    obtain ⟨rfl, hcs, hc⟩ := hc
    simp [merge, mapValues, h.1, ihs hcs _ h.2.1, ih hc path h.2.2]
  | parent s r ihs ih =>
    cases o <;> simp only [SameClass] at hc
    simp [merge, mapValues, ihs hc.1 path h.1, ih hc.2 path h.2]

theorem read_strict {f : Format} {file : Fields} {d o : Entries} (hc : SameClass d o) (hw : AllValues WellTyped o)
    (hd : Distinct o) (path : List String) (hm : WholeMatrices keep path o) (F : Fields)
    (r : List Node) (hF : Contains keep f path F o) :
    (AllKept keep path o → readEntries f file true d (.map F :: r) = (.ok (mapValues (stored f) o), .map F :: r)) ∧
    (¬ AllKept keep path o → ∃ st, readEntries f file true d (.map F :: r) = (.error .thrown, st)) := by
  induction d generalizing o path F r with
  | nil =>
    cases o <;> simp only [SameClass] at hc
    exact ⟨fun _ => rfl, fun h => (h trivial).elim⟩
  | leaf n v rest ih =>
    cases o <;> simp only [SameClass] at hc
    rename_i n' v' rest'
    obtain ⟨rfl, ht, hc⟩ := hc
    obtain ⟨i1, i2⟩ := ih hc hw.2 hd.2 path hm.2 F r hF.2
    have h := hF.1
    rw [readEntries]
    by_cases hk : keep (path ++ [n])
    · rw [if_pos hk] at h
      rw [bind_ok (readVal_found ht hw.1 h)]
      refine ⟨fun ha => ?_, fun ha => ?_⟩
      · rw [bind_ok (i1 ha.2)]; rfl
      · obtain ⟨st, e⟩ := i2 fun h' => ha ⟨hk, h'⟩
        exact ⟨st, bind_error e⟩
    · rw [if_neg hk] at h
      exact ⟨fun ha => (hk ha.1).elim, fun _ => ⟨_, bind_error (readVal_missing_strict h)⟩⟩
  | member n s rest ihs ih =>
    cases o <;> simp only [SameClass] at hc
    rename_i n' s' rest'
    obtain ⟨rfl, hcs, hc⟩ := hc
    obtain ⟨i1, i2⟩ := ih hc hw.2 hd.2.2 path hm.2 F r hF.2
    have h := hF.1
    rw [readEntries]
    by_cases hk : keep (path ++ [n])
    · rw [if_pos hk] at h
      obtain ⟨j1, j2⟩ := ihs hcs hw.1 hd.2.1 (path ++ [n]) hm.1 _ (.map F :: r) (contains_write keep hd.2.1 hw.1 (path ++ [n]) hm.1)
      by_cases hks : AllKept keep (path ++ [n]) s'
      · rw [bind_ok (a := mapValues (stored f) s') (st' := .map F :: r)]
        · refine ⟨fun ha => ?_, fun ha => ?_⟩
          · rw [bind_ok (i1 ha.2.2)]; rfl
          · obtain ⟨st, e⟩ := i2 fun h' => ha ⟨hk, hks, h'⟩
            exact ⟨st, bind_error e⟩
        · rw [bind_ok (descend_found h), if_pos rfl, bind_ok (j1 hks), bind_ok (ascend_cons _ _)]
          rfl
      · obtain ⟨st, e⟩ := j2 hks
        refine ⟨fun ha => (hks ha.2.1).elim, fun _ => ⟨st, bind_error ?_⟩⟩
        rw [bind_ok (descend_found h), if_pos rfl, bind_error e]
    · rw [if_neg hk] at h
      refine ⟨fun ha => (hk ha.1).elim, fun _ => ⟨.map F :: r, bind_error ?_⟩⟩
      rw [bind_ok (descend_missing h), if_neg (by simp), missing_strict]
  | parent s rest ihs ih =>
    cases o <;> simp only [SameClass] at hc
    rename_i s' rest'
    obtain ⟨i1, i2⟩ := ihs hc.1 hw.1 hd.2.1 path hm.1 F r hF.1
    obtain ⟨j1, j2⟩ := ih hc.2 hw.2 hd.2.2 path hm.2 F r hF.2
    rw [readEntries]
    by_cases hk : AllKept keep path s'
    · rw [bind_ok (i1 hk)]
      refine ⟨fun ha => ?_, fun ha => ?_⟩
      · rw [bind_ok (j1 ha.2)]; rfl
      · obtain ⟨st, e⟩ := j2 fun h' => ha ⟨hk, h'⟩
        exact ⟨st, bind_error e⟩
    · obtain ⟨st, e⟩ := i2 hk
      exact ⟨fun ha => (hk ha.1).elim, fun _ => ⟨st, bind_error e⟩⟩

/-! ## Values at paths -/

theorem valueAt_nil (o : Entries) : valueAt o [] = none := by
  induction o with
  | nil => rfl
  | leaf n v r ih => simp [valueAt, ih]
  | member n s r _ ih => simp [valueAt, ih]
  | parent s r ihs ih => simp [valueAt, ihs, ih]

theorem valueAt_names {o : Entries} {n : String} {q : List String} (h : n ∉ names o) : valueAt o (n :: q) = none := by
  induction o with
  | nil => rfl
  | leaf m v r ih =>
    simp only [names, List.mem_cons, not_or] at h
    rw [valueAt, if_neg (by simp [h.1]), ih h.2]
  | member m s r _ ih =>
    simp only [names, List.mem_cons, not_or] at h
    cases q with
    | nil => simpa [valueAt] using ih h.2
    | cons a q => simpa [valueAt, h.1] using ih h.2
  | parent s r ihs ih =>
    simp only [names, List.mem_append, not_or] at h
    simp [valueAt, ihs h.1, ih h.2]

theorem sameClass_names {d o : Entries} (h : SameClass d o) : names d = names o := by
  induction d generalizing o with
  | nil => cases o <;> simp_all [SameClass]
  | leaf n v r ih => cases o <;> simp only [SameClass] at h; obtain ⟨rfl, _, h⟩ := h; simp [names, ih h]
  | member n s r _ ih => cases o <;> simp only [SameClass] at h; obtain ⟨rfl, _, h⟩ := h; simp [names, ih h]
  | parent s r ihs ih => cases o <;> simp only [SameClass] at h; simp [names, ihs h.1, ih h.2]

theorem valueAt_isSome {d o : Entries} (h : SameClass d o) (p : List String) :
    (valueAt d p).isSome = (valueAt o p).isSome := by
  induction d generalizing o p with
  | nil => cases o <;> simp_all [SameClass]
  | leaf n v r ih =>
    cases o <;> simp only [SameClass] at h
    obtain ⟨rfl, _, h⟩ := h
    simp only [valueAt]; split_ifs
    · rfl
    · exact ih h p
  | member n s r ihs ih =>
    cases o <;> simp only [SameClass] at h
    obtain ⟨rfl, hs, h⟩ := h
    match p with
    | [] => simpa [valueAt] using ih h []
    | [a] => simpa [valueAt] using ih h [a]
    | a :: b :: q =>
      simp only [valueAt]; split_ifs
      · exact ihs hs _
      · exact ih h _
  | parent s r ihs ih =>
    cases o <;> simp only [SameClass] at h
    simp only [valueAt, Option.isSome_or, ihs h.1, ih h.2]

theorem valueAt_mapValues (g : Val → Val) (o : Entries) (p : List String) :
    valueAt (mapValues g o) p = (valueAt o p).map g := by
  induction o generalizing p with
  | nil => rfl
  | leaf n v r ih => simp only [mapValues, valueAt, ih]; split_ifs <;> rfl
  | member n s r ihs ih =>
    match p with
    | [] => simpa [valueAt, mapValues] using ih []
    | [a] => simpa [valueAt, mapValues] using ih [a]
    | a :: b :: q =>
      simp only [mapValues, valueAt]; split_ifs
      · exact ihs _
      · exact ih _
  | parent s r ihs ih =>
    simp only [mapValues, valueAt, ihs, ih]
    cases valueAt s p <;> simp

/-- The condition for an entry relative to a member. -/
theorem present_cons (path : List String) (n : String) (q : List String) :
    (∀ t, t ≠ [] → t <+: n :: q → keep (path ++ t)) ↔
      keep (path ++ [n]) ∧ ∀ t, t ≠ [] → t <+: q → keep ((path ++ [n]) ++ t) := by
  constructor
  · intro h
    refine ⟨h [n] (by simp) (by simp), fun t ht hp => ?_⟩
    have := h (n :: t) (by simp) (by simpa using hp)
    simpa using this
  · rintro ⟨h1, h2⟩ t ht hp
    cases t with
    | nil => exact (ht rfl).elim
    | cons a t =>
      rw [List.cons_prefix_cons] at hp
      obtain ⟨rfl, hp⟩ := hp
      by_cases h : t = []
      · subst h; exact h1
      · simpa using h2 t h hp

open Classical in
theorem valueAt_merge {f : Format} {d o : Entries} (hc : SameClass d o) (hd : Distinct o) (path p : List String) :
    valueAt (merge keep f path d o) p =
      if ∀ t, t ≠ [] → t <+: p → keep (path ++ t) then (valueAt o p).map (stored f) else valueAt d p := by
  induction d generalizing o path p with
  | nil =>
    cases o <;> simp only [SameClass] at hc
    simp [merge, valueAt]
  | leaf n v r ih =>
    cases o <;> simp only [SameClass] at hc
    rename_i n' v' r'
    obtain ⟨rfl, _, hc⟩ := hc
    simp only [merge, valueAt]
    by_cases hp : p = [n]
    · subst hp
      have : (∀ t, t ≠ [] → t <+: [n] → keep (path ++ t)) ↔ keep (path ++ [n]) := by
        constructor
        · intro h; exact h [n] (by simp) (by simp)
        · intro h t ht hp
          cases t with
          | nil => exact (ht rfl).elim
          | cons a t =>
            rw [List.cons_prefix_cons] at hp
            obtain ⟨rfl, hp⟩ := hp
            rw [List.prefix_nil] at hp
            subst hp; exact h
      simp only [if_true, this]
      split_ifs <;> rfl
    · simp only [if_neg hp]
      exact ih hc hd.2 path p
  | member n s r ihs ih =>
    cases o <;> simp only [SameClass] at hc
    rename_i n' s' r'
    obtain ⟨rfl, hcs, hc⟩ := hc
    match p with
    | [] => simpa [valueAt, merge] using ih hc hd.2.2 path []
    | [a] => simpa only [valueAt, merge] using ih hc hd.2.2 path [a]
    | a :: b :: q =>
      simp only [merge, valueAt]
      by_cases ha : a = n
      · subst ha
        simp only [if_true]
        rw [show (∀ t, t ≠ [] → t <+: a :: b :: q → keep (path ++ t)) ↔ _ from present_cons keep path a (b :: q)]
        by_cases hk : keep (path ++ [a])
        · simp only [hk, if_true, true_and]
          exact ihs hcs hd.2.1 _ _
        · simp only [hk, if_false, false_and]
      · simp only [if_neg ha]
        exact ih hc hd.2.2 path _
  | parent s r ihs ih =>
    cases o <;> simp only [SameClass] at hc
    rename_i s' r'
    simp only [merge, valueAt, ihs hc.1 hd.2.1, ih hc.2 hd.2.2]
    split_ifs
    · cases valueAt s' p <;> simp
    · rfl

theorem sameClass_merge {f : Format} {d o : Entries} (hc : SameClass d o) (path : List String) :
    SameClass (merge keep f path d o) o := by
  have hst : ∀ v, SameType (stored f v) v := by
    intro v; cases v <;> simp [stored, SameType, emit_type]
  induction d generalizing o path with
  | nil => cases o <;> simp_all [SameClass, merge]
  | leaf n v r ih =>
    cases o <;> simp only [SameClass] at hc
    obtain ⟨rfl, ht, hc⟩ := hc
    refine ⟨rfl, ?_, ih hc path⟩
    split_ifs
    · exact hst _
    · exact ht
  | member n s r ihs ih =>
    cases o <;> simp only [SameClass] at hc
    obtain ⟨rfl, hcs, hc⟩ := hc
    refine ⟨rfl, ?_, ih hc path⟩
    split_ifs
    · exact ihs hcs _
    · exact hcs
  | parent s r ihs ih =>
    cases o <;> simp only [SameClass] at hc
    exact ⟨ihs hc.1 path, ih hc.2 path⟩

/-! ## Sections -/

/-- The section is the first one with its name. -/
theorem readConfig_section {f : Format} {before after sec : Fields} {name : String} (hn : name ∉ before.keys) (strict : Bool)
    (d : Entries) :
    readConfig f (before.append (.map name sec after)) strict d name (openFile f (before.append (.map name sec after)))
      = match readEntries f (before.append (.map name sec after)) strict d
          (.map sec :: openFile f (before.append (.map name sec after))) with
        | (.ok x, st) => (match ascend st with
          | (.ok (), st') => (.ok x, st')
          | (.error e, st') => (.error e, st'))
        | (.error e, st) => (.error e, st) := by
  set file := before.append (.map name sec after) with hfile
  have hd : descend f file name (openFile f file) = (.ok true, .map sec :: openFile f file) := by
    cases f with
    | yaml =>
      have : file.find name = some (.map sec) := by
        rw [hfile, find_append_right hn]; simp [Fields.find]
      simp [openFile, descend, Node.find, this]
    | msgpack =>
      have : file.findMap name = some (.map sec) := by
        rw [hfile, findMap_append_right hn]; simp [Fields.findMap]
      simp [openFile, descend, this]
  rw [readConfig, bind_ok hd, if_pos rfl, bind_run]
  cases readEntries f file strict d (.map sec :: openFile f file) with
  | mk res st =>
    cases res with
    | error e => rfl
    | ok x => simp only [bind_run]; cases ascend st with
      | mk res' st' => cases res' <;> rfl

/-- A file with sections is made of the sections before, the section and the sections after. -/
theorem fileWith_split (f : Format) (sections : List (String × Entries)) (file : Fields) :
    sections.foldl (fun file s => writeConfig f file s.1 s.2) file = file.append (fileWith f sections) := by
  induction sections generalizing file with
  | nil => simp [fileWith, append_nil]
  | cons s l ih =>
    rw [fileWith, List.foldl_cons, List.foldl_cons, ih, ih (writeConfig f .nil s.1 s.2)]
    simp [writeConfig, append_assoc, Fields.append]

theorem keys_fileWith (f : Format) (sections : List (String × Entries)) :
    (fileWith f sections).keys = sections.map Prod.fst := by
  induction sections with
  | nil => rfl
  | cons s l ih =>
    rw [fileWith, List.foldl_cons, fileWith_split, keys_append, ih]
    simp [writeConfig, Fields.append, Fields.keys]

theorem fileWith_mem (f : Format) {sections : List (String × Entries)} (hn : (sections.map Prod.fst).Nodup) {name : String}
    {o : Entries} (h : (name, o) ∈ sections) :
    ∃ before after : Fields, name ∉ before.keys ∧ fileWith f sections = before.append (.map name (writeEntries f o) after) := by
  obtain ⟨l, l', rfl⟩ := List.append_of_mem h
  refine ⟨fileWith f l, fileWith f l', ?_, ?_⟩
  · rw [keys_fileWith]
    simp only [List.map_append, List.map_cons, List.nodup_append] at hn
    intro hm
    exact hn.2.2 _ hm _ (by simp) rfl
  · rw [fileWith, List.foldl_append, List.foldl_cons, fileWith_split, ← fileWith.eq_1]
    simp [writeConfig, append_assoc, Fields.append]

theorem remove_all (hk : ∀ p, keep p) (path : List String) (a : Fields) : remove keep path a = a := by
  induction a generalizing path with
  | nil => rfl
  | leaf n v r ih => simp [remove, hk, ih]
  | map n s r ihs ih => simp [remove, hk, ihs, ih]

/-- Reading of what has been written. -/
theorem read_written {f : Format} {file : Fields} {strict : Bool} {d o : Entries} (hc : SameClass d o)
    (hw : AllValues WellTyped o) (hd : Distinct o) (r : List Node) :
    readEntries f file strict d (.map (writeEntries f o) :: r)
      = (.ok (mapValues (stored f) o), .map (writeEntries f o) :: r) := by
  have hm : ∀ (o : Entries) (path : List String), WholeMatrices (fun _ => True) path o := by
    intro o
    induction o with
    | nil => intro _; trivial
    | leaf n v r ih => intro path; exact ⟨by cases v <;> simp, ih path⟩
    | member n s r ihs ih => intro path; exact ⟨ihs _, ih _⟩
    | parent s r ihs ih => intro path; exact ⟨ihs _, ih _⟩
  have hF := contains_write (f := f) (fun _ => True) hd hw [] (hm o [])
  rw [remove_all _ (fun _ => trivial)] at hF
  have ha : AllKept (fun _ => True) [] o := (allKept_iff _ _ _).2 fun _ _ => trivial
  cases strict with
  | false => rw [read_relaxed _ hc hw hd [] (hm o []) _ r hF, merge_allKept _ hc [] ha]
  | true => exact (read_strict _ hc hw hd [] (hm o []) _ r hF).1 ha

theorem mapValues_id {g : Val → Val} {o : Entries} (h : AllValues (fun v => g v = v) o) : mapValues g o = o := by
  induction o with
  | nil => rfl
  | leaf n v r ih => simp [mapValues, show g v = v from h.1, ih h.2]
  | member n s r ihs ih => simp [mapValues, ihs h.1, ih h.2]
  | parent s r ihs ih => simp [mapValues, ihs h.1, ih h.2]

theorem allValues_imp {P Q : Val → Prop} (h : ∀ v, P v → Q v) {o : Entries} (ho : AllValues P o) : AllValues Q o := by
  induction o with
  | nil => trivial
  | leaf n v r ih => exact ⟨h v ho.1, ih ho.2⟩
  | member n s r ihs ih => exact ⟨ihs ho.1, ih ho.2⟩
  | parent s r ihs ih => exact ⟨ihs ho.1, ih ho.2⟩

theorem allValues_and {P Q : Val → Prop} {o : Entries} (hp : AllValues P o) (hq : AllValues Q o) :
    AllValues (fun v => P v ∧ Q v) o := by
  induction o with
  | nil => trivial
  | leaf n v r ih => exact ⟨⟨hp.1, hq.1⟩, ih hp.2 hq.2⟩
  | member n s r ihs ih => exact ⟨ihs hp.1 hq.1, ih hp.2 hq.2⟩
  | parent s r ihs ih => exact ⟨ihs hp.1 hq.1, ih hp.2 hq.2⟩

theorem stored_msgpack {v : Val} (hm : NoMatrix v) : stored .msgpack v = v := by
  have h1 : (emit .msgpack : Scalar → Scalar) = id := by funext s; exact emit_msgpack s
  have h2 : (emitReal .msgpack : ℚ → ℚ) = id := rfl
  cases v <;> simp_all [stored, NoMatrix]

/-! ## Digits -/

theorem round15_exact {x : ℚ} (h : FifteenDigits x) : round15 x = x := by
  obtain ⟨m, k, hm, rfl⟩ := h
  by_cases hx : (m : ℚ) * (10 : ℚ) ^ k = 0
  · simp [round15, hx]
  rw [round15, if_neg hx]
  set x := (m : ℚ) * (10 : ℚ) ^ k with hxd
  set e := Int.log 10 |x| with he
  have h10 : (0 : ℚ) < 10 := by norm_num
  have hlt : |x| < (10 : ℚ) ^ (15 + k) := by
    rw [hxd, abs_mul, abs_of_pos (zpow_pos h10 k), zpow_add₀ h10.ne']
    refine mul_lt_mul_of_pos_right ?_ (zpow_pos h10 k)
    have : ((|m| : ℤ) : ℚ) < ((10 ^ 15 : ℤ) : ℚ) := by exact_mod_cast hm
    rw [Int.cast_abs] at this
    have e : ((10 ^ 15 : ℤ) : ℚ) = (10 : ℚ) ^ (15 : ℤ) := by norm_num
    rwa [e] at this
  have hle : ((10 : ℕ) : ℚ) ^ e ≤ |x| := Int.zpow_log_le_self (by norm_num) (abs_pos.2 hx)
  have hlt' : (10 : ℚ) ^ e < (10 : ℚ) ^ (15 + k) := lt_of_le_of_lt (by simpa using hle) hlt
  have hek : e < 15 + k := (zpow_lt_zpow_iff_right₀ (by norm_num : (1 : ℚ) < 10)).1 hlt'
  obtain ⟨n, hn⟩ := Int.eq_ofNat_of_zero_le (show 0 ≤ k + (14 - e) by omega)
  have hint : x * (10 : ℚ) ^ (14 - e) = ((m * 10 ^ n : ℤ) : ℚ) := by
    rw [hxd, mul_assoc, ← zpow_add₀ h10.ne', hn]
    push_cast
    simp
  rw [hint, round_intCast, ← hint]
  field_simp

theorem round15_close (x : ℚ) : |round15 x - x| ≤ 5 / 10 ^ 15 * |x| := by
  by_cases hx : x = 0
  · simp [round15, hx]
  rw [round15, if_neg hx]
  set e := Int.log 10 |x| with he
  have h10 : (0 : ℚ) < 10 := by norm_num
  have hle : (10 : ℚ) ^ e ≤ |x| := by
    simpa using Int.zpow_log_le_self (b := 10) (r := |x|) (by norm_num) (abs_pos.2 hx)
  set s := (10 : ℚ) ^ (14 - e) with hs
  have hsp : 0 < s := zpow_pos h10 _
  have hr := abs_sub_round (x * s)
  have e1 : ((round (x * s) : ℤ) : ℚ) / s - x = -(x * s - round (x * s)) / s := by field_simp; ring
  rw [e1, abs_div, abs_neg, abs_of_pos hsp, div_le_iff₀ hsp]
  refine hr.trans ?_
  have e2 : (10 : ℚ) ^ e * s = 10 ^ 14 := by
    rw [hs, ← zpow_add₀ h10.ne', show e + (14 - e) = (14 : ℤ) by ring]; norm_cast
  have : (10 : ℚ) ^ e * s ≤ |x| * s := mul_le_mul_of_nonneg_right hle hsp.le
  rw [e2] at this
  calc (1 : ℚ) / 2 = 5 / 10 ^ 15 * 10 ^ 14 := by norm_num
    _ ≤ 5 / 10 ^ 15 * (|x| * s) := mul_le_mul_of_nonneg_left this (by norm_num)
    _ = 5 / 10 ^ 15 * |x| * s := by ring

theorem stored_exact {v : Val} (hm : NoMatrix v) (h : Numbers FifteenDigits v) : stored .yaml v = v := by
  have hsc : ∀ s, scalarNumbers FifteenDigits s → emit .yaml s = s := by
    intro s hs
    cases s <;> simp only [emit]
    rw [round15_exact hs]
  cases v with
  | scalar s => simp [stored, hsc s h]
  | enum i => rfl
  | vec f l =>
    simp only [stored]
    rw [List.map_congr_left (f := emitReal .yaml) (g := id) fun x hx => round15_exact (h x hx), List.map_id]
  | list t l =>
    simp only [stored]
    rw [List.map_congr_left (g := id) fun x hx => hsc x (h x hx), List.map_id]
  | lists t l =>
    simp only [stored]
    rw [List.map_congr_left (g := id) fun x hx => ?_, List.map_id]
    simp only [id]
    rw [List.map_congr_left (g := id) fun y hy => hsc y (h x hx y hy), List.map_id]
  | mat r c d => exact hm.elim

theorem stored_close {v : Val} (h : NoMatrix v) : CloseVal (5 / 10 ^ 15) (stored .yaml v) v := by
  have hsc : ∀ s, CloseScalar (5 / 10 ^ 15) (emit .yaml s) s := by
    intro s
    cases s <;> simp only [emit, CloseScalar]
    exact round15_close _
  cases v with
  | scalar s => exact hsc s
  | enum i => rfl
  | vec f l => exact ⟨rfl, List.forall₂_map_left_iff.2 (List.forall₂_same.2 fun x _ => round15_close x)⟩
  | list t l => exact ⟨rfl, List.forall₂_map_left_iff.2 (List.forall₂_same.2 fun x _ => hsc x)⟩
  | lists t l =>
    exact ⟨rfl, List.forall₂_map_left_iff.2 (List.forall₂_same.2 fun k _ =>
      List.forall₂_map_left_iff.2 (List.forall₂_same.2 fun x _ => hsc x))⟩
  | mat r c d => exact h.elim

/-! ## The stack after reading -/

/-- The computation leaves the stack unchanged if it succeeds. -/
def Balanced {α : Type} (x : RM α) : Prop := ∀ a st st', x st = (.ok a, st') → st' = st

theorem bind_eq_ok {α β : Type} {x : RM α} {g : α → RM β} {st st' : List Node} {b : β} (h : (x >>= g) st = (.ok b, st')) :
    ∃ a s, x st = (.ok a, s) ∧ g a s = (.ok b, st') := by
  rw [bind_run] at h
  cases hx : x st with
  | mk res s =>
    rw [hx] at h
    cases res with
    | error e => simp at h
    | ok a => exact ⟨a, s, rfl, h⟩

theorem balanced_pure {α : Type} (a : α) : Balanced (pure a : RM α) := by
  intro b st st' h
  rw [pure_run] at h
  simp only [Prod.mk.injEq] at h
  exact h.2.symm

theorem balanced_throw {α : Type} : Balanced (RM.throw : RM α) := by
  intro b st st' h
  simp [RM.throw] at h

theorem balanced_bind {α β : Type} {x : RM α} {g : α → RM β} (hx : Balanced x) (hg : ∀ a, Balanced (g a)) :
    Balanced (x >>= g) := by
  intro b st st' h
  obtain ⟨a, s, h1, h2⟩ := bind_eq_ok h
  rw [hg a _ _ _ h2, hx _ _ _ h1]

theorem balanced_missing {α : Type} (strict : Bool) (d : α) : Balanced (missing strict d) := by
  rw [missing]
  split_ifs
  · exact balanced_throw
  · exact balanced_pure d

theorem balanced_assert (p : Prop) [Decidable p] : Balanced (RM.assert p) := by
  rw [RM.assert]
  split_ifs
  · exact balanced_pure ()
  · exact balanced_throw

theorem balanced_convert (ty : ScalarType) (s : Scalar) : Balanced (convert ty s) := by
  unfold convert
  split_ifs
  · exact balanced_pure s
  · split
    · exact balanced_pure _
    · exact balanced_throw

theorem balanced_convertAll (ty : ScalarType) (l : List Scalar) : Balanced (convertAll ty l) := by
  induction l with
  | nil => exact balanced_pure _
  | cons s l ih =>
    rw [convertAll]
    exact balanced_bind (balanced_convert ty s) fun _ => balanced_bind ih fun _ => balanced_pure _

theorem balanced_convertSeqs (ty : ScalarType) (l : List (List Scalar)) : Balanced (convertSeqs ty l) := by
  induction l with
  | nil => exact balanced_pure _
  | cons s l ih =>
    rw [convertSeqs]
    exact balanced_bind (balanced_convertAll ty s) fun _ => balanced_bind ih fun _ => balanced_pure _

theorem balanced_current : Balanced getCurrentNode := by
  intro a st st' h
  cases st with
  | nil => simp [getCurrentNode] at h
  | cons n r =>
    rw [getCurrentNode_cons] at h
    simp only [Prod.mk.injEq] at h
    exact h.2.symm

theorem balanced_currentScalar (ty : ScalarType) : Balanced (currentScalar ty) := by
  rw [currentScalar]
  refine balanced_bind balanced_current fun n => ?_
  split
  · exact balanced_convert _ _
  · exact balanced_throw

theorem balanced_currentSeq (ty : ScalarType) : Balanced (currentSeq ty) := by
  rw [currentSeq]
  refine balanced_bind balanced_current fun n => ?_
  split
  · exact balanced_convertAll _ _
  · exact balanced_throw

theorem balanced_currentSeqs (ty : ScalarType) : Balanced (currentSeqs ty) := by
  rw [currentSeqs]
  refine balanced_bind balanced_current fun n => ?_
  split
  · exact balanced_convertSeqs _ _
  · exact balanced_pure _
  · exact balanced_throw

/-- The stack after `descend`. -/
theorem descend_ok {f : Format} {file : Fields} {name : String} {b : Bool} {st st' : List Node}
    (h : descend f file name st = (.ok b, st')) : (b = false ∧ st' = st) ∨ (b = true ∧ ∃ c, st' = c :: st) := by
  cases st with
  | nil =>
    cases f with
    | yaml => simp [descend] at h
    | msgpack =>
      simp only [descend] at h
      split at h <;> simp only [Prod.mk.injEq, Except.ok.injEq] at h
      · exact .inl ⟨h.1.symm, h.2.symm⟩
      · exact .inr ⟨h.1.symm, _, h.2.symm⟩
  | cons n r =>
    simp only [descend] at h
    split at h <;> simp only [Prod.mk.injEq, Except.ok.injEq] at h
    · exact .inl ⟨h.1.symm, h.2.symm⟩
    · exact .inr ⟨h.1.symm, _, h.2.symm⟩

/-- A balanced computation followed by `ascend` removes the top of the stack. -/
def Pops {α : Type} (x : RM α) : Prop := ∀ a c st st', x (c :: st) = (.ok a, st') → st' = st

theorem pops_ascend : Pops ascend := by
  intro a c st st' h
  rw [ascend_cons] at h
  simp only [Prod.mk.injEq] at h
  exact h.2.symm

theorem pops_bind_left {α β : Type} {x : RM α} {g : α → RM β} (hx : Balanced x) (hg : ∀ a, Pops (g a)) : Pops (x >>= g) := by
  intro b c st st' h
  obtain ⟨a, s, h1, h2⟩ := bind_eq_ok h
  rw [hx _ _ _ h1] at h2
  exact hg a _ _ _ _ h2

theorem pops_bind_right {α β : Type} {x : RM α} {g : α → RM β} (hx : Pops x) (hg : ∀ a, Balanced (g a)) : Pops (x >>= g) := by
  intro b c st st' h
  obtain ⟨a, s, h1, h2⟩ := bind_eq_ok h
  rw [hg a _ _ _ h2, hx _ _ _ _ h1]

theorem balanced_nested {α : Type} {f : Format} {file : Fields} {name : String} {x y : RM α} (hx : Pops x) (hy : Balanced y) :
    Balanced (do
      let found ← descend f file name
      if found then x else y) := by
  intro b st st' h
  obtain ⟨a, s, h1, h2⟩ := bind_eq_ok h
  rcases descend_ok h1 with ⟨rfl, rfl⟩ | ⟨rfl, c, rfl⟩
  · rw [if_neg (by simp)] at h2
    exact hy _ _ _ h2
  · rw [if_pos rfl] at h2
    exact hx _ _ _ _ h2

theorem balanced_readVal (f : Format) (file : Fields) (strict : Bool) (v : Val) (name : String) :
    Balanced (readVal f file strict v name) := by
  have he : ∀ (strict : Bool) (d : ℤ) (name : String), Balanced (readEnum f file strict d name) := by
    intro strict d name
    rw [readEnum]
    refine balanced_nested (pops_bind_left (balanced_currentScalar _) fun s => pops_bind_right pops_ascend fun _ => ?_)
      (balanced_missing _ _)
    split
    · exact balanced_pure _
    · exact balanced_throw
  have hv : ∀ (strict fixed : Bool) (d : List ℚ) (name : String), Balanced (readVector f file strict fixed d name) := by
    intro strict fixed d name
    rw [readVector]
    exact balanced_nested (pops_bind_left (balanced_currentSeq _) fun l => pops_bind_left (balanced_assert _) fun _ =>
      pops_bind_right pops_ascend fun _ => balanced_pure _) (balanced_missing _ _)
  cases v with
  | scalar s =>
    rw [readVal, readScalar]
    exact balanced_bind (balanced_nested (pops_bind_left (balanced_currentScalar _) fun s => pops_bind_right pops_ascend
      fun _ => balanced_pure _) (balanced_missing _ _)) fun _ => balanced_pure _
  | enum i => exact balanced_bind (he _ _ _) fun _ => balanced_pure _
  | vec fixed l => exact balanced_bind (hv _ _ _ _) fun _ => balanced_pure _
  | list ty l =>
    rw [readVal, readList]
    exact balanced_bind (balanced_nested (pops_bind_left (balanced_currentSeq _) fun s => pops_bind_right pops_ascend
      fun _ => balanced_pure _) (balanced_missing _ _)) fun _ => balanced_pure _
  | lists ty l =>
    rw [readVal, readLists]
    exact balanced_bind (balanced_nested (pops_bind_left (balanced_currentSeqs _) fun s => pops_bind_right pops_ascend
      fun _ => balanced_pure _) (balanced_missing _ _)) fun _ => balanced_pure _
  | mat r c d =>
    rw [readVal, readMatrix]
    exact balanced_bind (balanced_nested (pops_bind_left (he _ _ _) fun _ => pops_bind_left (he _ _ _) fun _ =>
      pops_bind_left (hv _ _ _ _) fun _ => pops_bind_left (balanced_assert _) fun _ => pops_bind_right pops_ascend
      fun _ => balanced_pure _) (balanced_missing _ _)) fun _ => balanced_pure _

theorem balanced_readEntries (f : Format) (file : Fields) (strict : Bool) (d : Entries) :
    Balanced (readEntries f file strict d) := by
  induction d with
  | nil => exact balanced_pure _
  | leaf n v r ih =>
    rw [readEntries]
    exact balanced_bind (balanced_readVal _ _ _ _ _) fun _ => balanced_bind ih fun _ => balanced_pure _
  | member n s r ihs ih =>
    rw [readEntries]
    exact balanced_bind (balanced_nested (pops_bind_left ihs fun _ => pops_bind_right pops_ascend fun _ => balanced_pure _)
      (balanced_missing _ _)) fun _ => balanced_bind ih fun _ => balanced_pure _
  | parent s r ihs ih =>
    rw [readEntries]
    exact balanced_bind ihs fun _ => balanced_bind ih fun _ => balanced_pure _

/-! ## msgpack items -/

theorem unpackSeq_scalars (l : List Scalar) (t : List Tok) : unpackSeq l.length (l.map .scalar ++ t) = some (l, t) := by
  induction l with
  | nil => rfl
  | cons s l ih => simp [unpackSeq, ih]

theorem unpackSeqs_arrays (l : List (List Scalar)) (t : List Tok) :
    unpackSeqs l.length ((l.flatMap fun k => Tok.array k.length :: k.map .scalar) ++ t) = some (l, t) := by
  induction l with
  | nil => rfl
  | cons k l ih =>
    simp only [List.length_cons, List.flatMap_cons, List.cons_append, List.append_assoc, unpackSeqs]
    rw [unpackSeq_scalars]
    simp [ih]

theorem unpackArray_seqs (l : List (List Scalar)) (t : List Tok) :
    unpackArray l.length ((l.flatMap fun k => Tok.array k.length :: k.map .scalar) ++ t) = some (seqsLeaf l, t) := by
  cases l with
  | nil => simp [unpackArray, unpackSeq, seqsLeaf]
  | cons s l =>
    have := unpackSeqs_arrays (s :: l) t
    simp only [List.length_cons, List.flatMap_cons, List.cons_append, List.append_assoc] at this ⊢
    simp [unpackArray, this, seqsLeaf]

/-- The parser returns this for all sufficiently large bounds. -/
def Unpacks (n : ℕ) (t : List Tok) (F : Fields) (t' : List Tok) : Prop :=
  ∃ N, ∀ fuel, N ≤ fuel → unpackMap fuel n t = some (F, t')

theorem unpacks_zero (t : List Tok) : Unpacks 0 t .nil t := ⟨0, fun fuel _ => by cases fuel <;> rfl⟩

theorem unpacks_scalar {n : ℕ} {name : String} {s : Scalar} {t t' : List Tok} {F : Fields} (h : Unpacks n t F t') :
    Unpacks (n + 1) (.scalar (.str name) :: .scalar s :: t) (.leaf name (.scalar s) F) t' := by
  obtain ⟨N, h⟩ := h
  refine ⟨N + 1, fun fuel hf => ?_⟩
  obtain ⟨g, rfl⟩ := Nat.exists_eq_add_of_le' (show 1 ≤ fuel by omega)
  rw [unpackMap, h g (by omega)]
  rfl

theorem unpacks_array {n k : ℕ} {name : String} {l : Leaf} {t t₁ t' : List Tok} {F : Fields}
    (ha : unpackArray k t = some (l, t₁)) (h : Unpacks n t₁ F t') :
    Unpacks (n + 1) (.scalar (.str name) :: .array k :: t) (.leaf name l F) t' := by
  obtain ⟨N, h⟩ := h
  refine ⟨N + 1, fun fuel hf => ?_⟩
  obtain ⟨g, rfl⟩ := Nat.exists_eq_add_of_le' (show 1 ≤ fuel by omega)
  rw [unpackMap, ha]
  simp [h g (by omega)]

theorem unpacks_map {n k : ℕ} {name : String} {t t₁ t' : List Tok} {F G : Fields} (hm : Unpacks k t G t₁)
    (h : Unpacks n t₁ F t') : Unpacks (n + 1) (.scalar (.str name) :: .map k :: t) (.map name G F) t' := by
  obtain ⟨M, hm⟩ := hm
  obtain ⟨N, h⟩ := h
  refine ⟨M + N + 1, fun fuel hf => ?_⟩
  obtain ⟨g, rfl⟩ := Nat.exists_eq_add_of_le' (show 1 ≤ fuel by omega)
  rw [unpackMap, hm g (by omega)]
  simp [h g (by omega)]

theorem unpacks_seq {n : ℕ} {name : String} {l : List Scalar} {t t' : List Tok} {F : Fields} (h : Unpacks n t F t') :
    Unpacks (n + 1) (.scalar (.str name) :: .array l.length :: (l.map .scalar ++ t)) (.leaf name (.seq l) F) t' := by
  refine unpacks_array ?_ h
  cases l with
  | nil => simp [unpackArray, unpackSeq]
  | cons s l =>
    have := unpackSeq_scalars (s :: l) t
    simp only [List.length_cons, List.map_cons, List.cons_append] at this ⊢
    simp [unpackArray, this]

theorem unpacks_val {n : ℕ} {name : String} {v : Val} {t t' : List Tok} {F : Fields} (h : Unpacks n t F t') :
    Unpacks (n + 1) (packVal name v ++ t) (writeVal .msgpack name v F) t' := by
  have e : (emit .msgpack : Scalar → Scalar) = id := by funext s; exact emit_msgpack s
  cases v with
  | scalar s => simpa [packVal, writeVal, e] using unpacks_scalar h
  | enum i => simpa [packVal, writeVal] using unpacks_scalar h
  | vec fixed l =>
    have := unpacks_seq (name := name) (l := l.map .real) h
    simpa [packVal, writeVal, e, Function.comp_def] using this
  | list ty l => simpa [packVal, writeVal, e] using unpacks_seq (name := name) (l := l) h
  | lists ty l =>
    have := unpacks_array (name := name) (unpackArray_seqs l t) h
    simpa [packVal, writeVal, e] using this
  | mat rows cols data =>
    have h3 := unpacks_seq (name := "data") (l := data.map .real) (unpacks_zero t)
    have := unpacks_map (name := name) (unpacks_scalar (name := "cols") (s := .int cols)
      (unpacks_scalar (name := "rows") (s := .int rows) h3)) h
    simpa [packVal, writeVal, e, Function.comp_def] using this

theorem unpacks_entries (o : Entries) {n : ℕ} {t t' : List Tok} {F : Fields} (h : Unpacks n t F t') :
    Unpacks (o.number + n) (packEntries o ++ t) ((writeEntries .msgpack o).append F) t' := by
  induction o generalizing n t t' F with
  | nil => simpa [Entries.number, packEntries, writeEntries, Fields.append] using h
  | leaf name v r ih =>
    have := unpacks_val (name := name) (v := v) (ih h)
    rw [Entries.number, packEntries, writeEntries, List.append_assoc, show 1 + r.number + n = r.number + n + 1 by omega]
    convert this using 1
    cases v <;> rfl
  | member name s r ihs ih =>
    have h1 := ihs (unpacks_zero (packEntries r ++ t))
    rw [append_nil] at h1
    have := unpacks_map (name := name) h1 (ih h)
    rw [Entries.number, packEntries, writeEntries, show 1 + r.number + n = r.number + n + 1 by omega]
    simpa [Fields.append] using this
  | parent s r ihs ih =>
    have := ihs (ih h)
    rw [Entries.number, packEntries, writeEntries, append_assoc, List.append_assoc, add_assoc]
    exact this

/-! ## Classes without matrices -/

theorem allValues_imp₂ {P Q R : Val → Prop} (h : ∀ v, P v → Q v → R v) {o : Entries} (hp : AllValues P o)
    (hq : AllValues Q o) : AllValues R o := by
  induction o with
  | nil => trivial
  | leaf n v r ih => exact ⟨h v hp.1 hq.1, ih hp.2 hq.2⟩
  | member n s r ihs ih => exact ⟨ihs hp.1 hq.1, ih hp.2 hq.2⟩
  | parent s r ihs ih => exact ⟨ihs hp.1 hq.1, ih hp.2 hq.2⟩

theorem wholeMatrices_of_noMatrix (keep : List String → Prop) {o : Entries} (h : AllValues NoMatrix o) (path : List String) :
    WholeMatrices keep path o := by
  induction o generalizing path with
  | nil => trivial
  | leaf n v r ih => exact ⟨by cases v <;> first | trivial | exact h.1.elim, ih h.2 path⟩
  | member n s r ihs ih => exact ⟨ihs h.1 _, ih h.2 path⟩
  | parent s r ihs ih => exact ⟨ihs h.1 path, ih h.2 path⟩

theorem stored_eq (f : Format) {v : Val} (hm : NoMatrix v) (h : Numbers FifteenDigits v) : stored f v = v := by
  cases f with
  | yaml => exact stored_exact hm h
  | msgpack => exact stored_msgpack hm

end Humoto.Config
