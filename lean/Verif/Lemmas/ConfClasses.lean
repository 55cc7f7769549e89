import Verif.Lemmas.Config
import Verif.Spec.ConfClasses

namespace Humoto.Config

open Spec

variable {α : Type}

theorem lift_ok {r : Res α} {a : α} (h : r = .ok a) (st : List Node) : RM.lift r st = (.ok a, st) := by rw [h]; rfl

theorem read_found {c : ConfClass α} {f : Format} {file : Fields} {strict : Bool} {q : α} {name : String} {st : List Node}
    {sec : Fields} (hd : descend f file name st = (.ok true, .map sec :: st)) {e : Entries}
    (he : readEntries f file strict (c.entries (c.setMembers (c.setDefaults q))) (.map sec :: st) = (.ok e, .map sec :: st))
    {x y : α} (ha : c.assign (c.setDefaults q) e = .ok x) (hf : c.finalize x = .ok y) :
    c.read f file strict q name st = (.ok y, st) := by
  rw [ConfClass.read, bind_ok hd, if_pos rfl, bind_ok he, bind_ok (lift_ok ha _), bind_ok (lift_ok hf _)]
  rfl

theorem descend_section {f : Format} {sections : List (String × Entries)} (hn : (sections.map Prod.fst).Nodup) {name : String}
    {o : Entries} (h : (name, o) ∈ sections) :
    descend f (fileWith f sections) name (openFile f (fileWith f sections))
      = (.ok true, .map (writeEntries f o) :: openFile f (fileWith f sections)) := by
  obtain ⟨before, after, hb, e⟩ := fileWith_mem f hn h
  rw [e]
  cases f with
  | yaml => exact descend_found (by rw [find_append_right hb]; simp [Fields.find])
  | msgpack =>
    have : (before.append (.map name (writeEntries .msgpack o) after)).findMap name = some (.map (writeEntries .msgpack o)) := by
      rw [findMap_append_right hb]; simp [Fields.findMap]
    simp [openFile, descend, this]

/-- An object is written and read: entries are what was stored. -/
theorem readsAs_stored {c : ConfClass α} {o q r : α}
    (hc : SameClass (c.entries (c.setMembers (c.setDefaults q))) (c.entries o))
    (hw : AllValues WellTyped (c.entries o)) (hd : Distinct (c.entries o))
    (hr : ∀ f, NumbersKept f (c.entries o) →
      ∃ x, c.assign (c.setDefaults q) (mapValues (stored f) (c.entries o)) = .ok x ∧ c.finalize x = .ok r) :
    ReadsAs c o q r := by
  intro f sections name strict hn h hk
  obtain ⟨x, hx, hy⟩ := hr f hk
  exact read_found (descend_section hn h) (read_written hc hw hd _) hx hy

theorem stored_kept {f : Format} {e : Entries} (hm : AllValues NoMatrix e) (h : NumbersKept f e) :
    mapValues (stored f) e = e := by
  rcases h with rfl | h
  · exact mapValues_id (allValues_imp (fun v hv => stored_msgpack hv) hm)
  · exact mapValues_id (allValues_imp₂ (fun v hv h => stored_eq f hv h) hm h)

/-- The same for classes without matrices. -/
theorem readsAs_of {c : ConfClass α} {o q r : α}
    (hc : SameClass (c.entries (c.setMembers (c.setDefaults q))) (c.entries o))
    (hw : AllValues WellTyped (c.entries o)) (hm : AllValues NoMatrix (c.entries o)) (hd : Distinct (c.entries o))
    (hr : ∃ x, c.assign (c.setDefaults q) (c.entries o) = .ok x ∧ c.finalize x = .ok r) :
    ReadsAs c o q r :=
  readsAs_stored hc hw hd fun f hk => by rw [stored_kept hm hk]; exact hr

theorem defaulted_of {c : ConfClass α} {d : α} (h : ∀ q, c.setDefaults q = d) : Defaulted c d := by
  intro q f sections name hn
  have hn : name ∉ (fileWith f sections).keys := by rw [keys_fileWith]; exact hn
  have hd : descend f (fileWith f sections) name (openFile f (fileWith f sections))
      = (.ok false, openFile f (fileWith f sections)) := by
    cases f with
    | yaml => simp [openFile, descend, Node.find, find_none hn]
    | msgpack => simp [openFile, descend, findMap_none hn]
  constructor
  · rw [ConfClass.read, bind_ok hd, if_neg (by simp), missing_relaxed, h]
  · rw [ConfClass.read, bind_ok hd, if_neg (by simp), missing_strict]

/-- What is read is either finalized or is the default. -/
theorem consistent_of {c : ConfClass α} {P : α → Prop} (hd : ∀ q, P (c.setDefaults q))
    (hf : ∀ x y, c.finalize x = .ok y → P y) : Consistent c P := by
  intro q f file name strict st st' r h
  rw [ConfClass.read] at h
  obtain ⟨found, st₁, _, h⟩ := bind_eq_ok h
  cases found with
  | true =>
    rw [if_pos rfl] at h
    obtain ⟨e, st₂, _, h⟩ := bind_eq_ok h
    obtain ⟨x, st₃, _, h⟩ := bind_eq_ok h
    obtain ⟨y, st₄, hy, h⟩ := bind_eq_ok h
    obtain ⟨_, st₅, _, h⟩ := bind_eq_ok h
    have : y = r := by injection (congrArg Prod.fst h : (Except.ok y : Res α) = .ok r)
    subst this
    exact hf x y (congrArg Prod.fst hy)
  | false =>
    rw [if_neg (by simp)] at h
    cases strict with
    | true => rw [missing_strict] at h; cases h
    | false =>
      rw [missing_relaxed] at h
      have : c.setDefaults q = r := by injection (congrArg Prod.fst h : (Except.ok _ : Res α) = .ok r)
      exact this ▸ hd q

theorem toVec_vecVal {n : ℕ} (v : Fin n → ℚ) : (vecVal v).toVec n = .ok v := by
  simp [vecVal, Val.toVec]

theorem stanceOf_code (t : StanceType) : stanceOf (stanceCode t) = .ok t := by cases t <;> rfl

theorem modeOf_code (t : Pepper.MotionMode) : modeOf (modeCode t) = .ok t := by cases t <;> rfl

theorem confOk_bind {β : Type} (a : α) (g : α → Res β) : (Except.ok a >>= g : Res β) = g a := rfl

theorem toNat_natVal (n : ℕ) : (natVal n).toNat = .ok n := rfl

/-! ## Options of qpOASES -/

/-- See `qpoasesOptions`. -/
def optionsOf (ints : String → ℤ) (reals : String → ℚ) (l : List String) : Entries :=
  l.foldr (fun n r =>
    .leaf n (if n ∈ qpoasesEnums then .enum (ints n) else if n ∈ qpoasesInts then .scalar (.int (ints n)) else realVal (reals n)) r)
    .nil

theorem names_options (ints : String → ℤ) (reals : String → ℚ) (l : List String) : names (optionsOf ints reals l) = l := by
  induction l with
  | nil => rfl
  | cons n l ih => exact congrArg (n :: ·) ih

theorem distinct_options (ints : String → ℤ) (reals : String → ℚ) {l : List String} (h : l.Nodup) :
    Distinct (optionsOf ints reals l) := by
  induction l with
  | nil => trivial
  | cons n l ih =>
    rw [List.nodup_cons] at h
    exact ⟨by rw [← optionsOf, names_options]; exact h.1, ih h.2⟩

theorem class_options (i i' : String → ℤ) (r r' : String → ℚ) (l : List String) :
    SameClass (optionsOf i r l) (optionsOf i' r' l) := by
  induction l with
  | nil => trivial
  | cons n l ih =>
    refine ⟨rfl, ?_, ih⟩
    split_ifs <;> simp [SameType, Scalar.type, realVal]

theorem values_options (i : String → ℤ) (r : String → ℚ) (l : List String) :
    AllValues WellTyped (optionsOf i r l) ∧ AllValues NoMatrix (optionsOf i r l) := by
  induction l with
  | nil => exact ⟨trivial, trivial⟩
  | cons n l ih =>
    refine ⟨⟨?_, ih.1⟩, ?_, ih.2⟩ <;> split_ifs <;> trivial

theorem qpoasesOptions_eq (i : String → ℤ) (r : String → ℚ) : qpoasesOptions i r = optionsOf i r qpoasesOptionNames := rfl

end Humoto.Config
