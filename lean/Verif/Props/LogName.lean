import Verif.Lemmas.LogName

/-!
# Properties of names in logs: C45
-/

namespace Humoto.LogName

open Spec

/-- C45: names which are added one after another are separated by dots, and nothing else is in the result. -/
theorem C45_path (l : List Str) (hl : ∀ s ∈ l, s ≠ []) : entryName (l.map .name) = dotted l :=
  entryName_dotted hl

/-- C45: empty names change nothing. -/
theorem C45_empty (e : Str) : add e (.name []) = e := by simp [add, appendName]

example : entryName (["wpg".toList, "mpc".toList, "com".toList].map .name) = "wpg.mpc.com".toList := by decide

/-- C45: different lists of names and indices give different entry names. -/
theorem C45_injective (l l' : List Component) (hl : ∀ c ∈ l, Proper c) (hl' : ∀ c ∈ l', Proper c)
    (h : entryName l = entryName l') : l = l' :=
  entryName_inj hl hl' h

example : entryName [.name "a".toList, .index 9, .name "b".toList] = "a{10}.b".toList := by decide

/-- C45: all elements of a vector are written in order, separated by semicolons. -/
theorem C45_vector (name : Str) (elements : List Str) :
    formatVector name elements = name ++ " = [".toList ++ semicolons elements ++ "];\n".toList := by
  simp [formatVector, vectorElements_eq]

/-- C45: different vectors are written differently. -/
theorem C45_vector_injective (name : Str) (a b : List Str) (ha : ∀ s ∈ a, s ≠ [] ∧ ';' ∉ s) (hb : ∀ s ∈ b, s ≠ [] ∧ ';' ∉ s)
    (h : formatVector name a = formatVector name b) : a = b := by
  rw [formatVector, formatVector] at h
  have h' : vectorElements a = vectorElements b := by simpa using h
  have key : ∀ (a b : List Str), (∀ s ∈ a, s ≠ [] ∧ ';' ∉ s) → (∀ s ∈ b, s ≠ [] ∧ ';' ∉ s) →
      vectorElements a = vectorElements b → a = b := by
    intro a
    induction a with
    | nil =>
      intro b _ hb h
      cases b with
      | nil => rfl
      | cons y b =>
        have := (hb y (by simp)).1
        simp [vectorElements, this] at h
    | cons x a ih =>
      intro b ha hb h
      cases b with
      | nil =>
        have := (ha x (by simp)).1
        simp [vectorElements, this] at h
      | cons y b =>
        have hx := ha x (by simp)
        have hy := hb y (by simp)
        have tail : ∀ l : List Str, (if l.length ≠ 0 then [';'] else []) ++ vectorElements l = [] → l = [] := by
          intro l hl
          cases l with
          | nil => rfl
          | cons z l => simp at hl
        have head : ∀ (l : List Str) c t, (if l.length ≠ 0 then [';'] else []) ++ vectorElements l = c :: t → c = ';' := by
          intro l c t hl
          cases l with
          | nil => simp [vectorElements] at hl
          | cons z l => simp at hl; exact hl.1.symm
        rw [vectorElements, vectorElements, List.append_assoc, List.append_assoc] at h
        obtain ⟨rfl, e⟩ := split_unique (P := fun c => c = ';') h
          (fun c hm hp => hx.2 (hp ▸ hm)) (fun c hm hp => hy.2 (hp ▸ hm)) (head a) (head b)
        by_cases hab : a = []
        · subst hab
          have hb' : b = [] := tail b (by simpa [vectorElements] using e.symm)
          rw [hb']
        · have hbb : b ≠ [] := fun hb' => hab (tail a (by rw [e, hb']; simp [vectorElements]))
          have e' : vectorElements a = vectorElements b := by simpa [hab, hbb] using e
          rw [ih b (fun s hs => ha s (by simp [hs])) (fun s hs => hb s (by simp [hs])) e']
  exact key a b ha hb h'

example : formatVector "v".toList ["1".toList, "-2".toList] = "v = [1;-2];\n".toList := by decide

end Humoto.LogName
