import Verif.Spec.LogName
import Mathlib.Data.Nat.Digits.Lemmas
import Mathlib.Tactic.IntervalCases

namespace Humoto.LogName

open Spec

/-- Decomposition of a text at the first separator. -/
theorem split_unique {P : Char → Prop} {a b r s : Str} (h : a ++ r = b ++ s) (ha : ∀ c ∈ a, ¬ P c) (hb : ∀ c ∈ b, ¬ P c)
    (hr : ∀ c t, r = c :: t → P c) (hs : ∀ c t, s = c :: t → P c) : a = b ∧ r = s := by
  induction a generalizing b with
  | nil =>
    cases b with
    | nil => exact ⟨rfl, h⟩
    | cons d b => exact (hb d (by simp) (hr d (b ++ s) h)).elim
  | cons c a ih =>
    cases b with
    | nil => exact (ha c (by simp) (hs c (a ++ r) h.symm)).elim
    | cons d b =>
      simp only [List.cons_append, List.cons.injEq] at h
      obtain ⟨rfl, h⟩ := h
      obtain ⟨rfl, e⟩ := ih h (fun x hx => ha x (by simp [hx])) (fun x hx => hb x (by simp [hx]))
      exact ⟨rfl, e⟩

theorem digitChar_inj {m n : ℕ} (hm : m < 10) (hn : n < 10) (h : Nat.digitChar m = Nat.digitChar n) : m = n := by
  interval_cases m <;> interval_cases n <;> first | rfl | (exact absurd h (by decide))

theorem digitChar_ne {m : ℕ} (hm : m < 10) : Nat.digitChar m ≠ '.' ∧ Nat.digitChar m ≠ '{' ∧ Nat.digitChar m ≠ '}' := by
  interval_cases m <;> decide

theorem map_digitChar_inj {a b : List ℕ} (ha : ∀ x ∈ a, x < 10) (hb : ∀ x ∈ b, x < 10)
    (h : a.map Nat.digitChar = b.map Nat.digitChar) : a = b := by
  induction a generalizing b with
  | nil => cases b <;> simp_all
  | cons x a ih =>
    cases b with
    | nil => simp at h
    | cons y b =>
      simp only [List.map_cons, List.cons.injEq] at h
      rw [digitChar_inj (ha x (by simp)) (hb y (by simp)) h.1,
        ih (fun z hz => ha z (by simp [hz])) (fun z hz => hb z (by simp [hz])) h.2]

theorem digits_lt (n : ℕ) : ∀ x ∈ Nat.digits 10 n, x < 10 := fun _ hx => Nat.digits_lt_base (by norm_num) hx

theorem decimal_zero : decimal 0 = [Nat.digitChar 0] := rfl

theorem decimal_pos {n : ℕ} (h : n ≠ 0) : decimal n = ((Nat.digits 10 n).map Nat.digitChar).reverse := by
  rw [decimal, if_neg h]

theorem decimal_inj {m n : ℕ} (h : decimal m = decimal n) : m = n := by
  have key : ∀ n, n ≠ 0 → decimal n ≠ decimal 0 := by
    intro n hn h
    rw [decimal_zero, decimal_pos hn] at h
    have h' : (Nat.digits 10 n).map Nat.digitChar = [0].map Nat.digitChar := by
      have := congrArg List.reverse h
      simpa using this
    have := map_digitChar_inj (digits_lt n) (by simp) h'
    have h0 : Nat.ofDigits 10 (Nat.digits 10 n) = 0 := by rw [this]; simp
    rw [Nat.ofDigits_digits] at h0
    exact hn h0
  by_cases hm : m = 0
  · subst hm
    by_contra hn
    exact key n (fun e => hn e.symm) h.symm
  · by_cases hn : n = 0
    · subst hn; exact (key m hm h).elim
    · rw [decimal_pos hm, decimal_pos hn, List.reverse_inj] at h
      have := map_digitChar_inj (digits_lt m) (digits_lt n) h
      exact Nat.digits_inj_iff.1 this

theorem decimal_chars {n : ℕ} : ∀ c ∈ decimal n, c ≠ '.' ∧ c ≠ '{' ∧ c ≠ '}' := by
  intro c hc
  by_cases hn : n = 0
  · subst hn
    rw [decimal_zero] at hc
    simp only [List.mem_singleton] at hc
    subst hc
    exact digitChar_ne (by norm_num)
  · rw [decimal_pos hn, List.mem_reverse, List.mem_map] at hc
    obtain ⟨x, hx, rfl⟩ := hc
    exact digitChar_ne (digits_lt n x hx)

/-- Text of a component after a non-empty name. -/
def piece : Component → Str
  | .name s => '.' :: s
  | .index i => '{' :: (decimal ((i + 1) % 2 ^ 64) ++ ['}'])

theorem add_nonempty {e : Str} (he : e ≠ []) {c : Component} (hc : Proper c) : add e c = e ++ piece c := by
  cases c with
  | name s =>
    have h1 : 0 < e.length := List.length_pos_iff.2 he
    have h2 : 0 < s.length := List.length_pos_iff.2 hc.1
    simp [add, appendName, h1, h2, piece]
  | index i => simp [add, appendIndex, piece]

theorem foldl_nonempty {e : Str} (he : e ≠ []) {l : List Component} (hl : ∀ c ∈ l, Proper c) :
    l.foldl add e = e ++ l.flatMap piece := by
  induction l generalizing e with
  | nil => simp
  | cons c l ih =>
    rw [List.foldl_cons, add_nonempty he (hl c (by simp)), ih (by simp [he]) fun d hd => hl d (by simp [hd])]
    simp

/-- A component stands in front. -/
theorem flatMap_head {l : List Component} {c : Char} {t : Str} (h : l.flatMap piece = c :: t) : c = '.' ∨ c = '{' := by
  cases l with
  | nil => simp at h
  | cons x l =>
    cases x <;> simp [piece] at h
    · exact .inl h.1.symm
    · exact .inr h.1.symm

theorem index_inj {i j : ℕ} (hi : i < 2 ^ 64) (hj : j < 2 ^ 64) (h : (i + 1) % 2 ^ 64 = (j + 1) % 2 ^ 64) : i = j := by
  omega

theorem pieces_inj {l l' : List Component} (hl : ∀ c ∈ l, Proper c) (hl' : ∀ c ∈ l', Proper c)
    (h : l.flatMap piece = l'.flatMap piece) : l = l' := by
  induction l generalizing l' with
  | nil =>
    cases l' with
    | nil => rfl
    | cons c l' => cases c <;> simp [piece] at h
  | cons c l ih =>
    cases l' with
    | nil => cases c <;> simp [piece] at h
    | cons c' l' =>
      have hc := hl c (by simp)
      have hc' := hl' c' (by simp)
      have hr := fun d hd => hl d (List.mem_cons_of_mem _ hd)
      have hr' := fun d hd => hl' d (List.mem_cons_of_mem _ hd)
      simp only [List.flatMap_cons] at h
      cases c with
      | name s =>
        cases c' with
        | name s' =>
          simp only [piece, List.cons_append, List.cons.injEq, true_and] at h
          obtain ⟨rfl, e⟩ := split_unique (P := fun c => c = '.' ∨ c = '{') h
            (fun c hm hp => by rcases hp with rfl | rfl; exacts [hc.2.1 hm, hc.2.2.1 hm])
            (fun c hm hp => by rcases hp with rfl | rfl; exacts [hc'.2.1 hm, hc'.2.2.1 hm])
            (fun c t ht => flatMap_head ht) (fun c t ht => flatMap_head ht)
          rw [ih hr hr' e]
        | index i => simp [piece] at h
      | index i =>
        cases c' with
        | name s' => simp [piece] at h
        | index j =>
          simp only [piece, List.cons_append, List.append_assoc, List.cons.injEq, true_and] at h
          obtain ⟨hd, e⟩ := split_unique (P := fun c => c = '}') h
            (fun c hm hp => (decimal_chars c hm).2.2 hp) (fun c hm hp => (decimal_chars c hm).2.2 hp)
            (fun c t ht => by simp at ht; exact ht.1.symm) (fun c t ht => by simp at ht; exact ht.1.symm)
          simp only [List.nil_append, List.cons.injEq, true_and] at e
          rw [index_inj hc hc' (decimal_inj hd), ih hr hr' e]

/-- Text of the first component. -/
def first : Component → Str
  | .name s => s
  | .index i => piece (.index i)

/-- The whole name. -/
theorem entryName_cons {c : Component} {l : List Component} (hl : ∀ d ∈ c :: l, Proper d) :
    entryName (c :: l) = first c ++ l.flatMap piece := by
  have hc := hl c (by simp)
  have hr := fun d hd => hl d (List.mem_cons_of_mem _ hd)
  rw [entryName, List.foldl_cons]
  cases c with
  | name s =>
    have e : add [] (.name s) = s := by simp [add, appendName]
    rw [e, foldl_nonempty hc.1 hr, first]
  | index i =>
    have e : add [] (.index i) = piece (.index i) := by simp [add, appendIndex, piece]
    rw [e, foldl_nonempty (by simp [piece]) hr, first]

theorem entryName_inj {l l' : List Component} (hl : ∀ c ∈ l, Proper c) (hl' : ∀ c ∈ l', Proper c)
    (h : entryName l = entryName l') : l = l' := by
  have hne : ∀ c (l : List Component), (∀ d ∈ c :: l, Proper d) → entryName (c :: l) ≠ [] := by
    intro c l hl e
    rw [entryName_cons hl] at e
    have hc := hl c (by simp)
    cases c with
    | name s => exact hc.1 (List.append_eq_nil_iff.1 e).1
    | index i => simp [first, piece] at e
  cases l with
  | nil =>
    cases l' with
    | nil => rfl
    | cons c' l' => exact (hne c' l' hl' h.symm).elim
  | cons c l =>
    cases l' with
    | nil => exact (hne c l hl h).elim
    | cons c' l' =>
      have hc := hl c (by simp)
      have hc' := hl' c' (by simp)
      have hr := fun d hd => hl d (List.mem_cons_of_mem _ hd)
      have hr' := fun d hd => hl' d (List.mem_cons_of_mem _ hd)
      rw [entryName_cons hl, entryName_cons hl'] at h
      cases c with
      | name s =>
        cases c' with
        | name s' =>
          simp only [first] at h
          obtain ⟨rfl, e⟩ := split_unique (P := fun c => c = '.' ∨ c = '{') h
            (fun c hm hp => by rcases hp with rfl | rfl; exacts [hc.2.1 hm, hc.2.2.1 hm])
            (fun c hm hp => by rcases hp with rfl | rfl; exacts [hc'.2.1 hm, hc'.2.2.1 hm])
            (fun c t ht => flatMap_head ht) (fun c t ht => flatMap_head ht)
          rw [pieces_inj hr hr' e]
        | index i =>
          cases s with
          | nil => exact (hc.1 rfl).elim
          | cons x s =>
            simp only [first, piece, List.cons_append, List.cons.injEq] at h
            exact (hc.2.2.1 (by simp [h.1])).elim
      | index i =>
        cases c' with
        | name s' =>
          cases s' with
          | nil => exact (hc'.1 rfl).elim
          | cons x s =>
            simp only [first, piece, List.cons_append, List.cons.injEq] at h
            exact (hc'.2.2.1 (by simp [← h.1])).elim
        | index j =>
          have : (Component.index i :: l).flatMap piece = (Component.index j :: l').flatMap piece := by
            simpa [List.flatMap_cons, first] using h
          exact pieces_inj hl hl' this

theorem entryName_dotted {l : List Str} (hl : ∀ s ∈ l, s ≠ []) : entryName (l.map .name) = dotted l := by
  have key : ∀ (l : List Str) (e : Str), e ≠ [] → (∀ s ∈ l, s ≠ []) →
      (l.map Component.name).foldl add e = ['.'].intercalate (e :: l) := by
    intro l
    induction l with
    | nil => intro e _ _; simp
    | cons s l ih =>
      intro e he hs
      have h1 : 0 < e.length := List.length_pos_iff.2 he
      have h2 : 0 < s.length := List.length_pos_iff.2 (hs s (by simp))
      have e1 : add e (.name s) = e ++ ['.'] ++ s := by simp [add, appendName, h1, h2]
      rw [List.map_cons, List.foldl_cons, e1, ih _ (by simp) fun t ht => hs t (by simp [ht])]
      cases l <;> simp [List.intercalate]
  cases l with
  | nil => rfl
  | cons s l =>
    have e : add [] (.name s) = s := by simp [add, appendName]
    rw [entryName, List.map_cons, List.foldl_cons, e, key l s (hl s (by simp)) fun t ht => hl t (by simp [ht])]
    rfl

theorem vectorElements_eq (l : List Str) : vectorElements l = semicolons l := by
  induction l with
  | nil => rfl
  | cons x l ih =>
    cases l with
    | nil => simp [vectorElements, semicolons]
    | cons y l =>
      rw [vectorElements, ih]
      simp [semicolons, List.intercalate]

end Humoto.LogName
