import Verif.Spec.LogText
import Verif.Lemmas.LogName

namespace Humoto.LogText

open LogName LogName.Spec Spec

/-! ## Cutting of text -/

theorem cut_ne_nil (c : Char) (s : Str) : cut c s ≠ [] := by
  cases s with
  | nil => simp [cut]
  | cons x t =>
    unfold cut
    split_ifs
    · simp
    · split <;> simp

theorem cut_none {c : Char} {s : Str} (h : c ∉ s) : cut c s = [s] := by
  induction s with
  | nil => rfl
  | cons x t ih =>
    have hx : x ≠ c := fun e => h (by simp [e])
    unfold cut
    rw [if_neg hx, ih fun ht => h (by simp [ht])]

theorem cut_sep (c : Char) (a b : Str) : cut c (a ++ c :: b) = cut c a ++ cut c b := by
  induction a with
  | nil => simp [cut]
  | cons x t ih =>
    by_cases hx : x = c
    · simp [cut, hx, ih]
    · simp only [List.cons_append, cut, if_neg hx, ih]
      obtain ⟨h, r, e⟩ := List.exists_cons_of_ne_nil (cut_ne_nil c t)
      rw [e]
      rfl

theorem cut_append {c : Char} {a t : Str} (h : c ∉ t) :
    ∃ l x, cut c a = l ++ [x] ∧ cut c (a ++ t) = l ++ [x ++ t] := by
  induction a with
  | nil => exact ⟨[], [], by simp [cut], by simp [cut_none h]⟩
  | cons y a ih =>
    obtain ⟨l, x, e1, e2⟩ := ih
    by_cases hy : y = c
    · exact ⟨[] :: l, x, by simp [cut, hy, e1], by simp [cut, hy, e2]⟩
    · cases l with
      | nil => exact ⟨[], y :: x, by simp [cut, hy, e1], by simp [cut, hy, e2]⟩
      | cons z l => exact ⟨(y :: z) :: l, x, by simp [cut, hy, e1], by simp [cut, hy, e2]⟩

/-! ## Numbers and names -/

theorem digitChar_value {d : ℕ} (h : d < 10) : (Nat.digitChar d).toNat - '0'.toNat = d ∧ '0' ≤ Nat.digitChar d ∧ Nat.digitChar d ≤ '9' := by
  interval_cases d <;> decide

theorem decimal_ne_nil (n : ℕ) : decimal n ≠ [] := by
  by_cases h : n = 0
  · subst h; simp [decimal]
  · rw [decimal_pos h]
    have := (Nat.digits_ne_nil_iff_ne_zero (b := 10)).2 h
    simpa only [ne_eq, List.reverse_eq_nil_iff, List.map_eq_nil_iff] using this

theorem decimal_digits (n : ℕ) : ∀ c ∈ decimal n, '0' ≤ c ∧ c ≤ '9' := by
  intro c hc
  by_cases hn : n = 0
  · subst hn
    rw [decimal_zero, List.mem_singleton] at hc
    subst hc
    decide
  · rw [decimal_pos hn, List.mem_reverse, List.mem_map] at hc
    obtain ⟨x, hx, rfl⟩ := hc
    exact (digitChar_value (digits_lt n x hx)).2

theorem readNat_decimal (n : ℕ) : readNat (decimal n) = some n := by
  rw [readNat, if_pos ⟨decimal_ne_nil n, decimal_digits n⟩]
  congr 1
  by_cases hn : n = 0
  · subst hn; decide
  · rw [decimal_pos hn, List.reverse_reverse, List.map_map]
    have : (Nat.digits 10 n).map ((fun c : Char => c.toNat - '0'.toNat) ∘ Nat.digitChar) = Nat.digits 10 n := by
      conv_rhs => rw [← List.map_id (Nat.digits 10 n)]
      exact List.map_congr_left fun d hd => (digitChar_value (digits_lt n d hd)).1
    rw [this, Nat.ofDigits_digits]

theorem readIndex_decimal {i : ℕ} (h : i + 1 < 2 ^ 64) : readIndex (decimal ((i + 1) % 2 ^ 64) ++ ['}']) = some (.index i) := by
  rw [Nat.mod_eq_of_lt h, readIndex, if_pos (by simp), List.dropLast_concat, readNat_decimal]

theorem entryName_append (p : Path) (c : Component) : entryName (p ++ [c]) = add (entryName p) c := by
  simp [entryName]

theorem entryName_ne_nil {p : Path} (hp : p ≠ []) (h : ∀ c ∈ p, Good c) : entryName p ≠ [] := by
  induction p using List.reverseRecOn with
  | nil => exact (hp rfl).elim
  | append_singleton p c _ =>
    rw [entryName_append]
    have hc := h c (by simp)
    cases c with
    | name s =>
      simp only [add, appendName]
      have : s ≠ [] := hc.1
      split_ifs <;> simp [this]
    | index i => simp [add, appendIndex]

theorem mapM_append_some {α β : Type} (f : α → Option β) (a b : List α) :
    (a ++ b).mapM f = (a.mapM f).bind fun x => (b.mapM f).map fun y => x ++ y := by
  induction a with
  | nil => simp
  | cons x a ih =>
    simp only [List.cons_append, List.mapM_cons, ih]
    cases f x with
    | none => rfl
    | some y => cases h : a.mapM f <;> cases h' : b.mapM f <;> simp [h, h']

/-- A name which is added becomes a new member. -/
theorem readName_name {e s : Str} (he : e ≠ []) (hs : Good (.name s)) {p : Path} (h : readName e = some p) :
    readName (add e (.name s)) = some (p ++ [.name s]) := by
  have e1 : add e (.name s) = e ++ '.' :: s := by
    have h1 : 0 < e.length := List.length_pos_iff.2 he
    have h2 : 0 < s.length := List.length_pos_iff.2 hs.1
    simp [add, appendName, h1, h2]
  have e2 : readSegment s = some [.name s] := by simp [readSegment, cut_none hs.2.2.1, hs.1]
  rw [readName] at h ⊢
  rw [e1, cut_sep, mapM_append_some, cut_none hs.2.1]
  obtain ⟨l, hl, rfl⟩ := Option.map_eq_some_iff.1 h
  simp [hl, e2]

/-- An index which is added becomes a new index. -/
theorem readName_index {e : Str} {i : ℕ} (hi : Good (.index i)) {p : Path} (h : readName e = some p) :
    readName (add e (.index i)) = some (p ++ [.index i]) := by
  have hd := @decimal_chars ((i + 1) % 2 ^ 64)
  have ht : '.' ∉ '{' :: (decimal ((i + 1) % 2 ^ 64) ++ ['}']) := by
    intro hm
    simp only [List.mem_cons, List.mem_append, List.not_mem_nil, or_false] at hm
    rcases hm with h | h | h
    · exact absurd h (by decide)
    · exact (hd _ h).1 rfl
    · exact absurd h (by decide)
  have hb : '{' ∉ decimal ((i + 1) % 2 ^ 64) ++ ['}'] := by
    intro hm
    simp only [List.mem_append, List.mem_cons, List.not_mem_nil, or_false] at hm
    rcases hm with h | h
    · exact (hd _ h).2.1 rfl
    · exact absurd h (by decide)
  have e1 : add e (.index i) = e ++ '{' :: (decimal ((i + 1) % 2 ^ 64) ++ ['}']) := by simp [add, appendIndex]
  obtain ⟨l, x, c1, c2⟩ := cut_append (a := e) ht
  rw [readName, c1] at h
  rw [readName, e1, c2, mapM_append_some]
  rw [mapM_append_some] at h
  obtain ⟨q, hq, rfl⟩ := Option.map_eq_some_iff.1 h
  cases hl : l.mapM readSegment with
  | none => simp [hl] at hq
  | some y =>
    rw [hl] at hq
    simp only [Option.bind_some, List.mapM_cons, List.mapM_nil, Option.pure_def, Option.bind_eq_bind] at hq
    cases hx : readSegment x with
    | none => simp [hx] at hq
    | some z =>
      rw [hx] at hq
      have hq : y ++ [z] = q := by simpa using hq
      subst hq
      have hseg : readSegment (x ++ '{' :: (decimal ((i + 1) % 2 ^ 64) ++ ['}'])) = some (z ++ [.index i]) := by
        rw [readSegment] at hx ⊢
        rw [cut_sep, cut_none hb]
        obtain ⟨a, r, ea⟩ := List.exists_cons_of_ne_nil (cut_ne_nil '{' x)
        rw [ea] at hx ⊢
        simp only [List.cons_append] at hx ⊢
        obtain ⟨w, hw, rfl⟩ := Option.map_eq_some_iff.1 hx
        rw [mapM_append_some, hw]
        simp only [Option.bind_some, List.mapM_cons, List.mapM_nil, readIndex_decimal hi]
        by_cases ha : a = [] <;> simp [ha]
      simp only [Option.bind_some, List.mapM_cons, List.mapM_nil, hseg]
      simp

/-- Names of entries are read correctly. -/
theorem readName_entryName {p : Path} (h : ∀ c ∈ p, Good c) : readName (entryName p) = some p := by
  induction p using List.reverseRecOn with
  | nil => rfl
  | append_singleton p c ih =>
    have hp := ih fun d hd => h d (by simp [hd])
    have hc := h c (by simp)
    rw [entryName_append]
    cases c with
    | name s =>
      by_cases he : p = []
      · subst he
        have e2 : readSegment s = some [.name s] := by simp [readSegment, cut_none hc.2.2.1, hc.1]
        simp [entryName, add, appendName, readName, cut_none hc.2.1, e2]
      · exact readName_name (entryName_ne_nil he fun d hd => h d (by simp [hd])) hc hp
    | index i => exact readName_index hc hp

theorem decimal_no_space (n : ℕ) : ' ' ∉ decimal n := fun h => absurd (decimal_digits n _ h).1 (by decide)

theorem entryName_no_space {p : Path} (h : ∀ c ∈ p, Good c) : ' ' ∉ entryName p := by
  induction p using List.reverseRecOn with
  | nil => simp [entryName]
  | append_singleton p c ih =>
    have hp := ih fun d hd => h d (by simp [hd])
    have hc := h c (by simp)
    rw [entryName_append]
    cases c with
    | name s =>
      have hs : ' ' ∉ s := hc.2.2.2.2
      simp only [add, appendName]
      split_ifs <;> simp [hp, hs]
    | index i => simp [add, appendIndex, hp, decimal_no_space]

/-! ## Values -/

theorem after_append (a s : Str) : after a (a ++ s) = some s := by
  induction a with
  | nil => rfl
  | cons x a ih => simp [after, ih]

theorem takeWhile_sep {c : Char} {a r : Str} (h : c ∉ a) :
    (a ++ c :: r).takeWhile (· ≠ c) = a ∧ (a ++ c :: r).dropWhile (· ≠ c) = c :: r := by
  induction a with
  | nil => simp
  | cons x a ih =>
    have hx : x ≠ c := fun e => h (by simp [e])
    obtain ⟨i1, i2⟩ := ih fun ha => h (by simp [ha])
    constructor
    · rw [List.cons_append, List.takeWhile_cons_of_pos (by simpa using hx), i1]
    · rw [List.cons_append, List.dropWhile_cons_of_pos (by simpa using hx), i2]

/-- Texts with a separator between them. -/
def join (c : Char) : List Str → Str
  | [] => []
  | x :: l => x ++ (if l.length ≠ 0 then [c] else []) ++ join c l

theorem cut_join {c : Char} {l : List Str} (hl : l ≠ []) (h : ∀ s ∈ l, c ∉ s) : cut c (join c l) = l := by
  induction l with
  | nil => exact (hl rfl).elim
  | cons x l ih =>
    have hx := h x (by simp)
    cases l with
    | nil => simp [join, cut_none hx]
    | cons y l =>
      have := ih (by simp) fun s hs => h s (List.mem_cons_of_mem _ hs)
      rw [join, if_pos (by simp), List.append_assoc, List.singleton_append, cut_sep, cut_none hx, this]
      rfl

/-- Spaces and ends of lines are dropped. -/
def solid (s : Str) : Str := s.filter fun c => c ≠ ' ' ∧ c ≠ '\n'

theorem solid_append (a b : Str) : solid (a ++ b) = solid a ++ solid b := by simp [solid]

theorem solid_token {s : Str} (h : Token s) : solid s = s := by
  rw [solid, List.filter_eq_self]
  intro c hc
  have := h.2 c hc
  simp [this.1, this.2.2.2.2.2.2]

theorem solid_padded {w : ℕ} {s : Str} (h : Token s) : solid (padded w s) = s := by
  rw [padded, solid_append, solid_token h]
  have : solid (List.replicate (w - s.length) ' ') = [] := by
    rw [solid, List.filter_eq_nil_iff]
    intro c hc
    simp [List.eq_of_mem_replicate hc]
  rw [this, List.nil_append]

theorem solid_rowText {w : ℕ} {l : List Str} (h : ∀ s ∈ l, Token s) : solid (rowText w l) = join ',' l := by
  induction l with
  | nil => rfl
  | cons x l ih =>
    rw [rowText, join, solid_append, solid_append, solid_padded (h x (by simp)), ih fun s hs => h s (by simp [hs])]
    congr 2
    split_ifs
    · decide
    · rfl

theorem solid_rowsText {w : ℕ} {r : List (List Str)} (h : ∀ l ∈ r, ∀ s ∈ l, Token s) :
    solid (rowsText w r) = join ';' (r.map (join ',')) := by
  induction r with
  | nil => rfl
  | cons l r ih =>
    rw [rowsText, List.map_cons, join, solid_append, solid_append, solid_rowText (h l (by simp)),
      ih fun s hs => h s (by simp [hs]), List.length_map]
    congr 2
    split_ifs
    · decide
    · rfl

theorem join_ne_nil {c : Char} {l : List Str} (hl : l ≠ []) (h : ∀ s ∈ l, s ≠ []) : join c l ≠ [] := by
  obtain ⟨x, r, rfl⟩ := List.exists_cons_of_ne_nil hl
  simp [join, h x (by simp)]

theorem join_mem {c d : Char} {l : List Str} (h : d ∈ join c l) : d = c ∨ ∃ s ∈ l, d ∈ s := by
  induction l with
  | nil => simp [join] at h
  | cons x l ih =>
    rw [join, List.mem_append, List.mem_append] at h
    rcases h with (h | h) | h
    · exact .inr ⟨x, by simp, h⟩
    · split_ifs at h
      · left; simpa using h
      · simp at h
    · rcases ih h with h | ⟨s, hs, h⟩
      · exact .inl h
      · exact .inr ⟨s, by simp [hs], h⟩

theorem readRows_solid (s : Str) : readRows s = if solid s = [] then [] else (cut ';' (solid s)).map (cut ',') := rfl

theorem readRows_rows {w : ℕ} {r : List (List Str)} (h : ∀ l ∈ r, ∀ s ∈ l, Token s) (hr : r ≠ []) (hl : ∀ l ∈ r, l ≠ []) :
    readRows (rowsText w r) = r := by
  rw [readRows_solid, solid_rowsText h]
  have h1 : ∀ l ∈ r, join ',' l ≠ [] := fun l hm => join_ne_nil (hl l hm) fun s hs => (h l hm s hs).1
  rw [if_neg (join_ne_nil (by simpa using hr) (by simpa using h1)), cut_join (by simpa using hr), List.map_map]
  · conv_rhs => rw [← List.map_id r]
    refine List.map_congr_left fun l hm => ?_
    exact cut_join (hl l hm) fun s hs hc => ((h l hm s hs).2 _ hc).2.2.1 rfl
  · simp only [List.mem_map, forall_exists_index, and_imp, forall_apply_eq_imp_iff₂]
    intro l hm hc
    rcases join_mem hc with h' | ⟨s, hs, h'⟩
    · exact absurd h' (by decide)
    · exact ((h l hm s hs).2 _ h').2.1 rfl

theorem vectorElements_join (l : List Str) : vectorElements l = join ';' l := by
  induction l with
  | nil => rfl
  | cons x l ih => rw [vectorElements, join, ih]

theorem solid_join {l : List Str} (h : ∀ s ∈ l, Token s) : solid (join ';' l) = join ';' l := by
  rw [solid, List.filter_eq_self]
  intro c hc
  rcases join_mem hc with rfl | ⟨s, hs, hc⟩
  · decide
  · have := (h s hs).2 c hc
    simp [this.1, this.2.2.2.2.2.2]

theorem readRows_vector {l : List Str} (h : ∀ s ∈ l, Token s) : readRows (vectorElements l) = l.map fun s => [s] := by
  rw [vectorElements_join, readRows_solid, solid_join h]
  by_cases hl : l = []
  · subst hl; simp [join]
  · rw [if_neg (join_ne_nil hl fun s hs => (h s hs).1), cut_join hl fun s hs hc => ((h s hs).2 _ hc).2.1 rfl]
    exact List.map_congr_left fun s hs => cut_none fun hc => ((h s hs).2 _ hc).2.2.1 rfl

theorem not_mem_vector {l : List Str} (h : ∀ s ∈ l, Token s) : ']' ∉ vectorElements l := by
  rw [vectorElements_join]
  intro hc
  rcases join_mem hc with h' | ⟨s, hs, hc⟩
  · exact absurd h' (by decide)
  · exact ((h s hs).2 _ hc).2.2.2.2.1 rfl

theorem not_mem_row {w : ℕ} {l : List Str} (h : ∀ s ∈ l, Token s) : ']' ∉ rowText w l := by
  induction l with
  | nil => simp [rowText]
  | cons x l ih =>
    have hx : ']' ∉ x := fun hc => ((h x (by simp)).2 _ hc).2.2.2.2.1 rfl
    have := ih fun s hs => h s (by simp [hs])
    simp only [rowText, padded, List.mem_append, not_or]
    refine ⟨⟨⟨fun hc => absurd (List.eq_of_mem_replicate hc) (by decide), hx⟩, ?_⟩, this⟩
    split_ifs <;> simp

theorem not_mem_rows {w : ℕ} {r : List (List Str)} (h : ∀ l ∈ r, ∀ s ∈ l, Token s) : ']' ∉ rowsText w r := by
  induction r with
  | nil => simp [rowsText]
  | cons l r ih =>
    simp only [rowsText, List.mem_append, not_or]
    refine ⟨⟨not_mem_row (h l (by simp)), ?_⟩, ih fun s hs => h s (by simp [hs])⟩
    split_ifs <;> simp

/-- The text after the name. -/
def valueText : Value → Str
  | .data s => s
  | .text s => ['\''] ++ s ++ ['\'']
  | .vector l => ['['] ++ vectorElements l ++ [']']
  | .matrix r => ['.', '.', '.', '\n'] ++ (if r.flatten.length = 0 then ['[', ']'] else ['['] ++ rowsText (width r) r ++ [']'])

theorem write_eq (e : Entry) : e.write = e.name ++ [' ', '=', ' '] ++ valueText e.value ++ [';', '\n'] := by
  obtain ⟨n, v⟩ := e
  cases v with
  | data s => simp [Entry.write, formatData, valueText]
  | text s => simp [Entry.write, formatString, valueText]
  | vector l => simp [Entry.write, formatVector, valueText]
  | matrix r =>
    simp only [Entry.write, formatMatrix, matrixText, valueText]
    split_ifs <;> simp

theorem after_dots_none {s r : Str} (h : s.head? ≠ some '.' ∨ '\n' ∉ s) : after ['.', '.', '.', '\n'] (s ++ ';' :: r) = none := by
  rcases s with _ | ⟨a, _ | ⟨b, _ | ⟨c, _ | ⟨d, s⟩⟩⟩⟩
  · simp [after]
  · simp [after]
  · simp [after]
  · simp [after]
  · simp only [List.cons_append, after]
    by_cases h1 : '.' = a
    · by_cases h2 : '.' = b
      · by_cases h3 : '.' = c
        · by_cases h4 : '\n' = d
          · subst h1 h4
            rcases h with h | h
            · exact (h rfl).elim
            · simp at h
          · simp [h4]
        · simp [h3]
      · simp [h2]
    · simp [h1]

theorem readValue_text {v : Value} (h : Legible v) (r : Str) :
    readValue (valueText v ++ ';' :: r) = some (meaning v, ';' :: r) := by
  cases v with
  | data s =>
    have hn : '\n' ∉ s := fun hc => (h.2 _ hc).2.2.2.2.2.2 rfl
    have hs : ';' ∉ s := fun hc => (h.2 _ hc).2.1 rfl
    obtain ⟨t1, t2⟩ := takeWhile_sep (r := r) hs
    simp only [readValue, valueText, after_dots_none (.inr hn), Option.getD_none]
    obtain ⟨x, s, rfl⟩ := List.exists_cons_of_ne_nil h.1
    have hx := h.2 x (by simp)
    split
    · rename_i t e
      simp only [List.cons_append, List.cons.injEq] at e
      exact (hx.2.2.2.2.2.1 e.1).elim
    · rename_i t e
      simp only [List.cons_append, List.cons.injEq] at e
      exact (hx.2.2.2.1 e.1).elim
    · rw [t1, t2]; rfl
  | text s =>
    have e : valueText (.text s) ++ ';' :: r = '\'' :: (s ++ '\'' :: ';' :: r) := by simp [valueText]
    obtain ⟨t1, t2⟩ := takeWhile_sep (r := ';' :: r) (show '\'' ∉ s from h)
    have e0 : after ['.', '.', '.', '\n'] ('\'' :: (s ++ '\'' :: ';' :: r)) = none := rfl
    rw [e]
    simp only [readValue, e0, Option.getD_none, t1, t2]
    rfl
  | vector l =>
    have e : valueText (.vector l) ++ ';' :: r = '[' :: (vectorElements l ++ ']' :: ';' :: r) := by simp [valueText]
    obtain ⟨t1, t2⟩ := takeWhile_sep (r := ';' :: r) (not_mem_vector h)
    have e0 : after ['.', '.', '.', '\n'] ('[' :: (vectorElements l ++ ']' :: ';' :: r)) = none := rfl
    rw [e]
    simp only [readValue, e0, Option.getD_none, t1, t2, readRows_vector h]
    rfl
  | matrix m =>
    obtain ⟨h, n, hn⟩ := h
    by_cases hm : m.flatten = []
    · have e : valueText (.matrix m) ++ ';' :: r = ['.', '.', '.', '\n'] ++ '[' :: ([] ++ ']' :: ';' :: r) := by simp [valueText, hm]
      rw [e]
      simp only [readValue, after_append, Option.getD_some, meaning, hm, if_true]
      rfl
    · have e : valueText (.matrix m) ++ ';' :: r = ['.', '.', '.', '\n'] ++ '[' :: (rowsText (width m) m ++ ']' :: ';' :: r) := by
        simp only [valueText, List.length_eq_zero_iff, hm, if_false]
        simp
      obtain ⟨t1, t2⟩ := takeWhile_sep (r := ';' :: r) (not_mem_rows (w := width m) h)
      have h1 : m ≠ [] := by rintro rfl; simp at hm
      have h2 : ∀ l ∈ m, l ≠ [] := by
        rintro l hl rfl
        have h0 : n = 0 := (hn [] hl).symm
        refine hm (List.flatten_eq_nil_iff.2 fun x hx => ?_)
        have := hn x hx
        rw [h0] at this
        exact List.length_eq_zero_iff.1 this
      rw [e]
      simp only [readValue, after_append, Option.getD_some, t1, t2, readRows_rows h h1 h2, meaning, hm, if_false]
      rfl

/-! ## Statements -/

/-- The entry says that the value is in the place. -/
def Says (e : Entry) (x : Path × Val) : Prop :=
  e.name = entryName x.1 ∧ x.1 ≠ [] ∧ (∀ c ∈ x.1, Good c) ∧ Legible e.value ∧ meaning e.value = x.2

theorem readStatement_write {e : Entry} {x : Path × Val} (h : Says e x) (r : Str) :
    readStatement (e.write ++ r) = some (x, r) := by
  obtain ⟨h1, -, h3, h4, h5⟩ := h
  have e1 : e.write ++ r = e.name ++ ' ' :: (['=', ' '] ++ (valueText e.value ++ ';' :: '\n' :: r)) := by
    rw [write_eq]; simp
  have hs : ' ' ∉ e.name := by rw [h1]; exact entryName_no_space h3
  obtain ⟨t1, t2⟩ := takeWhile_sep (r := ['=', ' '] ++ (valueText e.value ++ ';' :: '\n' :: r)) hs
  have e2 : after [' ', '=', ' '] (' ' :: (['=', ' '] ++ (valueText e.value ++ ';' :: '\n' :: r)))
      = some (valueText e.value ++ ';' :: '\n' :: r) := after_append [' ', '=', ' '] _
  have e3 : after [';', '\n'] (';' :: '\n' :: r) = some r := rfl
  rw [readStatement, e1, t1, t2, h1, readName_entryName h3, e2]
  simp only [Option.bind_eq_bind, Option.bind_some, readValue_text h4, e3, Option.pure_def, h5]

theorem write_ne_nil (e : Entry) : e.write ≠ [] := by rw [write_eq]; simp

theorem readStatements_write {l : List Entry} {C : List (Path × Val)} (h : List.Forall₂ Says l C) :
    ∀ n, l.length ≤ n → readStatements n (write l) = some C := by
  induction h with
  | nil => intro n _; cases n <;> simp [write, readStatements]
  | @cons e x l C h _ ih =>
    intro n hn
    cases n with
    | zero => simp at hn
    | succ n =>
      have e1 : write (e :: l) = e.write ++ write l := by simp [write]
      obtain ⟨c, t, et⟩ := List.exists_cons_of_ne_nil (write_ne_nil e)
      have e2 : readStatements (n + 1) (write (e :: l)) = (readStatement (write (e :: l))).bind fun x =>
          (readStatements n x.2).bind fun l => some (x.1 :: l) := by
        rw [e1, et]; rfl
      rw [e2, e1, readStatement_write h]
      simp [ih n (by simpa using hn)]

theorem length_le_write (l : List Entry) : l.length ≤ (write l).length := by
  induction l with
  | nil => simp
  | cons e l ih =>
    have : 0 < e.write.length := List.length_pos_iff.2 (write_ne_nil e)
    simp only [write, List.flatMap_cons, List.length_append, List.length_cons] at ih ⊢
    omega

theorem read_write {l : List Entry} {C : List (Path × Val)} (h : List.Forall₂ Says l C) : read (write l) = some C :=
  readStatements_write h _ (length_le_write l)

/-! ## Assignments -/

theorem run_independent {C env : List (Path × Val)} (h : C.Pairwise fun x y => Independent x.1 y.1)
    (he : ∀ x ∈ env, ∀ y ∈ C, Independent x.1 y.1) : run env C = some (C.reverse ++ env) := by
  induction C generalizing env with
  | nil => simp [run]
  | cons x C ih =>
    obtain ⟨h1, h2⟩ := List.pairwise_cons.1 h
    have e1 : assign env x = some (x :: env) := by
      rw [assign, if_neg, List.filter_eq_self.2]
      · intro y hy
        simpa using (he y hy x (by simp)).2.1
      · simp only [List.any_eq_true, not_exists, not_and]
        intro y hy
        simp [(he y hy x (by simp)).2.2.1]
    rw [run, e1, Option.bind_some, ih h2]
    · simp
    · intro y hy z hz
      rcases List.mem_cons.1 hy with rfl | hy
      · exact h1 z hz
      · exact he y hy z (by simp [hz])

theorem lookup_of_mem {C : List (Path × Val)} (h : C.Pairwise fun x y => x.1 ≠ y.1) {x : Path × Val} (hx : x ∈ C) :
    lookup C x.1 = some x.2 := by
  induction C with
  | nil => simp at hx
  | cons y C ih =>
    obtain ⟨h1, h2⟩ := List.pairwise_cons.1 h
    rcases List.mem_cons.1 hx with rfl | hx
    · rw [lookup, List.lookup_cons, beq_self_eq_true]
    · have := h1 x hx
      have hb : (x.1 == y.1) = false := by simpa using fun e => this e.symm
      rw [lookup, List.lookup_cons, hb]
      exact ih h2 hx

theorem independent_symm {p q : Path} (h : Independent p q) : Independent q p := ⟨h.2.1, h.1, h.2.2.2, h.2.2.1⟩

theorem independent_ne {p q : Path} (h : Independent p q) : p ≠ q := by
  rintro rfl
  exact h.1 (List.prefix_refl _)

theorem independent_cons {p q : Path} (h : Independent p q) (c : Component) : Independent (c :: p) (c :: q) := by
  obtain ⟨h1, h2, h3, h4⟩ := h
  refine ⟨?_, ?_, ?_, ?_⟩
  · simpa [List.cons_prefix_cons] using h1
  · simpa [List.cons_prefix_cons] using h2
  · simpa [blocks] using h3
  · simpa [blocks] using h4

theorem independent_cons_ne {p q : Path} {c d : Component} (h : c ≠ d) (hk : differentKinds c d = false) :
    Independent (c :: p) (d :: q) := by
  have hk' : differentKinds d c = false := by cases c <;> cases d <;> simp_all [differentKinds]
  refine ⟨?_, ?_, ?_, ?_⟩
  · simp [List.cons_prefix_cons, h]
  · simp [List.cons_prefix_cons, Ne.symm h]
  · simp [blocks, h, hk]
  · simp [blocks, Ne.symm h, hk']

theorem independent_append {p q : Path} (h : Independent p q) (r : Path) : Independent (r ++ p) (r ++ q) := by
  induction r with
  | nil => exact h
  | cons c r ih => exact independent_cons ih c

/-- No place depends on another one. -/
def Clear (C : Contents) : Prop := C.Pairwise fun x y => Independent x.1 y.1

theorem clear_leaf (v : Val) : Clear (leaf v) := by simp [Clear, leaf]

theorem Clear.at {C : Contents} (h : Clear C) (c : Component) : Clear (C.at c) := by
  rw [Clear, Contents.at, List.pairwise_map]
  exact h.imp fun h => independent_cons h c

theorem Clear.inside {C : Contents} (h : Clear C) (p : Path) : Clear (inside p C) := by
  rw [Clear, Spec.inside, List.pairwise_map]
  exact h.imp fun h => independent_append h p

theorem mem_at {C : Contents} {c : Component} {x : Path × Val} (h : x ∈ C.at c) : ∃ q, x.1 = c :: q := by
  simp only [Contents.at, List.mem_map] at h
  obtain ⟨y, -, rfl⟩ := h
  exact ⟨_, rfl⟩

theorem clear_fields {l : List (String × Contents)} (hn : (l.map Prod.fst).Nodup) (h : ∀ x ∈ l, Clear x.2) : Clear (fields l) := by
  induction l with
  | nil => simp [Clear, fields]
  | cons a l ih =>
    simp only [List.map_cons, List.nodup_cons] at hn
    have := ih hn.2 fun x hx => h x (by simp [hx])
    rw [Clear, fields, List.flatMap_cons, List.pairwise_append]
    refine ⟨(h a (by simp)).at _, this, fun x hx y hy => ?_⟩
    obtain ⟨p, ep⟩ := mem_at hx
    simp only [List.mem_flatMap] at hy
    obtain ⟨b, hb, hy⟩ := hy
    obtain ⟨q, eq⟩ := mem_at hy
    rw [ep, eq]
    refine independent_cons_ne (fun e => ?_) rfl
    injection e with e
    exact hn.1 (List.mem_map.2 ⟨b, hb, (String.toList_inj.1 e).symm⟩)

theorem clear_zipIdx {l : List Contents} (h : ∀ x ∈ l, Clear x) (n : ℕ) :
    Clear ((l.zipIdx n).flatMap fun x => Contents.at (.index x.2) x.1) ∧
      ∀ y ∈ (l.zipIdx n).flatMap (fun x => Contents.at (.index x.2) x.1), ∃ i q, n ≤ i ∧ y.1 = .index i :: q := by
  induction l generalizing n with
  | nil => simp [Clear]
  | cons a l ih =>
    obtain ⟨i1, i2⟩ := ih (fun x hx => h x (by simp [hx])) (n + 1)
    simp only [List.zipIdx_cons, List.flatMap_cons]
    constructor
    · rw [Clear, List.pairwise_append]
      refine ⟨(h a (by simp)).at _, i1, fun x hx y hy => ?_⟩
      obtain ⟨p, ep⟩ := mem_at hx
      obtain ⟨i, q, hi, eq⟩ := i2 y hy
      rw [ep, eq]
      refine independent_cons_ne (fun e => ?_) rfl
      injection e with e
      omega
    · intro y hy
      rcases List.mem_append.1 hy with hy | hy
      · obtain ⟨p, ep⟩ := mem_at hy
        exact ⟨n, p, le_refl _, ep⟩
      · obtain ⟨i, q, hi, eq⟩ := i2 y hy
        exact ⟨i, q, by omega, eq⟩

theorem clear_cells {l : List Contents} (h : ∀ x ∈ l, Clear x) : Clear (cells l) := (clear_zipIdx h 0).1

theorem mem_of_lookup {C : List (Path × Val)} {q : Path} {v : Val} (h : lookup C q = some v) : (q, v) ∈ C := by
  induction C with
  | nil => simp [lookup] at h
  | cons y C ih =>
    obtain ⟨a, b⟩ := y
    rw [lookup, List.lookup_cons] at h
    by_cases he : q = a
    · subst he
      simp only [beq_self_eq_true] at h
      simp only [Option.some.injEq] at h
      simp [h]
    · rw [beq_eq_false_iff_ne.2 he] at h
      exact List.mem_cons_of_mem _ (ih h)

theorem Clear.perm {C D : Contents} (h : Clear C) (hp : D.Perm C) : Clear D := (hp.pairwise_iff fun h => independent_symm h).2 h

/-- Everything is found where it belongs. -/
theorem load_write {l : List Entry} {C D : Contents} (h : List.Forall₂ Says l D) (hp : D.Perm C) (hc : Clear C) :
    ∃ env, load (write l) = some env ∧ Exactly env C := by
  have hd := hc.perm hp
  refine ⟨D.reverse, ?_, fun x hx => ?_, fun p v hv => ?_⟩
  · rw [load, read_write h, Option.bind_some, run_independent hd (by simp)]
    simp
  · refine lookup_of_mem ?_ (List.mem_reverse.2 (hp.mem_iff.2 hx))
    rw [List.pairwise_reverse]
    exact hd.imp fun h => independent_ne (independent_symm h)
  · exact hp.mem_iff.1 (List.mem_reverse.1 (mem_of_lookup hv))

end Humoto.LogText
