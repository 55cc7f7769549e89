import Verif.Model.ActiveSet
import Mathlib.Data.List.Basic
import Mathlib.Tactic.Ring

/-!
# C01 - C04: locations and active sets
-/

namespace Humoto

/-! ## C01 -/

/-- C01: `checkLength` on 64-bit words decides `offset + length ≤ max` over the unbounded integers; a sum which wraps
around is rejected. -/
theorem C01_checkLength_exact (offset length max : BitVec 64) :
    Location64.checkLength ⟨offset, length⟩ max = true ↔ offset.toNat + length.toNat ≤ max.toNat := by
  simp only [Location64.checkLength, Location64.fin, Bool.and_eq_true, decide_eq_true_eq, BitVec.le_def,
    BitVec.toNat_add]
  have h1 := offset.isLt
  have h2 := length.isLt
  have h3 := max.isLt
  omega

/-- C01, corollary: when the check succeeds, `end()` did not wrap and equals the mathematical end; the model on
natural numbers used elsewhere agrees with the machine words. -/
theorem C01_end_exact (offset length max : BitVec 64)
    (h : Location64.checkLength ⟨offset, length⟩ max = true) :
    (Location64.fin ⟨offset, length⟩).toNat = Location.fin ⟨offset.toNat, length.toNat⟩ ∧
    Location.checkLength ⟨offset.toNat, length.toNat⟩ max.toNat = true := by
  have h' := (C01_checkLength_exact offset length max).1 h
  refine ⟨?_, (Location.checkLength_iff _ _).2 h'⟩
  simp only [Location64.fin, Location.fin, BitVec.toNat_add]
  have h3 := max.isLt
  omega

/-- A wrapping location is rejected although its wrapped end is small. -/
example : Location64.checkLength ⟨0xFFFFFFFFFFFFFFFF#64, 2#64⟩ 10#64 = false ∧
    (Location64.fin ⟨0xFFFFFFFFFFFFFFFF#64, 2#64⟩) = 1#64 := by decide

example : Location64.checkLength ⟨3#64, 7#64⟩ 10#64 = true := by decide

/-! ## Helper lemmas about list copies -/

theorem copyInto_ok {α : Type} {buf src : List α} {off : ℕ} (h : off + src.length ≤ buf.length) :
    copyInto buf off src = .ok (buf.take off ++ src ++ buf.drop (off + src.length)) := by
  simp [copyInto, h]

theorem copyInto_ub {α : Type} {buf src : List α} {off : ℕ} (h : ¬ off + src.length ≤ buf.length) :
    copyInto buf off src = .error .ub := by
  simp [copyInto, h]

theorem copyInto_length {α : Type} {buf src r : List α} {off : ℕ} (h : copyInto buf off src = .ok r) :
    r.length = buf.length := by
  unfold copyInto at h
  split at h
  · cases h
    simp
    omega
  · cases h

theorem copyInto_get {α : Type} {buf src r : List α} {off : ℕ} (h : copyInto buf off src = .ok r) (i : ℕ) :
    r[i]? = if off ≤ i ∧ i < off + src.length then src[i - off]? else buf[i]? := by
  unfold copyInto at h
  split at h
  · rename_i hl
    cases h
    by_cases h1 : i < off
    · rw [List.append_assoc, List.getElem?_append_left (by simp; omega)]
      simp [h1]
    · by_cases h2 : i < off + src.length
      · rw [List.getElem?_append_left (by simp; omega), List.getElem?_append_right (by simp; omega)]
        have : min off buf.length = off := by omega
        simp [this, h2, Nat.not_lt.1 h1]
      · rw [List.getElem?_append_right (by simp; omega)]
        have : min off buf.length = off := by omega
        simp only [List.length_append, List.length_take, this, List.getElem?_drop, h2, and_false, if_false]
        congr 1
        omega
  · cases h

/-! ## C02 -/

/-- C02: `shift(k, type)` on an active set with more than `k` entries succeeds, keeps the size, moves entry `i + k` to
`i` and pads the last `k` entries. -/
theorem C02_shift (s : List Act) (k : ℕ) (type : Act) (hk : k < s.length) :
    ∃ r, ActiveSetC.shift s k type = .ok r ∧ r.length = s.length ∧
      (∀ i, i < s.length - k → r[i]? = s[i + k]?) ∧
      (∀ i, s.length - k ≤ i → i < s.length → r[i]? = some type) := by
  have hlen : s.length - k + (List.replicate k type).length ≤ (s.drop k ++ s.take k).length := by
    simp; omega
  obtain ⟨r, h⟩ : ∃ r, copyInto (s.drop k ++ s.take k) (s.length - k) (List.replicate k type) = .ok r :=
    ⟨_, copyInto_ok hlen⟩
  refine ⟨r, ?_, ?_, ?_, ?_⟩
  · simpa [ActiveSetC.shift, hk, bind, Except.bind] using h
  · have := copyInto_length h
    rw [this]; simp; omega
  · intro i hi
    rw [copyInto_get h, if_neg (by omega), List.getElem?_append_left (by simp; omega), List.getElem?_drop]
    congr 1; omega
  · intro i hi hi'
    rw [copyInto_get h, if_pos (by simp; omega), List.getElem?_replicate, if_pos (by omega)]

/-- C02: `shift` by the size or more throws (and, being an error, leaves the active set as it was). -/
theorem C02_shift_rejects (s : List Act) (k : ℕ) (type : Act) (hk : s.length ≤ k) :
    ActiveSetC.shift s k type = .error .thrown := by
  simp [ActiveSetC.shift, Nat.not_lt.2 hk, bind, Except.bind]

example : ActiveSetC.shift [.equality, .lowerBound, .upperBound, .inactive] 2 .undefined =
    .ok [.upperBound, .inactive, .undefined, .undefined] := by rfl

/-- Two shifts compose, as long as both are admissible. -/
theorem C02_shift_shift (s : List Act) (k l : ℕ) (type : Act) (hk : k + l < s.length) :
    (ActiveSetC.shift s k type >>= fun r => ActiveSetC.shift r l type) = ActiveSetC.shift s (k + l) type := by
  obtain ⟨r, hr, hrl, hr1, hr2⟩ := C02_shift s k type (by omega)
  obtain ⟨r', hr', hrl', hr1', hr2'⟩ := C02_shift r l type (by omega)
  obtain ⟨q, hq, hql, hq1, hq2⟩ := C02_shift s (k + l) type hk
  rw [hr, hq]
  show ActiveSetC.shift r l type = _
  rw [hr']
  congr 1
  apply List.ext_getElem?
  intro i
  by_cases hi : i < s.length
  · by_cases h1 : i < s.length - (k + l)
    · rw [hr1' i (by omega), hr1 (i + l) (by omega), hq1 i h1]
      congr 1; omega
    · rw [hq2 i (by omega) hi]
      by_cases h2 : i < r.length - l
      · rw [hr1' i h2, hr2 (i + l) (by omega) (by omega)]
      · exact hr2' i (by omega) (by omega)
  · rw [List.getElem?_eq_none (by omega), List.getElem?_eq_none (by omega)]

/-! ## C03 -/

/-- C03, the part that holds: when the part has the length of the location and the location fits, the copy succeeds,
the size is unchanged, entry `offset + i` is entry `i` of the part and all other entries are unchanged.

Missing for the full claim: nothing compares the length of the part with the length of the location, see
`C03_copyTo_refuted`. -/
theorem C03_copyTo_partial (s part : List Act) (l : Location) (hpart : part.length = l.length)
    (hfit : l.offset + l.length ≤ s.length) :
    ∃ r, ActiveSetC.copyTo s l part = .ok r ∧ r.length = s.length ∧
      (∀ i, i < part.length → r[l.offset + i]? = part[i]?) ∧
      (∀ i, i < l.offset ∨ l.offset + l.length ≤ i → r[i]? = s[i]?) := by
  obtain ⟨r, h⟩ : ∃ r, copyInto s l.offset part = .ok r := ⟨_, copyInto_ok (by omega)⟩
  refine ⟨r, ?_, copyInto_length h, ?_, ?_⟩
  · simpa [ActiveSetC.copyTo, (Location.checkLength_iff l s.length).2 hfit, bind, Except.bind, Location.front] using h
  · intro i hi
    rw [copyInto_get h, if_pos (by omega)]
    congr 1; omega
  · intro i hi
    rw [copyInto_get h, if_neg (by omega)]

/-- C03: a location which does not fit is rejected by an exception, for both directions and for `initialize` from a
part. -/
theorem C03_rejects (s part : List Act) (l : Location) :
    (¬ l.offset + l.length ≤ s.length → ActiveSetC.copyTo s l part = .error .thrown) ∧
    (¬ l.offset + l.length ≤ s.length → ActiveSetC.copyFrom part s l = .error .thrown) ∧
    (¬ l.offset + l.length ≤ s.length → ActiveSetC.initFrom part s l = .error .thrown) ∧
    (¬ l.offset + l.length ≤ s.length → ∀ a, ActiveSetC.setLoc s l a = .error .thrown) := by
  have key : ¬ l.offset + l.length ≤ s.length → ¬ (l.checkLength s.length = true) := fun h =>
    fun h' => h ((Location.checkLength_iff _ _).1 h')
  refine ⟨fun h => ?_, fun h => ?_, fun h => ?_, fun h a => ?_⟩
  · have := key h; simp [ActiveSetC.copyTo, this, bind, Except.bind]
  · have := key h; simp [ActiveSetC.copyFrom, this, bind, Except.bind]
  · have := key h; simp [ActiveSetC.initFrom, this, bind, Except.bind]
  · have := key h; simp [ActiveSetC.setLoc, this, bind, Except.bind]

/-- C03: reading a location back with `initialize(other, location)` gives exactly the entries of the location, whatever
the receiving active set contained before. -/
theorem C03_initFrom (r s : List Act) (l : Location) (hfit : l.offset + l.length ≤ s.length) :
    ActiveSetC.initFrom r s l = .ok ((s.drop l.offset).take l.length) := by
  have hc := (Location.checkLength_iff l s.length).2 hfit
  have hsub : l.fin - l.front = l.length := by simp [Location.fin, Location.front]
  have hlen : ((s.drop l.offset).take l.length).length = l.length := by simp; omega
  have hcp : ∀ r' : List Act, r'.length = l.length →
      ActiveSetC.copyFrom r' s l = .ok ((s.drop l.offset).take l.length) := by
    intro r' h'
    have hok := copyInto_ok (buf := r') (src := (s.drop l.offset).take l.length) (off := 0) (by omega)
    unfold ActiveSetC.copyFrom
    rw [hsub, assertThat_true hc, assertThat_true h'.symm]
    simp only [bind, Except.bind, Location.front]
    rw [hok, hlen, ← h']
    simp
  unfold ActiveSetC.initFrom
  rw [assertThat_true hc]
  simp only [bind, Except.bind]
  apply hcp
  split
  · simp
  · omega

/-- C03: copying a part in and reading it back is lossless. -/
theorem C03_roundtrip (s part old : List Act) (l : Location) (hpart : part.length = l.length)
    (hfit : l.offset + l.length ≤ s.length) :
    (ActiveSetC.copyTo s l part >>= fun r => ActiveSetC.initFrom old r l) = .ok part := by
  obtain ⟨r, hr, hlen, hin, hout⟩ := C03_copyTo_partial s part l hpart hfit
  rw [hr]
  show ActiveSetC.initFrom old r l = _
  rw [C03_initFrom old r l (by omega)]
  congr 1
  apply List.ext_getElem?
  intro i
  by_cases hi : i < l.length
  · rw [List.getElem?_take_of_lt hi, List.getElem?_drop]
    exact hin i (by omega)
  · rw [List.getElem?_eq_none (by simp; omega), List.getElem?_eq_none (by omega)]

/-- C03, as stated, fails: a location which fits together with a longer part passes the checks and is written out of
range. -/
theorem C03_copyTo_refuted :
    ∃ (s part : List Act) (l : Location), l.offset + l.length ≤ s.length ∧
      ActiveSetC.copyTo s l part = .error .ub :=
  ⟨[.inactive], [.equality, .equality], ⟨0, 1⟩, by decide, rfl⟩

example : ActiveSetC.copyTo [.inactive, .inactive, .inactive] ⟨1, 2⟩ [.equality, .upperBound] =
    .ok [.inactive, .equality, .upperBound] := by rfl

/-- C03: filling a location writes the type to exactly this location. -/
theorem C03_setLoc (s : List Act) (l : Location) (a : Act) (hfit : l.offset + l.length ≤ s.length) :
    ∃ r, ActiveSetC.setLoc s l a = .ok r ∧ r.length = s.length ∧
      (∀ i, i < l.length → r[l.offset + i]? = some a) ∧
      (∀ i, i < l.offset ∨ l.offset + l.length ≤ i → r[i]? = s[i]?) := by
  have hsub : l.fin - l.front = l.length := by simp [Location.fin, Location.front]
  obtain ⟨r, h1, h2, h3, h4⟩ := C03_copyTo_partial s (List.replicate l.length a) l (by simp) hfit
  refine ⟨r, ?_, h2, ?_, h4⟩
  · simpa [ActiveSetC.setLoc, ActiveSetC.copyTo, hsub] using h1
  · intro i hi
    rw [h3 i (by simpa using hi)]
    simp [hi]

/-! ## C04 -/

/-- Specification of the number of active inequalities. -/
def specActiveInequalities (s : List Act) : ℕ := s.countP (fun a => a = .lowerBound ∨ a = .upperBound)

private theorem count_foldl (s : List Act) (n : ℕ) :
    s.foldl ActiveSetC.countStep n = n + specActiveInequalities s := by
  induction s generalizing n with
  | nil => simp [specActiveInequalities]
  | cons a s ih =>
    simp only [List.foldl_cons, ih, specActiveInequalities, List.countP_cons]
    cases a <;> simp [ActiveSetC.countStep] <;> ring

/-- C04: the counter equals the number of entries which are `LOWER_BOUND` or `UPPER_BOUND`. -/
theorem C04_count (s : List Act) :
    ActiveSetC.countActiveInequalities s = s.countP (fun a => a = .lowerBound ∨ a = .upperBound) := by
  have := count_foldl s 0
  simpa [ActiveSetC.countActiveInequalities, specActiveInequalities] using this

/-- C04: the count is additive over concatenation. -/
theorem C04_count_append (s t : List Act) :
    ActiveSetC.countActiveInequalities (s ++ t) =
      ActiveSetC.countActiveInequalities s + ActiveSetC.countActiveInequalities t := by
  simp [C04_count]

/-- C04: entries which are neither lower nor upper bounds never count. -/
theorem C04_count_zero (s : List Act) (h : ∀ a ∈ s, a = .equality ∨ a = .inactive ∨ a = .undefined) :
    ActiveSetC.countActiveInequalities s = 0 := by
  rw [C04_count, List.countP_eq_zero]
  intro a ha
  rcases h a ha with rfl | rfl | rfl <;> simp

example : ActiveSetC.countActiveInequalities [.equality, .lowerBound, .undefined, .upperBound, .inactive] = 2 := by rfl

end Humoto
