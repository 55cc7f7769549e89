import Mathlib.Tactic.LinearCombination
import Mathlib.Algebra.Order.Round
import Verif.Spec.LogNumber
import Verif.Lemmas.LogTree

namespace Humoto.LogNumber

open LogName LogText LogText.Spec

/-! ## Digits -/

/-- Characters are digits. -/
def Digits (s : Str) : Prop := ∀ c ∈ s, '0' ≤ c ∧ c ≤ '9'

/-- Value of digits. -/
def val (s : Str) : ℕ := Nat.ofDigits 10 (s.reverse.map fun c => c.toNat - '0'.toNat)

theorem readNat_val {s : Str} (h : s ≠ []) (hd : Digits s) : readNat s = some (val s) := if_pos ⟨h, hd⟩

theorem val_append (a b : Str) : val (a ++ b) = val a * 10 ^ b.length + val b := by
  unfold val
  rw [List.reverse_append, List.map_append, Nat.ofDigits_append]
  simp
  ring

theorem val_zeros (k : ℕ) : val (List.replicate k '0') = 0 := by
  induction k with
  | zero => rfl
  | succ k ih =>
    rw [List.replicate_succ', val_append, ih]
    decide

theorem val_decimal (n : ℕ) : val (decimal n) = n := by
  have := readNat_decimal n
  rw [readNat_val (decimal_ne_nil n) (decimal_digits n)] at this
  exact Option.some.inj this

theorem digits_append {a b : Str} : Digits (a ++ b) ↔ Digits a ∧ Digits b := by
  unfold Digits
  simp only [List.mem_append]
  exact ⟨fun h => ⟨fun c hc => h c (.inl hc), fun c hc => h c (.inr hc)⟩, fun h c hc => hc.elim (h.1 c) (h.2 c)⟩

theorem digits_zeros (k : ℕ) : Digits (List.replicate k '0') := by
  intro c hc
  rw [List.eq_of_mem_replicate hc]
  decide

theorem not_mem_digits {s : Str} (h : Digits s) {c : Char} (hc : ¬ ('0' ≤ c ∧ c ≤ '9')) : c ∉ s := fun hm => hc (h c hm)

theorem stripped_spec (l : Str) : ∃ k, l = stripped l ++ List.replicate k '0' := by
  refine ⟨(l.reverse.takeWhile (· = '0')).length, ?_⟩
  have h : l.reverse.takeWhile (· = '0') = List.replicate (l.reverse.takeWhile (· = '0')).length '0' := by
    apply List.eq_replicate_of_mem
    intro c hc
    have := List.all_takeWhile (l := l.reverse) (p := (· = '0'))
    rw [List.all_eq_true] at this
    simpa using this c hc
  unfold stripped
  have e := (List.takeWhile_append_dropWhile (p := (· = '0')) (l := l.reverse)).symm
  have e' := congrArg List.reverse e
  rw [List.reverse_reverse, List.reverse_append] at e'
  rw [h, List.reverse_replicate] at e'
  exact e'

theorem readUnsigned_plain {i rest : Str} (hi : i ≠ []) (h1 : Digits i) (h2 : Digits rest) :
    readUnsigned (i ++ fraction rest) = some ((val (i ++ rest) : ℚ) / 10 ^ rest.length) := by
  obtain ⟨k, hk⟩ := stripped_spec rest
  have hi' : '.' ∉ i := not_mem_digits h1 (by decide)
  have hs : Digits (stripped rest) := by
    rw [hk, digits_append] at h2
    exact h2.1
  have e : (val (i ++ rest) : ℚ) / 10 ^ rest.length = (val (i ++ stripped rest) : ℚ) / 10 ^ (stripped rest).length := by
    have e1 : val (i ++ rest) = val (i ++ stripped rest) * 10 ^ k := by
      conv_lhs => rw [hk, ← List.append_assoc, val_append, val_zeros]
      simp
    have e2 : rest.length = (stripped rest).length + k := by
      conv_lhs => rw [hk]
      simp
    rw [e1, e2, pow_add, Nat.cast_mul, Nat.cast_pow, Nat.cast_ofNat]
    exact mul_div_mul_right _ _ (by positivity)
  unfold fraction readUnsigned
  rw [e]
  split_ifs with h
  · rw [List.append_nil, cut_none hi']
    simp only [h, List.append_nil, List.length_nil, pow_zero, div_one]
    rw [readNat_val hi h1]
    rfl
  · rw [cut_sep, cut_none hi', cut_none (not_mem_digits hs (by decide))]
    simp only [List.cons_append, List.nil_append]
    rw [if_pos ⟨hi, h⟩, readNat_val (by simp [hi]) (digits_append.2 ⟨h1, hs⟩)]
    rfl

theorem plain_chars {i rest : Str} (h1 : Digits i) (h2 : Digits rest) : ∀ c ∈ i ++ fraction rest, c = '.' ∨ ('0' ≤ c ∧ c ≤ '9') := by
  obtain ⟨k, hk⟩ := stripped_spec rest
  have hs : Digits (stripped rest) := by
    rw [hk, digits_append] at h2
    exact h2.1
  intro c hc
  rw [List.mem_append] at hc
  rcases hc with hc | hc
  · exact .inr (h1 c hc)
  · unfold fraction at hc
    split_ifs at hc
    · cases hc
    · rw [List.mem_cons] at hc
      exact hc.imp id (hs c)

theorem plain_no_e {i rest : Str} (h1 : Digits i) (h2 : Digits rest) : 'e' ∉ i ++ fraction rest := by
  intro h
  rcases plain_chars h1 h2 _ h with h | h
  · exact absurd h (by decide)
  · exact absurd h (by decide)

theorem readPositive_plain {i rest : Str} (hi : i ≠ []) (h1 : Digits i) (h2 : Digits rest) :
    readPositive (i ++ fraction rest) = some ((val (i ++ rest) : ℚ) / 10 ^ rest.length) := by
  unfold readPositive
  rw [cut_none (plain_no_e h1 h2)]
  exact readUnsigned_plain hi h1 h2

theorem readExponent_text (e : ℤ) : ∃ t, exponentText e = 'e' :: t ∧ 'e' ∉ t ∧ readExponent t = some e ∧
    ∀ c ∈ t, c = '-' ∨ c = '+' ∨ ('0' ≤ c ∧ c ≤ '9') := by
  have hz : Digits (if e.natAbs < 10 then ['0'] else []) := by
    split_ifs
    · exact digits_zeros 1
    · intro c hc; cases hc
  have hd : Digits ((if e.natAbs < 10 then ['0'] else []) ++ decimal e.natAbs) := digits_append.2 ⟨hz, decimal_digits _⟩
  have hv : val ((if e.natAbs < 10 then ['0'] else []) ++ decimal e.natAbs) = e.natAbs := by
    rw [val_append, val_decimal]
    split_ifs <;> simp [val]
  have hr := readNat_val (s := (if e.natAbs < 10 then ['0'] else []) ++ decimal e.natAbs) (by simp [decimal_ne_nil]) hd
  rw [hv] at hr
  refine ⟨(if e < 0 then '-' else '+') :: ((if e.natAbs < 10 then ['0'] else []) ++ decimal e.natAbs), ?_, ?_, ?_, ?_⟩
  · simp [exponentText]
  · rw [List.mem_cons, not_or]
    refine ⟨?_, not_mem_digits hd (by decide)⟩
    split_ifs <;> decide
  · generalize (if e.natAbs < 10 then ['0'] else []) ++ decimal e.natAbs = w at hr
    by_cases h : e < 0
    · rw [if_pos h]
      simp only [readExponent, hr, Option.map_some, Option.some.injEq]
      omega
    · rw [if_neg h]
      simp only [readExponent, hr, Option.map_some, Option.some.injEq]
      omega
  · intro c hc
    rw [List.mem_cons] at hc
    rcases hc with hc | hc
    · split_ifs at hc
      · exact .inl hc
      · exact .inr (.inl hc)
    · exact .inr (.inr (hd c hc))

theorem readPositive_exponent {i rest : Str} (hi : i ≠ []) (h1 : Digits i) (h2 : Digits rest) (e : ℤ) :
    readPositive (i ++ fraction rest ++ exponentText e) = some ((val (i ++ rest) : ℚ) / 10 ^ rest.length * 10 ^ e) := by
  obtain ⟨t, h, ht, hr, -⟩ := readExponent_text e
  unfold readPositive
  rw [h, cut_sep, cut_none (plain_no_e h1 h2), cut_none ht]
  simp only [List.cons_append, List.nil_append]
  rw [readUnsigned_plain hi h1 h2, hr]
  rfl

theorem length_decimal {p m : ℕ} (hp : 0 < p) (h1 : 10 ^ (p - 1) ≤ m) (h2 : m < 10 ^ p) : (decimal m).length = p := by
  have hm : m ≠ 0 := by
    have := Nat.pow_pos (n := p - 1) (show 0 < 10 by decide)
    omega
  rw [decimal_pos hm, List.length_reverse, List.length_map]
  have h3 := (Nat.lt_digits_length_iff (b := 10) (by decide) (k := p - 1) m).2 h1
  have h4 := (Nat.digits_length_le_iff (b := 10) (by decide) (k := p) m).2 h2
  omega

/-! ## Rounding -/

section
variable {K : Type} [Field K] [LinearOrder K] [IsStrictOrderedRing K] [FloorRing K]

theorem nearestEven_cases (y : K) : (nearestEven y = ⌊y⌋ ∧ y - ⌊y⌋ ≤ 1 / 2) ∨ (nearestEven y = ⌊y⌋ + 1 ∧ 1 / 2 ≤ y - ⌊y⌋) := by
  unfold nearestEven
  split_ifs with h1 h2 h3
  · exact .inl ⟨rfl, h1.le⟩
  · exact .inr ⟨rfl, h2.le⟩
  · exact .inl ⟨rfl, not_lt.1 h2⟩
  · exact .inr ⟨rfl, not_lt.1 h1⟩

theorem nearestEven_half (y : K) : |(nearestEven y : K) - y| ≤ 1 / 2 := by
  have h1 := Int.floor_le y
  have h2 := Int.lt_floor_add_one y
  rw [abs_le]
  rcases nearestEven_cases y with ⟨h, h'⟩ | ⟨h, h'⟩ <;> rw [h]
  · constructor <;> linarith
  · push_cast
    constructor <;> linarith

theorem nearestEven_nearest (y : K) (n : ℤ) : |(nearestEven y : K) - y| ≤ |(n : K) - y| := by
  have h1 := Int.floor_le y
  have h2 := Int.lt_floor_add_one y
  by_cases h : n ≤ ⌊y⌋
  · have hn : (n : K) ≤ ⌊y⌋ := by exact_mod_cast h
    rw [abs_of_nonpos (show (n : K) - y ≤ 0 by linarith), abs_le]
    rcases nearestEven_cases y with ⟨h, h'⟩ | ⟨h, h'⟩ <;> rw [h]
    · constructor <;> linarith
    · push_cast
      constructor <;> linarith
  · have hn : (⌊y⌋ : K) + 1 ≤ n := by exact_mod_cast (by omega : ⌊y⌋ + 1 ≤ n)
    rw [abs_of_nonneg (show 0 ≤ (n : K) - y by linarith), abs_le]
    rcases nearestEven_cases y with ⟨h, h'⟩ | ⟨h, h'⟩ <;> rw [h]
    · constructor <;> linarith
    · push_cast
      constructor <;> linarith

theorem le_nearestEven {y : K} {a : ℤ} (h : (a : K) ≤ y) : a ≤ nearestEven y := by
  have := Int.le_floor.2 h
  rcases nearestEven_cases y with ⟨h, -⟩ | ⟨h, -⟩ <;> omega

theorem nearestEven_le {y : K} {a : ℤ} (h : y < a) : nearestEven y ≤ a := by
  have := Int.floor_lt.2 h
  rcases nearestEven_cases y with ⟨h, -⟩ | ⟨h, -⟩ <;> omega

theorem nearestEven_eq {y : K} {n : ℤ} (h : |y - n| < 1 / 2) : nearestEven y = n := by
  have h1 := nearestEven_half y
  have h2 : |((nearestEven y - n : ℤ) : K)| < 1 := by
    push_cast
    have := abs_add_le ((nearestEven y : K) - y) (y - n)
    rw [sub_add_sub_cancel] at this
    linarith
  have h3 : |nearestEven y - n| < 1 := by exact_mod_cast h2
  rw [Int.abs_lt_one_iff] at h3
  omega

/-- The unit of the last digit. -/
def unit (p : ℕ) (x : K) : K := (10 : K) ^ (Int.log 10 x - p + 1)

theorem unit_pos (p : ℕ) (x : K) : 0 < unit p x := zpow_pos (by norm_num) _

theorem pow_le_self {x : K} (hx : 0 < x) : (10 : K) ^ Int.log 10 x ≤ x := by
  have := Int.zpow_log_le_self (b := 10) (by decide) hx
  simpa using this

theorem self_lt_pow {x : K} (hx : 0 < x) : x < (10 : K) ^ (Int.log 10 x + 1) := by
  have := Int.lt_zpow_succ_log_self (b := 10) (by decide) x
  simpa using this

theorem quotient_bounds {p : ℕ} (hp : 0 < p) {x : K} (hx : 0 < x) :
    ((10 ^ (p - 1) : ℤ) : K) ≤ x / unit p x ∧ x / unit p x < ((10 ^ p : ℤ) : K) := by
  have hu := unit_pos p x
  have e1 : (10 : K) ^ (p - 1) * unit p x = 10 ^ Int.log 10 x := by
    unfold unit
    rw [← zpow_natCast, ← zpow_add₀ (by norm_num)]
    congr 1
    omega
  have e2 : (10 : K) ^ p * unit p x = 10 ^ (Int.log 10 x + 1) := by
    unfold unit
    rw [← zpow_natCast, ← zpow_add₀ (by norm_num)]
    congr 1
    omega
  constructor
  · rw [le_div_iff₀ hu]
    push_cast
    rw [e1]
    exact pow_le_self hx
  · rw [div_lt_iff₀ hu]
    push_cast
    rw [e2]
    exact self_lt_pow hx

/-- The nearest multiple of the unit. -/
def mantissa (p : ℕ) (x : K) : ℤ := nearestEven (x / unit p x)

theorem mantissa_bounds {p : ℕ} (hp : 0 < p) {x : K} (hx : 0 < x) : 10 ^ (p - 1) ≤ mantissa p x ∧ mantissa p x ≤ 10 ^ p :=
  ⟨le_nearestEven (quotient_bounds hp hx).1, nearestEven_le (quotient_bounds hp hx).2⟩

theorem scientific_spec {p : ℕ} (hp : 0 < p) {x : K} (hx : 0 < x) :
    10 ^ (p - 1) ≤ (scientific p x).1 ∧ (scientific p x).1 < 10 ^ p ∧
    ((scientific p x).1 : ℚ) * 10 ^ ((scientific p x).2 - p + 1) = mantissa p x * 10 ^ (Int.log 10 x - p + 1) := by
  obtain ⟨h1, h2⟩ := mantissa_bounds hp hx
  have hm : (nearestEven (x / (10 : K) ^ (Int.log 10 x - p + 1))).toNat = (mantissa p x).toNat := rfl
  have hpow : (1 : ℤ) ≤ 10 ^ (p - 1) := by exact_mod_cast Nat.one_le_pow _ _ (by decide)
  have ht : ((mantissa p x).toNat : ℤ) = mantissa p x := Int.toNat_of_nonneg (by omega)
  unfold scientific
  simp only [hm]
  have h1' : 10 ^ (p - 1) ≤ (mantissa p x).toNat := by
    have : ((10 ^ (p - 1) : ℕ) : ℤ) ≤ (mantissa p x).toNat := by rw [ht]; exact_mod_cast h1
    exact_mod_cast this
  have h2' : (mantissa p x).toNat ≤ 10 ^ p := by
    have : ((mantissa p x).toNat : ℤ) ≤ (10 ^ p : ℕ) := by rw [ht]; exact_mod_cast h2
    exact_mod_cast this
  have hq : ((mantissa p x : ℤ) : ℚ) = ((mantissa p x).toNat : ℕ) := by
    rw [← ht]
    exact (Int.cast_natCast (R := ℚ) _)
  split_ifs with h
  · refine ⟨le_rfl, Nat.pow_lt_pow_right (by decide) (by omega), ?_⟩
    rw [hq, h]
    push_cast
    rw [← zpow_natCast, ← zpow_natCast, ← zpow_add₀ (by norm_num), ← zpow_add₀ (by norm_num)]
    congr 1
    omega
  · refine ⟨h1', by omega, ?_⟩
    rw [hq]

/-- The number which is written for a positive number. -/
def written (p : ℕ) (x : K) : ℚ := mantissa p x * 10 ^ (Int.log 10 x - p + 1)

theorem readPositive_text {p : ℕ} (hp : 0 < p) {x : K} (hx : 0 < x) : readPositive (positiveText p x) = some (written p x) := by
  obtain ⟨h1, h2, h3⟩ := scientific_spec hp hx
  unfold written
  rw [← h3]
  unfold positiveText
  generalize (scientific p x).1 = m at h1 h2
  generalize (scientific p x).2 = e
  have hl := length_decimal hp h1 h2
  have hd := decimal_digits m
  have hdt : ∀ n, Digits ((decimal m).take n) ∧ Digits ((decimal m).drop n) := fun n => by
    rw [← digits_append, List.take_append_drop]
    exact hd
  have hne : ∀ n, 0 < n → (decimal m).take n ≠ [] := fun n hn h => by
    have := congrArg List.length h
    rw [List.length_take, List.length_nil] at this
    omega
  simp only
  split_ifs with h h'
  · rw [readPositive_exponent (hne 1 one_pos) (hdt 1).1 (hdt 1).2, List.take_append_drop, val_decimal, List.length_drop, hl]
    congr 1
    rw [div_eq_mul_inv, mul_assoc, ← zpow_natCast, ← zpow_neg, ← zpow_add₀ (by norm_num)]
    congr 2
    omega
  · rw [readPositive_plain (i := ['0']) (by simp) (digits_zeros 1) (digits_append.2 ⟨digits_zeros _, hd⟩), ← List.append_assoc]
    congr 1
    rw [val_append, val_append, val_zeros, val_decimal, List.length_append, List.length_replicate, hl]
    have hv : val ['0'] = 0 := by decide
    rw [hv, zero_mul, zero_add, zero_mul, zero_add, div_eq_mul_inv, ← zpow_natCast, ← zpow_neg]
    congr 2
    omega
  · rw [readPositive_plain (hne _ (by omega)) (hdt _).1 (hdt _).2, List.take_append_drop, val_decimal, List.length_drop, hl]
    congr 1
    rw [div_eq_mul_inv, ← zpow_natCast, ← zpow_neg]
    congr 2
    omega

/-! ## The nearest decimal number -/

theorem cast_written (p : ℕ) (x : K) : ((written p x : ℚ) : K) = mantissa p x * unit p x := by
  unfold written unit
  push_cast
  rfl

theorem written_half (p : ℕ) (x : K) : |((written p x : ℚ) : K) - x| ≤ unit p x / 2 := by
  have hu := unit_pos p x
  have h := nearestEven_half (x / unit p x)
  have e : ((written p x : ℚ) : K) - x = (mantissa p x - x / unit p x) * unit p x := by
    rw [cast_written, sub_mul, div_mul_cancel₀ _ hu.ne']
  rw [e, abs_mul, abs_of_pos hu]
  have := mul_le_mul_of_nonneg_right h hu.le
  unfold mantissa
  linarith

theorem unit_le (p : ℕ) {x : K} (hx : 0 < x) : unit p x ≤ x * (10 / 10 ^ p) := by
  have h := pow_le_self hx
  have e : unit p x = 10 ^ Int.log 10 x * (10 / 10 ^ p) := by
    unfold unit
    rw [zpow_add₀ (by norm_num), zpow_sub₀ (by norm_num), zpow_natCast, zpow_one]
    ring
  rw [e]
  exact mul_le_mul_of_nonneg_right h (by positivity)

theorem multiple_of_le {p : ℕ} {E n j : ℤ} (hn : |n| < 10 ^ p) (h : (10 : K) ^ E ≤ n * 10 ^ j) : ∃ k : ℤ, (n : K) * 10 ^ j = k * 10 ^ (E - p + 1) := by
  have hj : E - p + 1 ≤ j := by
    by_contra hc
    have h1 : (n : K) * 10 ^ j < 10 ^ (p : ℤ) * 10 ^ j := by
      apply mul_lt_mul_of_pos_right _ (zpow_pos (by norm_num) _)
      have : (n : K) < (10 ^ p : ℤ) := by exact_mod_cast lt_of_abs_lt hn
      rw [zpow_natCast]
      exact_mod_cast this
    rw [← zpow_add₀ (by norm_num)] at h1
    have h2 : (10 : K) ^ ((p : ℤ) + j) ≤ 10 ^ E := zpow_le_zpow_right₀ (by norm_num) (by omega)
    linarith
  refine ⟨n * 10 ^ (j - (E - p + 1)).toNat, ?_⟩
  push_cast
  rw [mul_assoc, ← zpow_natCast, ← zpow_add₀ (by norm_num)]
  congr 2
  omega

theorem hasDigits_written {p : ℕ} (hp : 0 < p) {x : K} (hx : 0 < x) : HasDigits p (written p x) := by
  obtain ⟨h1, h2, h3⟩ := scientific_spec hp hx
  refine ⟨(scientific p x).1, (scientific p x).2 - p + 1, ?_, ?_⟩
  · rw [Nat.abs_cast]
    exact_mod_cast h2
  · unfold written
    rw [← h3]
    simp

theorem nearest_written {p : ℕ} (hp : 0 < p) {x : K} (hx : 0 < x) : NearestDecimal p x (written p x) := by
  refine ⟨hasDigits_written hp hx, ?_⟩
  have hu := unit_pos p x
  have key : ∀ k : ℤ, |((written p x : ℚ) : K) - x| ≤ |(k : K) * unit p x - x| := by
    intro k
    have h := nearestEven_nearest (x / unit p x) k
    have e : ∀ m : ℤ, |(m : K) * unit p x - x| = |(m : K) - x / unit p x| * unit p x := by
      intro m
      rw [← abs_of_pos hu, ← abs_mul, sub_mul, abs_of_pos hu, div_mul_cancel₀ _ hu.ne']
    rw [cast_written, e, e]
    exact mul_le_mul_of_nonneg_right h hu.le
  rintro d' ⟨n, j, hn, rfl⟩
  push_cast
  by_cases h : (10 : K) ^ Int.log 10 x ≤ n * 10 ^ j
  · obtain ⟨k, hk⟩ := multiple_of_le hn h
    rw [hk]
    exact key k
  · have h' := not_le.1 h
    have hx' := pow_le_self hx
    have hk : (10 : K) ^ Int.log 10 x = ((10 ^ (p - 1) : ℤ) : K) * unit p x := by
      unfold unit
      push_cast
      rw [← zpow_natCast, ← zpow_add₀ (by norm_num)]
      congr 1
      omega
    have := key (10 ^ (p - 1))
    rw [← hk] at this
    refine this.trans ?_
    rw [abs_of_nonpos (by linarith), abs_of_nonpos (by linarith)]
    linarith

/-! ## All numbers -/

/-- The number which is written. -/
def writtenNumber (p : ℕ) (x : K) : ℚ := if x = 0 then 0 else if x < 0 then -written p (-x) else written p x

theorem positiveText_chars {p : ℕ} (hp : 0 < p) {x : K} (hx : 0 < x) :
    (∃ c t, positiveText p x = c :: t ∧ '0' ≤ c ∧ c ≤ '9') ∧
    ∀ c ∈ positiveText p x, c = '.' ∨ c = 'e' ∨ c = '-' ∨ c = '+' ∨ ('0' ≤ c ∧ c ≤ '9') := by
  obtain ⟨h1, h2, -⟩ := scientific_spec hp hx
  unfold positiveText
  generalize (scientific p x).1 = m at h1 h2
  generalize (scientific p x).2 = e
  have hl := length_decimal hp h1 h2
  have hd := decimal_digits m
  have hdt : ∀ n, Digits ((decimal m).take n) ∧ Digits ((decimal m).drop n) := fun n => by
    rw [← digits_append, List.take_append_drop]
    exact hd
  have hne : ∀ n, 0 < n → (decimal m).take n ≠ [] := fun n hn h => by
    have := congrArg List.length h
    rw [List.length_take, List.length_nil] at this
    omega
  have first : ∀ (i t : Str), i ≠ [] → Digits i → ∃ c t', i ++ t = c :: t' ∧ '0' ≤ c ∧ c ≤ '9' := by
    intro i t hi hd
    cases i with
    | nil => exact (hi rfl).elim
    | cons c i => exact ⟨c, i ++ t, rfl, hd c (by simp)⟩
  simp only
  split_ifs with h h'
  · obtain ⟨t, ht, -, -, hc⟩ := readExponent_text e
    refine ⟨?_, fun c hm => ?_⟩
    · rw [List.append_assoc]
      exact first _ _ (hne 1 one_pos) (hdt 1).1
    · rw [List.mem_append] at hm
      rcases hm with hm | hm
      · rcases plain_chars (hdt 1).1 (hdt 1).2 c hm with h | h
        · exact .inl h
        · exact .inr (.inr (.inr (.inr h)))
      · rw [ht, List.mem_cons] at hm
        rcases hm with hm | hm
        · exact .inr (.inl hm)
        · exact .inr (.inr (hc c hm))
  · have hd' : Digits (List.replicate (-e - 1).toNat '0' ++ decimal m) := digits_append.2 ⟨digits_zeros _, hd⟩
    refine ⟨first _ _ (by simp) (digits_zeros 1), fun c hm => ?_⟩
    rcases plain_chars (i := ['0']) (digits_zeros 1) hd' c hm with h | h
    · exact .inl h
    · exact .inr (.inr (.inr (.inr h)))
  · refine ⟨first _ _ (hne _ (by omega)) (hdt _).1, fun c hm => ?_⟩
    rcases plain_chars (hdt _).1 (hdt _).2 c hm with h | h
    · exact .inl h
    · exact .inr (.inr (.inr (.inr h)))

theorem readNumber_digit {c : Char} {t : Str} (h : '0' ≤ c ∧ c ≤ '9') : readNumber (c :: t) = readPositive (c :: t) := by
  unfold readNumber
  split
  · rename_i s hs
    rw [List.cons.injEq] at hs
    rw [hs.1] at h
    exact absurd h (by decide)
  · rfl

theorem readNumber_text {p : ℕ} (hp : 0 < p) (x : K) : readNumber (generalText p x) = some (writtenNumber p x) := by
  unfold generalText writtenNumber signed
  rw [max_eq_left (by omega : 1 ≤ p)]
  split_ifs with h0 h1
  · decide
  · show (readPositive _).map _ = _
    rw [readPositive_text hp (neg_pos.2 h1)]
    rfl
  · have hx : 0 < x := lt_of_le_of_ne (not_lt.1 h1) (Ne.symm h0)
    obtain ⟨c, t, e, hc⟩ := (positiveText_chars hp hx).1
    rw [e, readNumber_digit hc, ← e, readPositive_text hp hx]

theorem hasDigits_neg {p : ℕ} {d : ℚ} : HasDigits p d → HasDigits p (-d) := by
  rintro ⟨n, j, h, rfl⟩
  exact ⟨-n, j, by rwa [abs_neg], by push_cast; ring⟩

theorem hasDigits_zero (p : ℕ) : HasDigits p 0 := ⟨0, 0, by simp, by simp⟩

theorem nearest_number {p : ℕ} (hp : 0 < p) (x : K) : NearestDecimal p x (writtenNumber p x) := by
  unfold writtenNumber
  split_ifs with h0 h1
  · subst h0
    refine ⟨hasDigits_zero p, fun d' _ => ?_⟩
    simp
  · obtain ⟨h2, h3⟩ := nearest_written hp (neg_pos.2 h1)
    refine ⟨hasDigits_neg h2, fun d' hd => ?_⟩
    have := h3 (-d') (hasDigits_neg hd)
    push_cast at this ⊢
    rw [← abs_neg, show -(-((written p (-x) : ℚ) : K) - x) = ((written p (-x) : ℚ) : K) - -x by ring]
    refine this.trans (le_of_eq ?_)
    rw [← abs_neg]
    congr 1
    ring
  · exact nearest_written hp (lt_of_le_of_ne (not_lt.1 h1) (Ne.symm h0))

theorem number_half {p : ℕ} (x : K) : |((writtenNumber p x : ℚ) : K) - x| ≤ |x| * (10 / 10 ^ p) / 2 := by
  unfold writtenNumber
  split_ifs with h0 h1
  · subst h0
    simp
  · have h := (written_half p (-x)).trans (div_le_div_of_nonneg_right (unit_le p (neg_pos.2 h1)) (by norm_num : (0 : K) ≤ 2))
    rw [abs_of_neg h1]
    push_cast
    rw [← abs_neg, show -(-((written p (-x) : ℚ) : K) - x) = ((written p (-x) : ℚ) : K) - -x by ring]
    exact h
  · have hx : 0 < x := lt_of_le_of_ne (not_lt.1 h1) (Ne.symm h0)
    rw [abs_of_pos hx]
    exact (written_half p x).trans (div_le_div_of_nonneg_right (unit_le p hx) (by norm_num : (0 : K) ≤ 2))

theorem number_mono {p : ℕ} (hp : 0 < p) {x y : K} (h : x ≤ y) : writtenNumber p x ≤ writtenNumber p y := by
  by_contra hc
  obtain ⟨h1, h2⟩ := nearest_number hp x
  obtain ⟨h3, h4⟩ := nearest_number hp y
  have hc' : ((writtenNumber p y : ℚ) : K) < ((writtenNumber p x : ℚ) : K) := by exact_mod_cast not_le.1 hc
  have a := h2 _ h3
  have b := h4 _ h1
  generalize hu : ((writtenNumber p x : ℚ) : K) = u at *
  generalize hv : ((writtenNumber p y : ℚ) : K) = v at *
  have h5 : u + v ≤ 2 * x := by
    by_contra h6
    rw [not_le] at h6
    rw [abs_of_pos (show 0 < u - x by linarith)] at a
    rcases le_total v x with h7 | h7
    · rw [abs_of_nonpos (by linarith)] at a
      linarith
    · rw [abs_of_nonneg (by linarith)] at a
      linarith
  have h8 : 2 * y ≤ u + v := by
    by_contra h6
    rw [not_le] at h6
    rw [abs_of_neg (show v - y < 0 by linarith)] at b
    rcases le_total u y with h7 | h7
    · rw [abs_of_nonpos (by linarith)] at b
      linarith
    · rw [abs_of_nonneg (by linarith)] at b
      linarith
  have : x = y := le_antisymm h (by linarith)
  subst this
  rw [hu] at hv
  exact hc'.ne hv.symm

theorem token_text {p : ℕ} (x : K) : Token (generalText p x) := by
  have key : ∀ c : Char, (c = '.' ∨ c = 'e' ∨ c = '-' ∨ c = '+' ∨ ('0' ≤ c ∧ c ≤ '9')) →
      c ≠ ' ' ∧ c ≠ ';' ∧ c ≠ ',' ∧ c ≠ '[' ∧ c ≠ ']' ∧ c ≠ '\'' ∧ c ≠ '\n' := by
    intro c h
    refine ⟨?_, ?_, ?_, ?_, ?_, ?_, ?_⟩ <;> (rintro rfl; revert h; decide)
  have hp : 0 < max p 1 := by omega
  unfold generalText signed
  split_ifs with h0 h1
  · exact ⟨by simp, fun c hc => key c (by
      rw [List.mem_singleton] at hc
      subst hc
      exact .inr (.inr (.inr (.inr (by decide)))))⟩
  · obtain ⟨-, h⟩ := positiveText_chars hp (neg_pos.2 h1)
    refine ⟨by simp, fun c hc => key c ?_⟩
    rw [List.mem_cons] at hc
    rcases hc with hc | hc
    · exact .inr (.inr (.inl hc))
    · exact h c hc
  · obtain ⟨⟨c, t, e, -⟩, h⟩ := positiveText_chars hp (lt_of_le_of_ne (not_lt.1 h1) (Ne.symm h0))
    exact ⟨by rw [e]; simp, fun c hc => key c (h c hc)⟩

/-! ## Numbers with 15 digits -/

theorem written_exact {x : K} {d : ℚ} (hd : HasDigits 15 d) (hd0 : 0 < d) (h : |x - (d : K)| ≤ (d : K) / 2 ^ 53) : 0 < x ∧ written 15 x = d := by
  have hD : (0 : K) < d := by exact_mod_cast hd0
  have hx : 0 < x := by
    have := (abs_le.1 h).1
    have : (d : K) / 2 ^ 53 < d := div_lt_self hD (by norm_num)
    linarith
  refine ⟨hx, ?_⟩
  obtain ⟨n, j, hn, hnj⟩ := hd
  have hdK : (d : K) = n * 10 ^ j := by rw [hnj]; push_cast; rfl
  have hu := unit_pos 15 x
  have key : ∃ k : ℤ, (d : K) = k * unit 15 x := by
    by_cases hE : (10 : K) ^ Int.log 10 x ≤ n * 10 ^ j
    · rw [hdK]
      exact multiple_of_le hn hE
    · exfalso
      rw [not_le, ← hdK] at hE
      have h1 := pow_le_self hD
      have h2 := self_lt_pow hD
      have h3 := pow_le_self hx
      have hlt : Int.log 10 (d : K) + 1 ≤ Int.log 10 x := by
        have : (10 : K) ^ Int.log 10 (d : K) < 10 ^ Int.log 10 x := lt_of_le_of_lt h1 hE
        rw [zpow_lt_zpow_iff_right₀ (by norm_num)] at this
        omega
      have h4 : (10 : K) ^ (Int.log 10 (d : K) + 1) ≤ x := (zpow_le_zpow_right₀ (by norm_num) hlt).trans h3
      rw [hdK] at h1
      obtain ⟨k, hk⟩ := multiple_of_le hn h1
      rw [← hdK] at hk
      generalize hv : (10 : K) ^ (Int.log 10 (d : K) - (15 : ℕ) + 1) = v at hk
      have hv0 : 0 < v := by rw [← hv]; exact zpow_pos (by norm_num) _
      have h5 : (10 : K) ^ (Int.log 10 (d : K) + 1) = 10 ^ 15 * v := by
        rw [← hv, ← zpow_natCast, ← zpow_add₀ (by norm_num)]
        congr 1
        push_cast
        omega
      rw [h5] at h2 h4
      have hk1 : k + 1 ≤ 10 ^ 15 := by
        have : (k : K) < 10 ^ 15 := by
          rw [hk] at h2
          exact lt_of_mul_lt_mul_right h2 hv0.le
        have : k < 10 ^ 15 := by exact_mod_cast this
        omega
      have hk2 : ((k : K) + 1) * v ≤ 10 ^ 15 * v := by
        apply mul_le_mul_of_nonneg_right _ hv0.le
        exact_mod_cast hk1
      have h6 := (abs_le.1 h).2
      have h7 : (d : K) / 2 ^ 53 < v := by
        rw [div_lt_iff₀ (by positivity)]
        refine h2.trans ?_
        rw [mul_comm]
        exact mul_lt_mul_of_pos_left (by norm_num) hv0
      have h8 : (d : K) + v ≤ 10 ^ 15 * v := by
        rw [hk]
        linarith
      linarith
  obtain ⟨k, hk⟩ := key
  have hm : mantissa 15 x = k := by
    apply nearestEven_eq
    have e : x / unit 15 x - k = (x - d) / unit 15 x := by
      rw [hk, sub_div, mul_div_cancel_right₀ _ hu.ne']
    rw [e, abs_div, abs_of_pos hu, div_lt_iff₀ hu]
    have h1 := (quotient_bounds (p := 15) (by decide) hx).2
    rw [div_lt_iff₀ hu] at h1
    push_cast at h1
    have h2 := (abs_le.1 h).1
    have h3 : (d : K) ≤ 2 * x := by
      have : (d : K) / 2 ^ 53 ≤ d / 2 := div_le_div_of_nonneg_left hD.le (by norm_num) (by norm_num)
      linarith
    refine lt_of_le_of_lt h ?_
    rw [div_lt_iff₀ (by positivity)]
    norm_num
    linarith
  have hw := cast_written 15 x
  rw [hm, ← hk] at hw
  exact_mod_cast hw

theorem number_exact {x : K} {d : ℚ} (hd : HasDigits 15 d) (h : |x - (d : K)| ≤ |(d : K)| / 2 ^ 53) : writtenNumber 15 x = d := by
  unfold writtenNumber
  rcases lt_trichotomy d 0 with h0 | h0 | h0
  · have hD : (d : K) < 0 := by exact_mod_cast h0
    have h' : |-x - ((-d : ℚ) : K)| ≤ ((-d : ℚ) : K) / 2 ^ 53 := by
      push_cast
      rw [← abs_of_neg hD, ← abs_neg]
      convert h using 2
      rw [abs_of_neg hD]
      ring
    obtain ⟨hx, hw⟩ := written_exact (hasDigits_neg hd) (neg_pos.2 h0) h'
    have hx' : x < 0 := neg_pos.1 hx
    rw [if_neg hx'.ne, if_pos hx', hw, neg_neg]
  · subst h0
    have : x = 0 := by simpa using h
    rw [if_pos this]
  · have hD : (0 : K) < d := by exact_mod_cast h0
    rw [abs_of_pos hD] at h
    obtain ⟨hx, hw⟩ := written_exact hd h0 h
    rw [if_neg hx.ne', if_neg (not_lt.2 hx.le), hw]

/-! ## Fixed notation -/

theorem nonnegativeFixed_spec {p : ℕ} (hp : 0 < p) {x : K} :
    readPositive (nonnegativeFixed p x) = some (((nearestEven (x * 10 ^ p)).toNat : ℚ) / 10 ^ p) ∧
    ∃ c t, nonnegativeFixed p x = c :: t ∧ '0' ≤ c ∧ c ≤ '9' := by
  unfold nonnegativeFixed
  generalize (nearestEven (x * 10 ^ p)).toNat = m
  simp only
  rw [if_neg hp.ne']
  have hd := decimal_digits (m % 10 ^ p)
  have hi := decimal_digits (m / 10 ^ p)
  have hl : (decimal (m % 10 ^ p)).length ≤ p := by
    by_cases h0 : m % 10 ^ p = 0
    · rw [h0, decimal_zero]
      exact hp
    · rw [decimal_pos h0, List.length_reverse, List.length_map]
      exact (Nat.digits_length_le_iff (b := 10) (by decide) (k := p) _).2 (Nat.mod_lt _ (by positivity))
  generalize hf : List.replicate (p - (decimal (m % 10 ^ p)).length) '0' ++ decimal (m % 10 ^ p) = f
  have hfd : Digits f := by rw [← hf]; exact digits_append.2 ⟨digits_zeros _, hd⟩
  have hfl : f.length = p := by
    rw [← hf, List.length_append, List.length_replicate]
    omega
  have hfv : val f = m % 10 ^ p := by rw [← hf, val_append, val_zeros, val_decimal, zero_mul, zero_add]
  constructor
  · have hi' : '.' ∉ decimal (m / 10 ^ p) := not_mem_digits hi (by decide)
    have he : 'e' ∉ decimal (m / 10 ^ p) ++ '.' :: f := by
      intro h
      rw [List.mem_append, List.mem_cons] at h
      rcases h with h | h | h
      · exact not_mem_digits hi (by decide) h
      · exact absurd h (by decide)
      · exact not_mem_digits hfd (by decide) h
    have hf0 : f ≠ [] := by
      intro h
      rw [h] at hfl
      simp at hfl
      omega
    unfold readPositive
    rw [cut_none he]
    simp only
    unfold readUnsigned
    rw [cut_sep, cut_none hi', cut_none (not_mem_digits hfd (by decide))]
    simp only [List.cons_append, List.nil_append]
    rw [if_pos ⟨decimal_ne_nil _, hf0⟩, readNat_val (by simp [decimal_ne_nil]) (digits_append.2 ⟨hi, hfd⟩)]
    rw [val_append, val_decimal, hfl, hfv]
    simp only [Option.map_some]
    rw [mul_comm (m / 10 ^ p), Nat.div_add_mod]
  · have hne := decimal_ne_nil (m / 10 ^ p)
    cases h : decimal (m / 10 ^ p) with
    | nil => exact (hne h).elim
    | cons c t =>
      rw [h] at hi
      exact ⟨c, t ++ '.' :: f, rfl, hi c (by simp)⟩

theorem nonneg_half {p : ℕ} {x : K} (hx : 0 ≤ x) :
    |((((nearestEven (x * 10 ^ p)).toNat : ℚ) / 10 ^ p : ℚ) : K) - x| ≤ 1 / 2 / 10 ^ p := by
  have h0 : (0 : ℤ) ≤ nearestEven (x * 10 ^ p) := le_nearestEven (by push_cast; positivity)
  have ht : ((nearestEven (x * 10 ^ p)).toNat : K) = nearestEven (x * 10 ^ p) := by
    have : ((nearestEven (x * 10 ^ p)).toNat : ℤ) = nearestEven (x * 10 ^ p) := Int.toNat_of_nonneg h0
    exact_mod_cast congrArg (Int.cast (R := K)) this
  have h := nearestEven_half (x * 10 ^ p)
  push_cast
  rw [ht]
  have e : (nearestEven (x * 10 ^ p) : K) / 10 ^ p - x = (nearestEven (x * 10 ^ p) - x * 10 ^ p) / 10 ^ p := by
    rw [sub_div, mul_div_cancel_right₀ _ (by positivity)]
  rw [e, abs_div, abs_of_pos (show (0 : K) < 10 ^ p by positivity)]
  exact div_le_div_of_nonneg_right h (by positivity)

theorem readNumber_fixed {p : ℕ} (hp : 0 < p) (x : K) : ∃ d, readNumber (fixedText p x) = some d ∧ |(d : K) - x| ≤ 1 / 2 / 10 ^ p := by
  unfold fixedText signed
  split_ifs with h
  · refine ⟨-(((nearestEven (-x * 10 ^ p)).toNat : ℚ) / 10 ^ p), ?_, ?_⟩
    · show (readPositive _).map _ = _
      rw [(nonnegativeFixed_spec hp).1]
      rfl
    · have := nonneg_half (p := p) (x := -x) (by linarith)
      rw [← abs_neg] at this
      convert this using 2
      push_cast
      ring
  · obtain ⟨c, t, e, hc⟩ := (nonnegativeFixed_spec (p := p) (x := x) hp).2
    refine ⟨_, ?_, nonneg_half (not_lt.1 h)⟩
    rw [e, readNumber_digit hc, ← e, (nonnegativeFixed_spec hp).1]

end

end Humoto.LogNumber
