import Verif.Lemmas.LogDouble
import Verif.Spec.LogNumber
import Verif.Props.LogTree

/-!
# C105: numbers in logs

`readNumber` of `Verif/Spec/LogNumber.lean` reads a decimal number with an optional sign, fraction and exponent. The theorems say how the
number which is read is related to the number which was logged.
-/

namespace Humoto.LogNumber

open LogName LogText LogText.Spec Time

section
variable {K : Type} [Field K] [LinearOrder K] [IsStrictOrderedRing K] [FloorRing K]

/-- C105: the text of a number is a number, namely the nearest one with the given number of significant digits: the relative error is at
most a half of a unit of the last digit. -/
theorem C105_nearest {p : ℕ} (hp : 0 < p) (x : K) :
    ∃ d, readNumber (generalText p x) = some d ∧ NearestDecimal p x d ∧ |(d : K) - x| ≤ |x| * (10 / 10 ^ p) / 2 :=
  ⟨writtenNumber p x, readNumber_text hp x, nearest_number hp x, number_half x⟩

/-- C105: the order of numbers is preserved (different numbers can have equal texts), and so are signs and zero. -/
theorem C105_order {p : ℕ} (hp : 0 < p) {x y : K} {d e : ℚ} (hx : readNumber (generalText p x) = some d)
    (hy : readNumber (generalText p y) = some e) : (x ≤ y → d ≤ e) ∧ (0 < x ↔ 0 < d) ∧ (x < 0 ↔ d < 0) ∧ (x = 0 ↔ d = 0) := by
  rw [readNumber_text hp] at hx hy
  obtain rfl := Option.some.inj hx
  obtain rfl := Option.some.inj hy
  have key : (0 < x → 0 < writtenNumber p x) ∧ (x < 0 → writtenNumber p x < 0) := by
    have h := number_half (p := p) x
    have h10 : (10 : K) / 10 ^ p ≤ 1 := by
      rw [div_le_one (by positivity)]
      calc (10 : K) = 10 ^ 1 := (pow_one _).symm
        _ ≤ 10 ^ p := pow_le_pow_right₀ (by norm_num) hp
    constructor
    · intro h0
      rw [abs_of_pos h0] at h
      have h1 := mul_le_mul_of_nonneg_left h10 h0.le
      have := (abs_le.1 h).1
      have : (0 : K) < (writtenNumber p x : ℚ) := by linarith
      exact_mod_cast this
    · intro h0
      rw [abs_of_neg h0] at h
      have h1 := mul_le_mul_of_nonneg_left h10 (neg_nonneg.2 h0.le)
      have := (abs_le.1 h).2
      have : ((writtenNumber p x : ℚ) : K) < 0 := by linarith
      exact_mod_cast this
  have hz : x = 0 → writtenNumber p x = 0 := fun h => if_pos h
  refine ⟨number_mono hp, ?_, ?_, ?_⟩
  all_goals
    rcases lt_trichotomy x 0 with h | h | h
    · have := key.2 h
      constructor <;> intro _ <;> linarith
    · have := hz h
      constructor <;> intro _ <;> linarith
    · have := key.1 h
      constructor <;> intro _ <;> linarith

/-- C105: the text is legible in the sense of C104: it is not empty and has no separators. -/
theorem C105_legible (p : ℕ) (x : K) : Token (generalText p x) := token_text x

/-- C105: a time in seconds is given with the precision of a half of a microsecond. -/
theorem C105_timer (s : Stream) (t : K) :
    ∃ text d, s.timer t = { s with text := s.text ++ ("Timer value = ".toList ++ text) } ∧ readNumber text = some d ∧
      |(d : K) - t| ≤ 1 / 2000000 := by
  obtain ⟨d, h1, h2⟩ := readNumber_fixed (p := 6) (by norm_num) t
  refine ⟨fixedText 6 t, d, ?_, h1, h2.trans (by norm_num)⟩
  simp only [Stream.timer, Stream.put, Stream.format, if_true, List.append_assoc]

/-- C105: everything that is logged to a file, and to any stream of the user whose notation is the default one, is written with 15
significant digits (matrices: with the number of digits of Eigen), independently of what was logged before. -/
theorem C105_stream (eigen : ℕ) (items : List (Item K)) :
    (Stream.file.logAll eigen items).text = items.flatMap (Item.expected eigen) ∧
    ∀ s : Stream, s.fixed = false → (s.logAll eigen items).text = s.text ++ items.flatMap (Item.expected eigen) := by
  have key : ∀ (items : List (Item K)) (s : Stream), s.fixed = false → s.precision = 15 →
      (items.foldl (Stream.log eigen) s).text = s.text ++ items.flatMap (Item.expected eigen) := by
    intro items
    induction items with
    | nil => intro s _ _; simp
    | cons i items ih =>
      intro s h1 h2
      rw [List.foldl_cons, List.flatMap_cons, ← List.append_assoc]
      rw [ih _ ((log_state eigen s i).1.trans h1) ((log_state eigen s i).2.trans h2), log_text eigen s h1 h2 i]
  have all : ∀ s : Stream, s.fixed = false → (s.logAll eigen items).text = s.text ++ items.flatMap (Item.expected eigen) := by
    intro s hs
    unfold Stream.logAll
    rw [key items s.setDefaults hs (by unfold Stream.setDefaults; rfl)]
    unfold Stream.setDefaults
    rfl
  refine ⟨?_, all⟩
  rw [all _ (by unfold Stream.file; rfl)]
  unfold Stream.file
  rfl

/-- C105: a decimal number with at most 15 significant digits survives conversion to a double and logging: any number with a relative
distance of at most `2⁻⁵³` is logged as the decimal number. -/
theorem C105_digits {x : K} {d : ℚ} (hd : HasDigits 15 d) (h : |x - (d : K)| ≤ |(d : K)| / 2 ^ 53) :
    readNumber (generalText 15 x) = some d := by
  rw [readNumber_text (by norm_num), number_exact hd h]

end

/-- C105: in particular parameters which are given with at most 15 digits are logged as they are given (they are rounded to doubles, no
matter how many operations are needed to get the same double). -/
theorem C105_parameter {d : ℚ} (hd : HasDigits 15 d) (h : d = 0 ∨ (2 : ℚ) ^ (-1022 : ℤ) ≤ |d|) :
    readNumber (generalText 15 (binary64 d)) = some d := by
  rcases h with rfl | h
  · refine C105_digits hd ?_
    have : binary64 0 = 0 := by rw [binary64_pos le_rfl, binary64Pos_zero]
    rw [this]
    simp
  · exact C105_digits hd (by simpa using binary64_normal h)

/-- C105: if matrices are written with 17 digits, a reader gets exactly the double which was logged. -/
theorem C105_seventeen {x : ℚ} (h : x = 0 ∨ (2 : ℚ) ^ (-1021 : ℤ) ≤ |x|) (hb : binary64 x = x) :
    ∃ d, readNumber (generalText 17 x) = some d ∧ binary64 d = x := by
  obtain ⟨d, h1, h2, h3⟩ := C105_nearest (p := 17) (by norm_num) x
  refine ⟨d, h1, ?_⟩
  rcases h with rfl | h
  · have : d = 0 := by simpa using h3
    rw [this, hb]
  · exact binary64_back h hb (by simpa using h3)

/-- C105 is false of doubles themselves: two different doubles, 0.3 and the sum of 0.1 and 0.2, have the same text, hence a reader of a
log does not get the double which was logged. -/
theorem C105_double_refuted : ∃ x y : ℚ, binary64 x = x ∧ binary64 y = y ∧ x ≠ y ∧
    generalText 15 x = "0.3".toList ∧ generalText 15 y = "0.3".toList ∧ binary64 (3 / 10) = y :=
  ⟨binary64 (binary64 (1 / 10) + binary64 (1 / 5)), binary64 (3 / 10), by decide +kernel⟩

/-- C105 is false of streams of the user in the notation `std::fixed`: only the precision is changed by a logger, so that a number which is
not zero is logged as zero. -/
theorem C105_stream_refuted : ∃ (s : Stream) (x : ℚ), s.fixed = true ∧ x ≠ 0 ∧
    (s.logAll 15 [.number "gain".toList x]).text = "gain = 0.000000000000000;\n".toList ∧
    readNumber "0.000000000000000".toList = some 0 :=
  ⟨⟨6, true, []⟩, 1 / 10 ^ 16, by decide +kernel⟩

/-! ## Examples -/

/-- Different notations. -/
example : generalText 15 (1 / 10 : ℚ) = "0.1".toList ∧ generalText 15 (-1 / 3 : ℚ) = "-0.333333333333333".toList ∧
    generalText 15 (123456 / 1000 : ℚ) = "123.456".toList ∧ generalText 15 (1 / 100000 : ℚ) = "1e-05".toList ∧
    generalText 15 (10 ^ 15 : ℚ) = "1e+15".toList ∧ generalText 15 (10 ^ 20 - 1 : ℚ) = "1e+20".toList ∧
    generalText 6 (1234567 : ℚ) = "1.23457e+06".toList ∧ generalText 15 (0 : ℚ) = "0".toList ∧
    generalText 17 (binary64 (1 / 10)) = "0.10000000000000001".toList ∧ fixedText 6 (2 / 3 : ℚ) = "0.666667".toList ∧
    fixedText 6 (-5 / 4 : ℚ) = "-1.250000".toList := by decide +kernel

/-- A log with a number, a matrix and a time; the number after the time has 15 digits again. -/
example : (Stream.file.logAll 15 [.number "a".toList (1 / 3 : ℚ), .matrix "m".toList [[1, 1 / 2], [2 / 3, -4]], .timer (1 / 3),
      .number "b".toList (1 / 3)]).text =
    "a = 0.333333333333333;\nm = ...\n[                1,               0.5;\n  0.666666666666667,                -4];\n".toList ++
      "Timer value = 0.333333\nb = 0.333333333333333;\n".toList := by decide +kernel

/-- A parameter of a task. -/
example : readNumber (generalText 15 (binary64 (1 / 1000))) = some (1 / 1000) :=
  C105_parameter ⟨1, -3, by norm_num, by norm_num⟩ (Or.inr (by
    rw [abs_of_pos (by norm_num), zpow_neg]
    refine (inv_anti₀ (b := (2 : ℚ) ^ (10 : ℤ)) (by norm_num) (zpow_le_zpow_right₀ (by norm_num) (by norm_num))).trans (by norm_num)))

/-- Logs of violations (C104) with this text of numbers. -/
example (v : List (ViolationsC ℚ)) (hv : v.length < 2 ^ 64) :
    LogTree.ReadAs (LogTree.logViolations (generalText 15) v (LogName.Spec.entryName []) "v") [.name "v".toList]
      (LogTree.Spec.violations (generalText 15) v) :=
  LogTree.C104_violations (C105_legible 15) [] (by simp) "v" (by unfold Good; decide) v hv

end Humoto.LogNumber
