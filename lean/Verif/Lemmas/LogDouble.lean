import Verif.Lemmas.LogNumber
import Verif.Lemmas.Time

namespace Humoto.LogNumber

open Time

theorem log_ge {x : ℚ} (hx : 0 < x) {e : ℤ} (h : (2 : ℚ) ^ e ≤ x) : e ≤ Int.log 2 x := by
  by_contra hc
  have h1 := lt_two_zpow_log x
  have h2 : (2 : ℚ) ^ (Int.log 2 x + 1) ≤ 2 ^ e := zpow_le_zpow_right₀ (by norm_num) (by omega)
  linarith

theorem ulp_normal {x : ℚ} (hx : 0 < x) (h : (2 : ℚ) ^ (-1022 : ℤ) ≤ x) : ulp x = 2 ^ (Int.log 2 x - 52) := by
  have := log_ge hx h
  unfold ulp
  rw [max_eq_left (by omega)]

theorem binary64Pos_normal {x : ℚ} (hx : 0 < x) (h : (2 : ℚ) ^ (-1022 : ℤ) ≤ x) : |binary64Pos x - x| ≤ x / 2 ^ 53 := by
  have hu := ulp_pos x
  have h1 : |binary64Pos x - x| ≤ ulp x / 2 := by
    have := roundHalfEven_near (x / ulp x)
    unfold binary64Pos
    have e : (roundHalfEven (x / ulp x) : ℚ) * ulp x - x = ((roundHalfEven (x / ulp x) : ℚ) - x / ulp x) * ulp x := by
      field_simp
    rw [e, abs_mul, abs_of_pos hu]
    nlinarith
  refine h1.trans ?_
  rw [ulp_normal hx h, zpow_sub₀ (by norm_num)]
  have := two_zpow_log_le hx
  rw [div_div]
  have e : (2 : ℚ) ^ (52 : ℤ) * 2 = 2 ^ 53 := by norm_num
  rw [e]
  gcongr

theorem binary64_normal {x : ℚ} (h : (2 : ℚ) ^ (-1022 : ℤ) ≤ |x|) : |binary64 x - x| ≤ |x| / 2 ^ 53 := by
  have hz : (0 : ℚ) < 2 ^ (-1022 : ℤ) := zpow_pos (by norm_num) _
  rcases le_or_gt 0 x with hx | hx
  · rw [abs_of_nonneg hx] at h ⊢
    rw [binary64_pos hx]
    exact binary64Pos_normal (lt_of_lt_of_le hz h) h
  · rw [abs_of_neg hx] at h ⊢
    rw [binary64_neg hx, ← abs_neg]
    have := binary64Pos_normal (x := -x) (by linarith) h
    convert this using 2
    ring

theorem binary64_opp (x : ℚ) : binary64 (-x) = -binary64 x := by
  rcases lt_trichotomy x 0 with h | h | h
  · rw [binary64_neg h, binary64_pos (by linarith), neg_neg]
  · subst h
    rw [neg_zero, binary64_pos le_rfl, binary64Pos_zero, neg_zero]
  · rw [binary64_neg (by linarith), neg_neg, binary64_pos h.le]

/-- A double and a number near to it. -/
theorem binary64Pos_back {x d : ℚ} (hx : 0 < x) (h : (2 : ℚ) ^ (-1021 : ℤ) ≤ x) (hb : binary64Pos x = x)
    (hd : |d - x| ≤ x * (10 / 10 ^ 17) / 2) : binary64Pos d = x := by
  have hz : (2 : ℚ) ^ (-1022 : ℤ) ≤ 2 ^ (-1021 : ℤ) := zpow_le_zpow_right₀ (by norm_num) (by norm_num)
  have hL := log_ge hx h
  have hu := ulp_pos x
  have hul := ulp_normal hx (hz.trans h)
  have h1 := two_zpow_log_le hx
  have h2 := lt_two_zpow_log x
  obtain ⟨d1, d2⟩ := abs_le.1 hd
  have hd0 : 0 < d := by linarith
  generalize hk : roundHalfEven (x / ulp x) = k
  have hxk : x = k * ulp x := by
    rw [← hk]
    exact hb.symm
  have hp : (2 : ℚ) ^ Int.log 2 x = 2 ^ 52 * ulp x := by
    rw [hul, ← zpow_natCast, ← zpow_add₀ (by norm_num)]
    congr 1
    push_cast
    omega
  have hp1 : (2 : ℚ) ^ (Int.log 2 x + 1) = 2 ^ 53 * ulp x := by
    rw [zpow_add₀ (by norm_num), hp]
    ring
  have round : ∀ {v : ℚ} {n : ℤ}, 0 < v → ulp d = v → |d - n * v| < v / 2 → binary64Pos d = n * v := by
    intro v n hv hud hn
    unfold binary64Pos
    rw [hud]
    have : roundHalfEven (d / v) = n := by
      apply nearestEven_eq (K := ℚ)
      have e : d / v - n = (d - n * v) / v := by rw [sub_div, mul_div_cancel_right₀ _ hv.ne']
      rw [e, abs_div, abs_of_pos hv, div_lt_iff₀ hv]
      linarith
    rw [this]
  have hlog : ∀ e : ℤ, (2 : ℚ) ^ e ≤ d → d < 2 ^ (e + 1) → Int.log 2 d = e := by
    intro e he1 he2
    have := log_ge hd0 he1
    by_contra hc
    have h3 := two_zpow_log_le hd0
    have h4 : (2 : ℚ) ^ (e + 1) ≤ 2 ^ Int.log 2 d := zpow_le_zpow_right₀ (by norm_num) (by omega)
    linarith
  generalize ulp x = u at *
  rw [hp] at h1
  rw [hp1] at h2
  have k1 : (2 : ℤ) ^ 52 ≤ k := by
    have : (2 : ℚ) ^ 52 ≤ k := by
      rw [hxk] at h1
      exact le_of_mul_le_mul_right h1 hu
    exact_mod_cast this
  have k2 : k + 1 ≤ (2 : ℤ) ^ 53 := by
    have : (k : ℚ) < 2 ^ 53 := by
      rw [hxk] at h2
      exact lt_of_mul_lt_mul_right h2 hu.le
    have : k < (2 : ℤ) ^ 53 := by exact_mod_cast this
    omega
  have k2' : (k : ℚ) * u + u ≤ 2 ^ 53 * u := by
    have : (k : ℚ) + 1 ≤ 2 ^ 53 := by exact_mod_cast k2
    have := mul_le_mul_of_nonneg_right this hu.le
    linarith
  norm_num at h1 h2 d1 d2 k2'
  by_cases hc : (2 : ℚ) ^ Int.log 2 x ≤ d
  · have hl := hlog _ hc (by rw [hp1]; norm_num; linarith)
    have hud : ulp d = u := by
      unfold ulp
      rw [hl, max_eq_left (by omega), hul]
    rw [hxk]
    apply round hu hud
    rw [← hxk, abs_lt]
    constructor <;> linarith
  · rw [hp] at hc
    norm_num at hc
    have hk52 : k = 2 ^ 52 := by
      by_contra hne
      have : (2 : ℤ) ^ 52 + 1 ≤ k := by omega
      have : (2 : ℚ) ^ 52 + 1 ≤ k := by exact_mod_cast this
      have := mul_le_mul_of_nonneg_right this hu.le
      rw [← hxk] at this
      norm_num at this
      linarith
    have hx52 : x = 2 ^ 52 * u := by
      rw [hxk, hk52]
      norm_num
    norm_num at hx52
    have e2 : (2 : ℚ) ^ (Int.log 2 x - 1) = 2 ^ 51 * u := by
      rw [zpow_sub₀ (by norm_num), hp]
      norm_num
      ring
    have hl := hlog (Int.log 2 x - 1) (by rw [e2]; norm_num; linarith) (by rw [sub_add_cancel, hp]; norm_num; linarith)
    have hud : ulp d = u / 2 := by
      unfold ulp
      rw [hl, max_eq_left (by omega), hul, show Int.log 2 x - 1 - 52 = Int.log 2 x - 52 - 1 by ring, zpow_sub₀ (by norm_num)]
      norm_num
    have := round (n := 2 ^ 53) (half_pos hu) hud (by
      rw [abs_lt]
      push_cast
      constructor <;> linarith)
    rw [this, hx52]
    push_cast
    ring

theorem binary64_back {x d : ℚ} (h : (2 : ℚ) ^ (-1021 : ℤ) ≤ |x|) (hb : binary64 x = x) (hd : |d - x| ≤ |x| * (10 / 10 ^ 17) / 2) :
    binary64 d = x := by
  have hz : (0 : ℚ) < 2 ^ (-1021 : ℤ) := zpow_pos (by norm_num) _
  have key : ∀ {x d : ℚ}, (2 : ℚ) ^ (-1021 : ℤ) ≤ x → binary64 x = x → |d - x| ≤ x * (10 / 10 ^ 17) / 2 → binary64 d = x := by
    intro x d h hb hd
    have hx := lt_of_lt_of_le hz h
    have hd0 : 0 ≤ d := by
      have := (abs_le.1 hd).1
      linarith
    rw [binary64_pos hx.le] at hb
    rw [binary64_pos hd0]
    exact binary64Pos_back hx h hb hd
  rcases le_or_gt 0 x with hx | hx
  · rw [abs_of_nonneg hx] at h hd
    exact key h hb hd
  · rw [abs_of_neg hx] at h hd
    have := key (x := -x) (d := -d) h (by rw [binary64_opp, hb]) (by
      rw [← abs_neg]
      convert hd using 2
      ring)
    rw [binary64_opp] at this
    linarith

section
variable {K : Type} [Field K] [LinearOrder K] [FloorRing K]

theorem log_state (eigen : ℕ) (s : Stream) (i : Item K) : (s.log eigen i).fixed = s.fixed ∧ (s.log eigen i).precision = s.precision := by
  cases i <;> exact ⟨rfl, rfl⟩

theorem log_text (eigen : ℕ) (s : Stream) (h1 : s.fixed = false) (h2 : s.precision = 15) (i : Item K) :
    (s.log eigen i).text = s.text ++ i.expected eigen := by
  have e1 : " = ".toList = [' ', '=', ' '] := by decide
  have e2 : ";\n".toList = [';', '\n'] := by decide
  have e3 : " = ...\n".toList = [' ', '=', ' ', '.', '.', '.', '\n'] := by decide
  have e4 : "\n".toList = ['\n'] := by decide
  cases i with
  | number name x =>
    unfold Stream.log Stream.put Stream.format Item.expected
    rw [h1, h2, e1, e2]
    simp only [List.append_assoc, Bool.false_eq_true, if_false]
  | matrix name rows =>
    unfold Stream.log Stream.matrix Stream.put Stream.format Item.expected
    rw [h1, e3, e4]
    simp only [List.append_assoc, Bool.false_eq_true, if_false]
  | timer t =>
    unfold Stream.log Stream.timer Stream.put Stream.format Item.expected
    rw [e4]
    simp only [List.append_assoc, if_true]
  | other text => rfl

end

end Humoto.LogNumber
