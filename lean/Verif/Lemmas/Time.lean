import Mathlib.Tactic.Linarith
import Mathlib.Tactic.Ring
import Mathlib.Tactic.NormNum
import Mathlib.Tactic.Positivity
import Mathlib.Tactic.FieldSimp
import Verif.Spec.Time

/-!
# Lemmas about times: rounding of doubles
-/

namespace Humoto.Time

theorem roundHalfEven_near (x : ℚ) : |(roundHalfEven x : ℚ) - x| ≤ 1 / 2 := by
  have h1 := Int.floor_le x
  have h2 := Int.lt_floor_add_one x
  unfold roundHalfEven
  split_ifs with a b c <;> rw [abs_le] <;> constructor <;> push_cast <;> linarith

theorem roundHalfEven_int (n : ℤ) : roundHalfEven (n : ℚ) = n := by
  unfold roundHalfEven
  rw [if_pos (by norm_num [Int.floor_intCast])]
  simp

theorem roundHalfEven_mono {x y : ℚ} (h : x ≤ y) : roundHalfEven x ≤ roundHalfEven y := by
  rcases lt_or_eq_of_le (Int.floor_le_floor h) with hlt | heq
  · have h1 : roundHalfEven x ≤ ⌊x⌋ + 1 := by unfold roundHalfEven; split_ifs <;> omega
    have h2 : ⌊y⌋ ≤ roundHalfEven y := by unfold roundHalfEven; split_ifs <;> omega
    omega
  · unfold roundHalfEven
    rw [← heq]
    split_ifs <;> first | omega | (exfalso; linarith)

theorem roundHalfEven_nonneg {x : ℚ} (h : 0 ≤ x) : 0 ≤ roundHalfEven x := by
  have := roundHalfEven_mono h
  rwa [show (0 : ℚ) = ((0 : ℤ) : ℚ) by norm_num, roundHalfEven_int] at this

theorem ulp_pos (x : ℚ) : 0 < ulp x := zpow_pos (by norm_num) _

/-- The rounding of numbers which are not negative. -/
def binary64Pos (x : ℚ) : ℚ := roundHalfEven (x / ulp x) * ulp x

theorem binary64_pos {x : ℚ} (h : 0 ≤ x) : binary64 x = binary64Pos x := if_pos h

theorem binary64_neg {x : ℚ} (h : x < 0) : binary64 x = -binary64Pos (-x) := by
  unfold binary64 binary64Pos
  rw [if_neg (not_le.2 h)]

theorem binary64Pos_nonneg {x : ℚ} (h : 0 ≤ x) : 0 ≤ binary64Pos x := by
  have := roundHalfEven_nonneg (div_nonneg h (ulp_pos x).le)
  exact mul_nonneg (by exact_mod_cast this) (ulp_pos x).le

theorem binary64Pos_zero : binary64Pos 0 = 0 := by
  unfold binary64Pos
  rw [zero_div, show (0 : ℚ) = ((0 : ℤ) : ℚ) by norm_num, roundHalfEven_int]
  simp

theorem two_zpow_log_le {x : ℚ} (h : 0 < x) : (2 : ℚ) ^ Int.log 2 x ≤ x := by
  have := Int.zpow_log_le_self (b := 2) (r := x) (by norm_num) h
  exact_mod_cast this

theorem lt_two_zpow_log (x : ℚ) : x < (2 : ℚ) ^ (Int.log 2 x + 1) := by
  have := Int.lt_zpow_succ_log_self (b := 2) (by norm_num) x
  exact_mod_cast this

theorem binary64Pos_near {x : ℚ} (h : 0 ≤ x) : |binary64Pos x - x| ≤ |x| / 2 ^ 53 + 1 / 2 ^ 200 := by
  rcases h.eq_or_lt with rfl | hx
  · rw [binary64Pos_zero]; norm_num
  have hu := ulp_pos x
  have h1 : |binary64Pos x - x| ≤ ulp x / 2 := by
    have := roundHalfEven_near (x / ulp x)
    unfold binary64Pos
    have e : (roundHalfEven (x / ulp x) : ℚ) * ulp x - x = ((roundHalfEven (x / ulp x) : ℚ) - x / ulp x) * ulp x := by
      field_simp
    rw [e, abs_mul, abs_of_pos hu]
    nlinarith
  refine h1.trans ?_
  rw [abs_of_pos hx]
  have h2 := two_zpow_log_le hx
  unfold ulp
  rcases le_total (Int.log 2 x - 52) (-1074) with hc | hc
  · rw [max_eq_right hc]
    have h3 : (2 : ℚ) ^ (-1074 : ℤ) ≤ 2 ^ (-199 : ℤ) := zpow_le_zpow_right₀ (by norm_num) (by norm_num)
    have e : (2 : ℚ) ^ (-199 : ℤ) / 2 = 1 / 2 ^ 200 := by norm_num
    have h4 : 0 ≤ x / 2 ^ 53 := by positivity
    calc (2 : ℚ) ^ (-1074 : ℤ) / 2 ≤ 2 ^ (-199 : ℤ) / 2 := div_le_div_of_nonneg_right h3 (by norm_num)
      _ = 1 / 2 ^ 200 := e
      _ ≤ x / 2 ^ 53 + 1 / 2 ^ 200 := le_add_of_nonneg_left h4
  · rw [max_eq_left hc]
    have e : (2 : ℚ) ^ (Int.log 2 x - 52) = 2 ^ Int.log 2 x / 2 ^ 52 := by
      rw [zpow_sub₀ (by norm_num)]; norm_num
    rw [e]
    have : (0 : ℚ) ≤ 1 / 2 ^ 200 := by positivity
    have : (2 : ℚ) ^ Int.log 2 x / 2 ^ 52 / 2 ≤ x / 2 ^ 53 := by
      rw [div_div, show (2 : ℚ) ^ 52 * 2 = 2 ^ 53 by norm_num]
      gcongr
    linarith

theorem binary64_near (x : ℚ) : |binary64 x - x| ≤ |x| / 2 ^ 53 + 1 / 2 ^ 200 := by
  rcases le_or_gt 0 x with h | h
  · rw [binary64_pos h]; exact binary64Pos_near h
  · rw [binary64_neg h]
    have := binary64Pos_near (x := -x) (by linarith)
    rw [abs_neg] at this
    rwa [show -binary64Pos (-x) - x = -(binary64Pos (-x) - -x) by ring, abs_neg]

theorem log_mono {x y : ℚ} (hx : 0 < x) (h : x ≤ y) : Int.log 2 x ≤ Int.log 2 y := Int.log_mono_right hx h

theorem binary64Pos_mono {x y : ℚ} (hx : 0 ≤ x) (h : x ≤ y) : binary64Pos x ≤ binary64Pos y := by
  rcases hx.eq_or_lt with rfl | hx
  · rw [binary64Pos_zero]; exact binary64Pos_nonneg h
  have hy : 0 < y := lt_of_lt_of_le hx h
  set a := max (Int.log 2 x - 52) (-1074) with ha
  set b := max (Int.log 2 y - 52) (-1074) with hb
  have hab : a ≤ b := max_le_max (sub_le_sub_right (log_mono hx h) _) le_rfl
  rcases hab.eq_or_lt with e | hlt
  · have e' : ulp x = ulp y := by unfold ulp; rw [← ha, ← hb, e]
    unfold binary64Pos
    rw [e']
    have := roundHalfEven_mono (div_le_div_of_nonneg_right h (ulp_pos y).le)
    exact mul_le_mul_of_nonneg_right (by exact_mod_cast this) (ulp_pos y).le
  · -- a power of two is in between
    have hly : b = Int.log 2 y - 52 := by
      rw [hb]; apply max_eq_left
      by_contra hc
      rw [hb, max_eq_right (not_le.1 hc).le] at hlt
      have : (-1074 : ℤ) ≤ a := le_max_right _ _
      omega
    have hlx : Int.log 2 x + 1 ≤ Int.log 2 y := by
      have : Int.log 2 x - 52 ≤ a := le_max_left _ _
      omega
    have hp : (2 : ℚ) ^ (Int.log 2 x + 1) ≤ 2 ^ Int.log 2 y := zpow_le_zpow_right₀ (by norm_num) hlx
    have h1 : binary64Pos x ≤ 2 ^ Int.log 2 y := by
      have hle : x / ulp x ≤ ((2 ^ (Int.log 2 y - a).toNat : ℤ) : ℚ) := by
        rw [div_le_iff₀ (ulp_pos x)]
        have : ((2 ^ (Int.log 2 y - a).toNat : ℤ) : ℚ) * ulp x = 2 ^ Int.log 2 y := by
          unfold ulp
          rw [← ha]
          push_cast
          rw [← zpow_natCast, ← zpow_add₀ (by norm_num)]
          congr 1
          omega
        rw [this]
        exact (lt_two_zpow_log x).le.trans hp
      have := roundHalfEven_mono hle
      rw [roundHalfEven_int] at this
      unfold binary64Pos
      have h2 : (roundHalfEven (x / ulp x) : ℚ) ≤ ((2 ^ (Int.log 2 y - a).toNat : ℤ) : ℚ) := by exact_mod_cast this
      refine (mul_le_mul_of_nonneg_right h2 (ulp_pos x).le).trans ?_
      unfold ulp
      rw [← ha]
      push_cast
      rw [← zpow_natCast, ← zpow_add₀ (by norm_num)]
      apply zpow_le_zpow_right₀ (by norm_num)
      omega
    have h2 : (2 : ℚ) ^ Int.log 2 y ≤ binary64Pos y := by
      have hle : ((2 ^ 52 : ℤ) : ℚ) ≤ y / ulp y := by
        rw [le_div_iff₀ (ulp_pos y)]
        unfold ulp
        rw [← hb, hly]
        have : ((2 ^ 52 : ℤ) : ℚ) * 2 ^ (Int.log 2 y - 52) = 2 ^ Int.log 2 y := by
          rw [zpow_sub₀ (by norm_num)]; push_cast; norm_num; field_simp
        rw [this]
        exact two_zpow_log_le hy
      have := roundHalfEven_mono hle
      rw [roundHalfEven_int] at this
      unfold binary64Pos
      have h2 : ((2 ^ 52 : ℤ) : ℚ) ≤ (roundHalfEven (y / ulp y) : ℚ) := by exact_mod_cast this
      refine le_trans ?_ (mul_le_mul_of_nonneg_right h2 (ulp_pos y).le)
      unfold ulp
      rw [← hb, hly]
      have : ((2 ^ 52 : ℤ) : ℚ) * 2 ^ (Int.log 2 y - 52) = 2 ^ Int.log 2 y := by
        rw [zpow_sub₀ (by norm_num)]; push_cast; norm_num; field_simp
      rw [this]
    exact h1.trans h2

theorem binary64_mono {x y : ℚ} (h : x ≤ y) : binary64 x ≤ binary64 y := by
  rcases le_or_gt 0 x with hx | hx
  · rw [binary64_pos hx, binary64_pos (hx.trans h)]
    exact binary64Pos_mono hx h
  · rw [binary64_neg hx]
    rcases le_or_gt 0 y with hy | hy
    · rw [binary64_pos hy]
      have := binary64Pos_nonneg (x := -x) (by linarith)
      have := binary64Pos_nonneg hy
      linarith
    · rw [binary64_neg hy]
      exact neg_le_neg (binary64Pos_mono (by linarith) (by linarith))

/-- Multiples of the step are kept. -/
theorem binary64Pos_exact {x : ℚ} {k : ℤ} (h : x = k * ulp x) : binary64Pos x = x := by
  unfold binary64Pos
  have : x / ulp x = k := by rw [div_eq_iff (ulp_pos x).ne']; exact h
  rw [this, roundHalfEven_int]
  exact h.symm

theorem binary64Pos_nat {n : ℕ} (h : n ≤ 2 ^ 53) : binary64Pos n = n := by
  rcases Nat.eq_zero_or_pos n with rfl | hn
  · exact_mod_cast binary64Pos_zero
  have hlog : Int.log 2 (n : ℚ) = (Nat.log 2 n : ℤ) := Int.log_natCast 2 n
  have hu : ulp n = 2 ^ ((Nat.log 2 n : ℤ) - 52) := by
    unfold ulp
    rw [hlog, max_eq_left]
    omega
  have hl : Nat.log 2 n ≤ 53 := by
    have := Nat.log_mono_right (b := 2) h
    rwa [Nat.log_pow (by norm_num)] at this
  rcases Nat.lt_or_ge (Nat.log 2 n) 53 with hlt | hge
  · apply binary64Pos_exact (k := (n * 2 ^ (52 - Nat.log 2 n) : ℕ))
    rw [hu]
    push_cast
    rw [mul_assoc, ← zpow_natCast, ← zpow_add₀ (by norm_num)]
    rw [show ((52 - Nat.log 2 n : ℕ) : ℤ) + ((Nat.log 2 n : ℤ) - 52) = 0 by omega]
    simp
  · have hn : n = 2 ^ 53 := by
      have := Nat.pow_log_le_self 2 (show n ≠ 0 by omega)
      rw [show Nat.log 2 n = 53 by omega] at this
      omega
    apply binary64Pos_exact (k := 2 ^ 52)
    rw [hu, show Nat.log 2 n = 53 by omega, hn]
    norm_num

theorem binary64_exact {n : ℤ} (h : |n| ≤ 2 ^ 53) : binary64 n = n := by
  rcases le_or_gt 0 n with hn | hn
  · obtain ⟨k, rfl⟩ := Int.eq_ofNat_of_zero_le hn
    rw [binary64_pos (by exact_mod_cast hn)]
    exact_mod_cast binary64Pos_nat (by rw [abs_of_nonneg hn] at h; exact_mod_cast h)
  · obtain ⟨k, hk⟩ := Int.eq_ofNat_of_zero_le (show 0 ≤ -n by omega)
    rw [binary64_neg (by exact_mod_cast hn)]
    have hk' : (-(n : ℚ)) = (k : ℚ) := by exact_mod_cast hk
    rw [hk', binary64Pos_nat (by rw [abs_of_neg hn, hk] at h; exact_mod_cast h), ← hk']
    ring

theorem rounding_binary64 : Spec.Rounding binary64 where
  near := fun x _ => binary64_near x
  exact := fun _ h => binary64_exact h
  mono := fun _ _ h => binary64_mono h

theorem rounding_id : Spec.Rounding (fun x => x) where
  near := fun x _ => by rw [sub_self, abs_zero]; positivity
  exact := fun _ _ => rfl
  mono := fun _ _ h => h

/-! ## Conversions -/

theorem cRound_eq {x : ℚ} {n : ℕ} (h : |x - n| < 1 / 2) : cRound x = n := by
  rw [abs_lt] at h
  unfold cRound
  split_ifs with hx
  · rw [Int.floor_eq_iff]
    push_cast
    constructor <;> linarith
  · have hn : n = 0 := by
      by_contra hc
      have : (1 : ℚ) ≤ n := by exact_mod_cast Nat.one_le_iff_ne_zero.2 hc
      linarith
    subst hn
    rw [Int.ceil_eq_iff]
    push_cast at h ⊢
    constructor <;> linarith

theorem castToSize_nat {n : ℕ} (h : n < 2 ^ 64) : castToSize (n : ℤ) = .ok n := by
  unfold castToSize
  rw [if_pos ⟨by omega, by exact_mod_cast h⟩]
  simp

variable {fl : ℚ → ℚ}

/-- One rounding. -/
theorem Spec.Rounding.bounds (r : Spec.Rounding fl) {x b : ℚ} (h : |x| ≤ b) (hb : b ≤ 2 ^ 100) :
    x - (b / 2 ^ 53 + 1 / 2 ^ 200) ≤ fl x ∧ fl x ≤ x + (b / 2 ^ 53 + 1 / 2 ^ 200) := by
  have h1 := (r.near x (h.trans hb)).trans (add_le_add_left (div_le_div_of_nonneg_right h (by norm_num)) _)
  rw [abs_le] at h1
  constructor <;> linarith [h1.1, h1.2]

theorem Spec.Rounding.nat (r : Spec.Rounding fl) {n : ℕ} (h : n ≤ 2 ^ 53) : fl n = n := by
  have := r.exact n (by rw [abs_of_nonneg (by omega)]; exact_mod_cast h)
  exact_mod_cast this

/-- Errors of the conversion there and back. -/
theorem there_and_back (r : Spec.Rounding fl) {n : ℕ} (h : n < 2 ^ 51) :
    |fl (convertMillisecondToSecond fl n * 1000) - n| < 1 / 2 := by
  have hN : (n : ℚ) ≤ 2251799813685247 := by
    have : n ≤ 2251799813685247 := by omega
    exact_mod_cast this
  have h0 : (0 : ℚ) ≤ n := Nat.cast_nonneg n
  unfold convertMillisecondToSecond
  rw [r.nat (by omega)]
  generalize (n : ℚ) = N at hN h0 ⊢
  obtain ⟨h1, h2⟩ := r.bounds (x := N / 1000) (b := N / 1000) (abs_of_nonneg (by positivity)).le (by linarith)
  generalize fl (N / 1000) = x at h1 h2 ⊢
  obtain ⟨h3, h4⟩ := r.bounds (x := x * 1000) (b := N + N / 2 ^ 53 + 1000 / 2 ^ 200)
    (by rw [abs_le]; constructor <;> linarith) (by linarith)
  rw [abs_lt]
  constructor <;> linarith

end Humoto.Time
