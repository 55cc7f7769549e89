import Verif.Lemmas.Time

/-!
# Properties of times
-/

namespace Humoto

open Humoto.Time Humoto.Time.Spec

variable {fl : ℚ → ℚ}

/-- The assumptions about doubles hold for the rounding to nearest in the format binary64, and for exact arithmetic. -/
example : Rounding binary64 := rounding_binary64
example : Rounding (fun x => x) := rounding_id

/-- **C102** A number of milliseconds survives the conversion to seconds and back, whatever the rounding errors of doubles are, for numbers
below `2 ^ 51` (more than seventy thousand years). -/
theorem C102_roundtrip (r : Rounding fl) {n : ℕ} (h : n < 2 ^ 51) :
    convertSecondToMillisecond fl (convertMillisecondToSecond fl n) = .ok n := by
  unfold convertSecondToMillisecond
  rw [cRound_eq (there_and_back r h)]
  exact castToSize_nat (by omega)

example : convertSecondToMillisecond binary64 (convertMillisecondToSecond binary64 1001) = .ok 1001 :=
  C102_roundtrip rounding_binary64 (by norm_num)

/-- **C102** Different numbers of milliseconds are different times, in the same order. -/
theorem C102_order (r : Rounding fl) {n m : ℕ} (hm : m < 2 ^ 51) :
    n < m ↔ convertMillisecondToSecond fl n < convertMillisecondToSecond fl m := by
  have mono : ∀ {a b : ℕ}, a ≤ b → convertMillisecondToSecond fl a ≤ convertMillisecondToSecond fl b := by
    intro a b h
    apply r.mono
    exact div_le_div_of_nonneg_right (r.mono _ _ (by exact_mod_cast h)) (by norm_num)
  constructor
  · intro h
    refine lt_of_le_of_ne (mono h.le) fun e => ?_
    have h1 := C102_roundtrip r (n := n) (by omega)
    rw [e, C102_roundtrip r hm] at h1
    cases h1
    omega
  · intro h
    by_contra hc
    exact absurd (mono (not_lt.1 hc)) (not_le.2 h)

theorem castToSize_ok {x : ℤ} (h0 : 0 ≤ x) (h1 : x < 2 ^ 64) : castToSize x = .ok x.toNat := if_pos ⟨h0, h1⟩

/-- Bounds of the scaled number of seconds. -/
theorem scaled_bounds (r : Rounding fl) {s : ℚ} (h0 : 0 ≤ s) (h1 : s * 1000 ≤ 2 ^ 63) :
    0 ≤ fl (s * 1000) ∧ fl (s * 1000) < 2 ^ 64 - 1 ∧ |fl (s * 1000) - s * 1000| ≤ s * 1000 / 2 ^ 53 + 1 / 2 ^ 200 := by
  have hs : 0 ≤ s * 1000 := by positivity
  have h2 := r.near (s * 1000) (by rw [abs_of_nonneg hs]; linarith)
  rw [abs_of_nonneg hs] at h2
  have h3 := abs_le.1 h2
  have hz : fl 0 = 0 := by exact_mod_cast r.nat (n := 0) (by norm_num)
  refine ⟨hz ▸ r.mono _ _ hs, ?_, h2⟩
  linarith [h3.2]

/-- **C102** The nearest number of milliseconds is returned for all times which are not negative and fit: the difference is at most half a
millisecond, apart from the error of one operation with doubles. -/
theorem C102_nearest (r : Rounding fl) {s : ℚ} (h0 : 0 ≤ s) (h1 : s * 1000 ≤ 2 ^ 63) :
    ∃ k, convertSecondToMillisecond fl s = .ok k ∧ |(k : ℚ) - s * 1000| ≤ 1 / 2 + (s * 1000 / 2 ^ 53 + 1 / 2 ^ 200) := by
  obtain ⟨ha, hb, hc⟩ := scaled_bounds r h0 h1
  unfold convertSecondToMillisecond
  generalize fl (s * 1000) = y at ha hb hc
  have hf : cRound y = ⌊y + 1 / 2⌋ := if_pos ha
  have hp : 0 ≤ ⌊y + 1 / 2⌋ := Int.floor_nonneg.2 (by linarith)
  have h2 := Int.floor_le (y + 1 / 2)
  have h3 := Int.lt_floor_add_one (y + 1 / 2)
  rw [hf]
  refine ⟨⌊y + 1 / 2⌋.toNat, castToSize_ok hp ?_, ?_⟩
  · have : ((⌊y + 1 / 2⌋ : ℤ) : ℚ) < ((2 ^ 64 : ℤ) : ℚ) := by push_cast; linarith
    exact_mod_cast this
  · have e : ((⌊y + 1 / 2⌋.toNat : ℕ) : ℚ) = (⌊y + 1 / 2⌋ : ℤ) := by exact_mod_cast Int.toNat_of_nonneg hp
    rw [e]
    have h4 := abs_le.1 hc
    rw [abs_le]
    constructor <;> linarith [h4.1, h4.2]

/-- **C102** Truncation returns the last full millisecond, apart from the error of one operation with doubles. -/
theorem C102_truncated (r : Rounding fl) {s : ℚ} (h0 : 0 ≤ s) (h1 : s * 1000 ≤ 2 ^ 63) :
    ∃ k, truncateSecondToMillisecond fl s = .ok k ∧ (k : ℚ) ≤ s * 1000 + (s * 1000 / 2 ^ 53 + 1 / 2 ^ 200) ∧
      s * 1000 - (s * 1000 / 2 ^ 53 + 1 / 2 ^ 200) < k + 1 := by
  obtain ⟨ha, hb, hc⟩ := scaled_bounds r h0 h1
  unfold truncateSecondToMillisecond
  generalize fl (s * 1000) = y at ha hb hc
  have hp : 0 ≤ ⌊y⌋ := Int.floor_nonneg.2 ha
  have h2 := Int.floor_le y
  have h3 := Int.lt_floor_add_one y
  have h4 := abs_le.1 hc
  refine ⟨⌊y⌋.toNat, castToSize_ok hp ?_, ?_⟩
  · have : ((⌊y⌋ : ℤ) : ℚ) < ((2 ^ 64 : ℤ) : ℚ) := by push_cast; linarith
    exact_mod_cast this
  · have e : ((⌊y⌋.toNat : ℕ) : ℚ) = (⌊y⌋ : ℤ) := by exact_mod_cast Int.toNat_of_nonneg hp
    rw [e]
    constructor <;> linarith [h4.1, h4.2]

/-- **C102** Negative times (a millisecond or more) and times which do not fit are not converted: undefined behaviour. -/
theorem C102_outside (r : Rounding fl) {s : ℚ} (h : s ≤ -(1 / 1000) ∨ 2 ^ 65 ≤ s * 1000) :
    convertSecondToMillisecond fl s = .error .ub ∧ truncateSecondToMillisecond fl s = .error .ub := by
  unfold convertSecondToMillisecond truncateSecondToMillisecond castToSize
  rcases h with h | h
  · have h1 : fl (s * 1000) ≤ -1 := by
      have h2 := r.exact (-1) (by norm_num)
      push_cast at h2
      rw [← h2]
      exact r.mono _ _ (by linarith)
    have h3 : cRound (fl (s * 1000)) < 0 := by
      unfold cRound
      rw [if_neg (by linarith)]
      have : ⌈fl (s * 1000) - 1 / 2⌉ ≤ -1 := by
        rw [Int.ceil_le]; push_cast; linarith
      omega
    have h4 : ⌊fl (s * 1000)⌋ < 0 := by
      rw [Int.floor_lt]; push_cast; linarith
    rw [if_neg (by omega), if_neg (by omega)]
    exact ⟨rfl, rfl⟩
  · have h1 : (2 : ℚ) ^ 64 ≤ fl (s * 1000) := by
      have h2 := r.bounds (x := 2 ^ 65) (b := 2 ^ 65) (by norm_num) (by norm_num)
      refine le_trans ?_ (h2.1.trans (r.mono _ _ h))
      norm_num
    have h3 : ¬ cRound (fl (s * 1000)) < 2 ^ 64 := by
      unfold cRound
      rw [if_pos (by linarith), not_lt, Int.le_floor]
      push_cast
      linarith
    have h4 : ¬ ⌊fl (s * 1000)⌋ < 2 ^ 64 := by
      rw [not_lt, Int.le_floor]
      push_cast
      exact h1
    rw [if_neg (fun h => h3 h.2), if_neg (fun h => h4 h.2)]
    exact ⟨rfl, rfl⟩

/-- **C102**, missing part: truncation after the conversion to seconds gives the same number or the previous one; see
`C102_truncated_refuted` for an example with the previous one. -/
theorem C102_truncated_partial (r : Rounding fl) {n : ℕ} (h : n < 2 ^ 51) :
    truncateSecondToMillisecond fl (convertMillisecondToSecond fl n) = .ok n ∨
      truncateSecondToMillisecond fl (convertMillisecondToSecond fl n) = .ok (n - 1) := by
  have h1 := abs_lt.1 (there_and_back r h)
  have h0 : 0 ≤ fl (convertMillisecondToSecond fl n * 1000) := by
    have hz : fl 0 = 0 := by exact_mod_cast r.nat (n := 0) (by norm_num)
    have h2 : 0 ≤ convertMillisecondToSecond fl n := by
      unfold convertMillisecondToSecond
      rw [r.nat (by omega)]
      refine hz.symm.le.trans (r.mono _ _ (by positivity))
    refine hz.symm.le.trans (r.mono _ _ (by positivity))
  unfold truncateSecondToMillisecond
  generalize fl (convertMillisecondToSecond fl n * 1000) = y at h1 h0
  rcases le_or_gt (n : ℚ) y with hy | hy
  · left
    have : ⌊y⌋ = n := by
      rw [Int.floor_eq_iff]; push_cast; constructor <;> linarith [h1.2]
    rw [this]
    exact castToSize_nat (by omega)
  · right
    have hn : 1 ≤ n := by
      by_contra hc
      have : n = 0 := by omega
      subst this
      push_cast at hy
      linarith
    have : ⌊y⌋ = ((n - 1 : ℕ) : ℤ) := by
      rw [Int.floor_eq_iff]
      push_cast [Nat.cast_sub hn]
      constructor <;> linarith [h1.1]
    rw [this]
    exact castToSize_nat (by omega)

/-- **C102** With the usual doubles truncation looses a millisecond: 1001 milliseconds are 1.001 seconds, and
`truncateSecondToMillisecond(1.001)` is 1000. -/
theorem C102_truncated_refuted :
    truncateSecondToMillisecond binary64 (convertMillisecondToSecond binary64 1001) = .ok 1000 := by
  decide +kernel

/-! ## Timers -/

/-- **C102** The value of a timer is the difference between the last stop and the last start before it, whatever was called before and
how often; it is zero if the timer was never stopped. -/
theorem C102_timer (now : TimeVal) (calls : List TimerCall) :
    (∀ s e, Measured now calls s e → (Timer.run fl now calls).get = difference fl s e) ∧
      ((∀ t, TimerCall.stop t ∉ calls) → (Timer.run fl now calls).get = 0) := by
  have inv : ∀ calls : List TimerCall,
      (∃ a b, TimerCall.start now :: calls = a ++ TimerCall.start (Timer.run fl now calls).start_time :: b ∧
        ∀ t, TimerCall.start t ∉ b) := by
    intro calls
    induction calls using List.reverseRecOn with
    | nil => exact ⟨[], [], rfl, by simp⟩
    | append_singleton l x ih =>
      obtain ⟨a, b, h, hb⟩ := ih
      have e : Timer.run fl now (l ++ [x]) = (Timer.run fl now l).step fl x := by simp [Timer.run]
      rw [e]
      cases x with
      | start t => exact ⟨TimerCall.start now :: l, [], by simp [Timer.step, Timer.start], by simp⟩
      | stop t =>
        refine ⟨a, b ++ [TimerCall.stop t], ?_, ?_⟩
        · rw [← List.cons_append, h]
          simp [Timer.step, Timer.stop]
        · intro u hu
          rcases List.mem_append.1 hu with hu | hu
          · exact hb u hu
          · simp at hu
  -- the last start is unique
  have uniq : ∀ {a b a' b' : List TimerCall} {s s' : TimeVal},
      a ++ TimerCall.start s :: b = a' ++ TimerCall.start s' :: b' → (∀ t, TimerCall.start t ∉ b) →
        (∀ t, TimerCall.start t ∉ b') → s = s' := by
    intro a b a' b' s s' h hb hb'
    rcases List.append_eq_append_iff.1 h with ⟨c, h1, h2⟩ | ⟨c, h1, h2⟩
    · cases c with
      | nil => simp at h2; exact h2.1
      | cons x c =>
        simp only [List.cons_append, List.cons.injEq] at h2
        exact absurd (h2.2 ▸ (by simp : TimerCall.start s' ∈ c ++ TimerCall.start s' :: b')) (hb s')
    · cases c with
      | nil => simp at h2; exact h2.1.symm
      | cons x c =>
        simp only [List.cons_append, List.cons.injEq] at h2
        exact absurd (h2.2 ▸ (by simp : TimerCall.start s ∈ c ++ TimerCall.start s :: b)) (hb' s)
  constructor
  · induction calls using List.reverseRecOn with
    | nil =>
      rintro s e ⟨a, b, c, h, _⟩
      have := congrArg List.length h
      simp at this
      omega
    | append_singleton l x ih =>
      rintro s e ⟨a, b, c, h, hb, hc⟩
      have er : Timer.run fl now (l ++ [x]) = (Timer.run fl now l).step fl x := by simp [Timer.run]
      rw [er]
      rcases List.eq_nil_or_concat c with rfl | ⟨c', y, rfl⟩
      · have h' : (TimerCall.start now :: l) ++ [x] = (a ++ TimerCall.start s :: b) ++ [TimerCall.stop e] := by simpa using h
        obtain ⟨h1, h2⟩ := List.append_inj' h' rfl
        simp only [List.cons.injEq, and_true] at h2
        subst h2
        obtain ⟨a', b', hi, hb'⟩ := inv l
        have := uniq (hi.symm.trans h1) hb' hb
        simp only [Timer.step, Timer.stop, Timer.get, this]
      · have h' : (TimerCall.start now :: l) ++ [x] = (a ++ TimerCall.start s :: b ++ TimerCall.stop e :: c') ++ [y] := by
          simpa using h
        obtain ⟨h1, h2⟩ := List.append_inj' h' rfl
        simp only [List.cons.injEq, and_true] at h2
        subst h2
        have hx : ∃ t, x = TimerCall.start t := by
          cases x with
          | start t => exact ⟨t, rfl⟩
          | stop t => exact absurd (by simp) (hc t)
        obtain ⟨t, rfl⟩ := hx
        have := ih s e ⟨a, b, c', h1, hb, fun t ht => hc t (by simp [ht])⟩
        simpa [Timer.step, Timer.start, Timer.get] using this
  · intro h
    induction calls using List.reverseRecOn with
    | nil => rfl
    | append_singleton l x ih =>
      have er : Timer.run fl now (l ++ [x]) = (Timer.run fl now l).step fl x := by simp [Timer.run]
      rw [er]
      have := ih (fun t ht => h t (by simp [ht]))
      cases x with
      | start t => simpa [Timer.step, Timer.start, Timer.get] using this
      | stop t => exact absurd (by simp) (h t)

/-- The exact numbers in the expression for the difference. -/
theorem difference_eq (r : Rounding fl) {s e : TimeVal} (hs : Reading s) (he : Reading e) :
    difference fl s e = fl ((e.tv_sec - s.tv_sec : ℤ) + fl (fl (1 / 1000000) * (e.tv_usec - s.tv_usec : ℤ))) := by
  obtain ⟨a1, a2, a3⟩ := hs
  obtain ⟨b1, b2, b3⟩ := he
  unfold difference
  have h3 := abs_le.1 a3
  have h4 := abs_le.1 b3
  rw [r.exact e.tv_sec (by rw [abs_le]; omega), r.exact s.tv_sec (by rw [abs_le]; omega),
    r.exact (e.tv_usec - s.tv_usec) (by rw [abs_le]; omega)]
  have : fl ((e.tv_sec : ℚ) - s.tv_sec) = ((e.tv_sec - s.tv_sec : ℤ) : ℚ) := by
    rw [← r.exact (e.tv_sec - s.tv_sec) (by rw [abs_le]; omega)]
    push_cast
    rfl
  rw [this]

/-- **C102** The value is accurate to half a microsecond, the resolution of the clock, for intervals of up to `2 ^ 31` seconds (68 years). -/
theorem C102_timer_accuracy (r : Rounding fl) {s e : TimeVal} (hs : Reading s) (he : Reading e)
    (hd : |e.tv_sec - s.tv_sec| ≤ 2 ^ 31) :
    |difference fl s e - (microseconds e - microseconds s : ℤ) / 1000000| < 1 / 2000000 := by
  rw [difference_eq r hs he]
  obtain ⟨a1, a2, a3⟩ := hs
  obtain ⟨b1, b2, b3⟩ := he
  have hm : ((microseconds e - microseconds s : ℤ) : ℚ) / 1000000 =
      (e.tv_sec - s.tv_sec : ℤ) + (e.tv_usec - s.tv_usec : ℤ) / 1000000 := by
    unfold microseconds
    push_cast
    ring
  rw [hm]
  have hD : |((e.tv_sec - s.tv_sec : ℤ) : ℚ)| ≤ 2 ^ 31 := by exact_mod_cast hd
  have hu : |((e.tv_usec - s.tv_usec : ℤ) : ℚ)| ≤ 1000000 := by
    have : |e.tv_usec - s.tv_usec| ≤ 1000000 := by rw [abs_le]; omega
    exact_mod_cast this
  generalize ((e.tv_sec - s.tv_sec : ℤ) : ℚ) = D at hD ⊢
  generalize ((e.tv_usec - s.tv_usec : ℤ) : ℚ) = d at hu ⊢
  have hc := r.near (1 / 1000000) (by norm_num)
  generalize fl (1 / 1000000) = c at hc ⊢
  have hcd : |c * d - d / 1000000| ≤ (1 / 1000000 / 2 ^ 53 + 1 / 2 ^ 200) * 1000000 := by
    rw [show c * d - d / 1000000 = (c - 1 / 1000000) * d by ring, abs_mul]
    refine mul_le_mul (hc.trans ?_) hu (abs_nonneg _) (by positivity)
    rw [abs_of_pos (by norm_num)]
  have hu' := abs_le.1 hu
  have hcd' := abs_le.1 hcd
  obtain ⟨h1, h2⟩ := r.bounds (x := c * d) (b := 2) (by rw [abs_le]; constructor <;> linarith [hcd'.1, hcd'.2, hu'.1, hu'.2])
    (by norm_num)
  generalize fl (c * d) = p at h1 h2 ⊢
  have hD' := abs_le.1 hD
  obtain ⟨h3, h4⟩ := r.bounds (x := D + p) (b := 2 ^ 31 + 3)
    (by rw [abs_le]; constructor <;> linarith [hcd'.1, hcd'.2, hu'.1, hu'.2, hD'.1, hD'.2]) (by norm_num)
  rw [abs_lt]
  constructor <;> linarith [hcd'.1, hcd'.2]

/-- **C102** A measured time is never negative if the clock is not set back, and it is exactly zero if the clock did not move. -/
theorem C102_timer_nonneg (r : Rounding fl) {s e : TimeVal} (hs : Reading s) (he : Reading e)
    (h : microseconds s ≤ microseconds e) :
    0 ≤ difference fl s e ∧ (microseconds s = microseconds e → difference fl s e = 0) := by
  rw [difference_eq r hs he]
  obtain ⟨a1, a2, a3⟩ := hs
  obtain ⟨b1, b2, b3⟩ := he
  unfold microseconds at h ⊢
  have hz : fl 0 = 0 := by exact_mod_cast r.nat (n := 0) (by norm_num)
  have hc := abs_le.1 (r.near (1 / 1000000) (by norm_num))
  rw [abs_of_pos (by norm_num)] at hc
  have hc0 : 0 ≤ fl (1 / 1000000) := hz ▸ r.mono _ _ (by norm_num)
  constructor
  · rw [← hz]
    apply r.mono
    rcases le_or_gt s.tv_usec e.tv_usec with hu | hu
    · have h1 : (0 : ℚ) ≤ (e.tv_sec - s.tv_sec : ℤ) := by
        have : 0 ≤ e.tv_sec - s.tv_sec := by omega
        exact_mod_cast this
      have h2 : (0 : ℚ) ≤ (e.tv_usec - s.tv_usec : ℤ) := by
        have : 0 ≤ e.tv_usec - s.tv_usec := by omega
        exact_mod_cast this
      have h3 : 0 ≤ fl (fl (1 / 1000000) * (e.tv_usec - s.tv_usec : ℤ)) := hz ▸ r.mono _ _ (mul_nonneg hc0 h2)
      linarith
    · have h1 : (1 : ℚ) ≤ (e.tv_sec - s.tv_sec : ℤ) := by
        have : 1 ≤ e.tv_sec - s.tv_sec := by omega
        exact_mod_cast this
      have h2 : (-999999 : ℚ) ≤ (e.tv_usec - s.tv_usec : ℤ) := by
        have : -999999 ≤ e.tv_usec - s.tv_usec := by omega
        exact_mod_cast this
      have h3 : (-1 : ℚ) ≤ fl (fl (1 / 1000000) * (e.tv_usec - s.tv_usec : ℤ)) := by
        have h4 := r.exact (-1) (by norm_num)
        push_cast at h4
        rw [← h4]
        apply r.mono
        have h5 := mul_le_mul_of_nonneg_left h2 hc0
        linarith [hc.1, hc.2]
      linarith
  · intro heq
    have h1 : e.tv_sec - s.tv_sec = 0 := by omega
    have h2 : e.tv_usec - s.tv_usec = 0 := by omega
    rw [h1, h2]
    simp [hz]

example : (Timer.run (fun x => x) ⟨100, 900000⟩ [.stop ⟨101, 100000⟩, .start ⟨105, 999999⟩, .stop ⟨105, 999999⟩, .stop ⟨107, 1⟩]).get =
    1000002 / 1000000 := by
  refine ((C102_timer _ _).1 ⟨105, 999999⟩ ⟨107, 1⟩
    ⟨[.start ⟨100, 900000⟩, .stop ⟨101, 100000⟩], [.stop ⟨105, 999999⟩], [], rfl, by simp, by simp⟩).trans ?_
  norm_num [difference]

example : Reading ⟨1700000000, 999999⟩ := by norm_num [Reading]

end Humoto
