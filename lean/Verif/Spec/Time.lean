import Verif.Model.Time

/-!
# Specification: times
-/

namespace Humoto.Time.Spec

/-- What is assumed about the arithmetic of doubles: the standard model of rounding to nearest; the second term is for gradual underflow,
where the error is at most `2 ^ (-1075)`. Integers up to `2 ^ 53` are doubles, and the order is kept. -/
structure Rounding (fl : ℚ → ℚ) : Prop where
  near : ∀ x : ℚ, |x| ≤ 2 ^ 100 → |fl x - x| ≤ |x| / 2 ^ 53 + 1 / 2 ^ 200
  exact : ∀ n : ℤ, |n| ≤ 2 ^ 53 → fl n = n
  mono : ∀ x y : ℚ, x ≤ y → fl x ≤ fl y

/-- Time in microseconds. -/
def microseconds (t : TimeVal) : ℤ := t.tv_sec * 1000000 + t.tv_usec

/-- What `gettimeofday` gives: microseconds are less than a second; 52 bits are enough for seconds. -/
def Reading (t : TimeVal) : Prop := 0 ≤ t.tv_usec ∧ t.tv_usec < 1000000 ∧ |t.tv_sec| ≤ 2 ^ 52

/-- `s` is the last start before the last stop `e` in the calls made after the construction at `now`. -/
def Measured (now : TimeVal) (calls : List TimerCall) (s e : TimeVal) : Prop :=
  ∃ a b c, TimerCall.start now :: calls = a ++ TimerCall.start s :: b ++ TimerCall.stop e :: c ∧
    (∀ t, TimerCall.start t ∉ b) ∧ ∀ t, TimerCall.stop t ∉ c

end Humoto.Time.Spec
