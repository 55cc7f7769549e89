import Mathlib.Data.Int.Log
import Mathlib.Algebra.Order.Round
import Mathlib.Data.Rat.Floor
import Verif.Model.Basic

/-!
# Times

core/include/humoto/time.h. All finite doubles are rational numbers; the result of every operation on doubles is the rounded exact result, the
rounding `fl : ℚ → ℚ` is a parameter. `binary64` is rounding to nearest of the usual doubles. Infinities and numbers which are not numbers
are left aside.
-/

namespace Humoto.Time

/-- Rounding of a rational number to an integer, a half goes to the even neighbour (IEEE 754, the default rounding). -/
def roundHalfEven (x : ℚ) : ℤ :=
  if x - ⌊x⌋ < 1 / 2 then ⌊x⌋
  else if 1 / 2 < x - ⌊x⌋ then ⌊x⌋ + 1
  else if ⌊x⌋ % 2 = 0 then ⌊x⌋ else ⌊x⌋ + 1

/-- Distance between neighbouring doubles around the positive number `x`: 53 binary digits, but not less than `2 ^ (-1074)`. -/
def ulp (x : ℚ) : ℚ := 2 ^ max (Int.log 2 x - 52) (-1074)

/-- Rounding to nearest in the format of `double` (without the largest number). -/
def binary64 (x : ℚ) : ℚ :=
  if 0 ≤ x then roundHalfEven (x / ulp x) * ulp x else -(roundHalfEven (-x / ulp (-x)) * ulp (-x))

/-- `round` of the C library: a half goes away from zero. -/
def cRound (x : ℚ) : ℤ := if 0 ≤ x then ⌊x + 1 / 2⌋ else ⌈x - 1 / 2⌉

/-- `static_cast<std::size_t>` of a double which is an integer: undefined if the number does not fit. -/
def castToSize (x : ℤ) : Res ℕ := if 0 ≤ x ∧ x < 2 ^ 64 then .ok x.toNat else .error .ub

/-- `convertMillisecondToSecond`, time.h:22-25: the number is converted to `double` and divided. -/
def convertMillisecondToSecond (fl : ℚ → ℚ) (milliseconds : ℕ) : ℚ := fl (fl milliseconds / 1000)

/-- `convertSecondToMillisecond`, time.h:35-38. -/
def convertSecondToMillisecond (fl : ℚ → ℚ) (seconds : ℚ) : Res ℕ := castToSize (cRound (fl (seconds * 1000)))

/-- `truncateSecondToMillisecond`, time.h:48-51. -/
def truncateSecondToMillisecond (fl : ℚ → ℚ) (seconds : ℚ) : Res ℕ := castToSize ⌊fl (seconds * 1000)⌋

/-- `struct timeval`. -/
structure TimeVal where
  tv_sec : ℤ
  tv_usec : ℤ

/-- `Timer`, time.h:57-126. -/
structure Timer where
  start_time : TimeVal
  /-- not initialised before the first `stop`, and not used then -/
  end_time : Option TimeVal
  timediff : ℚ

/-- `Timer::start`, time.h:72-75; `now` is what `gettimeofday` gives. -/
def Timer.start (t : Timer) (now : TimeVal) : Timer := { t with start_time := now }

/-- `Timer::Timer`, time.h:63-67. -/
def Timer.construct (now : TimeVal) : Timer := { start_time := now, end_time := none, timediff := 0 }

/-- The expression in `Timer::stop`, time.h:84-85; the differences of microseconds are integers, everything else is `double`. -/
def difference (fl : ℚ → ℚ) (s e : TimeVal) : ℚ :=
  fl (fl (fl e.tv_sec - fl s.tv_sec) + fl (fl (1 / 1000000) * fl (e.tv_usec - s.tv_usec : ℤ)))

/-- `Timer::stop`, time.h:81-87: the new state, the returned value is `timediff`. -/
def Timer.stop (fl : ℚ → ℚ) (t : Timer) (now : TimeVal) : Timer :=
  { t with end_time := some now, timediff := difference fl t.start_time now }

/-- `Timer::get`, time.h:95-98. -/
def Timer.get (t : Timer) : ℚ := t.timediff

/-- Calls of the methods of a timer with what the clock shows. -/
inductive TimerCall where
  | start (now : TimeVal)
  | stop (now : TimeVal)

/-- The state after one call, time.h:72-87. -/
def Timer.step (fl : ℚ → ℚ) (t : Timer) : TimerCall → Timer
  | .start now => t.start now
  | .stop now => t.stop fl now

/-- The state of a timer constructed at the given time after the given calls. -/
def Timer.run (fl : ℚ → ℚ) (now : TimeVal) (calls : List TimerCall) : Timer := calls.foldl (Timer.step fl) (Timer.construct now)

end Humoto.Time
