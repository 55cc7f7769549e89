import Mathlib.Data.Int.Log
import Verif.Model.LogText

/-!
# Digits of numbers in logs

What `operator<<` of the standard library writes for a `double` (contract: conversions `%.pg` and `%.pf` of C with exact rounding, halfs
go to the even neighbour), and the state of the stream on which it depends: core/include/humoto/logger.h, core/include/humoto/time.h.
Doubles are elements of an ordered field with a floor function; infinities, numbers which are not numbers and the sign of zero are
left aside.
-/

namespace Humoto.LogNumber

open LogName LogText

section
variable {K : Type} [Field K] [LinearOrder K] [FloorRing K]

/-- Rounding to an integer, a half goes to the even neighbour. -/
def nearestEven (x : K) : ℤ :=
  if x - ⌊x⌋ < 1 / 2 then ⌊x⌋
  else if 1 / 2 < x - ⌊x⌋ then ⌊x⌋ + 1
  else if ⌊x⌋ % 2 = 0 then ⌊x⌋ else ⌊x⌋ + 1

/-- Digits and the exponent of a positive number for the conversion `%.{p - 1}e`: if the digits are rounded up to a power of ten the
exponent is greater. -/
def scientific (p : ℕ) (x : K) : ℕ × ℤ :=
  let m := (nearestEven (x / (10 : K) ^ (Int.log 10 x - p + 1))).toNat
  if m = 10 ^ p then (10 ^ (p - 1), Int.log 10 x + 1) else (m, Int.log 10 x)

/-- Zeros at the end are not written by the conversion `%g`. -/
def stripped (l : Str) : Str := (l.reverse.dropWhile (· = '0')).reverse

/-- The point and the digits after it for the conversion `%g`: there is no point if there are no digits. -/
def fraction (l : Str) : Str := if stripped l = [] then [] else '.' :: stripped l

/-- An exponent has a sign and at least two digits. -/
def exponentText (e : ℤ) : Str :=
  ['e', if e < 0 then '-' else '+'] ++ (if e.natAbs < 10 then ['0'] else []) ++ decimal e.natAbs

/-- `%.pg` for a positive number: notation with an exponent if the exponent is less than `-4` or not less than the number of digits. -/
def positiveText (p : ℕ) (x : K) : Str :=
  let d := decimal (scientific p x).1
  let e := (scientific p x).2
  if e < -4 ∨ (p : ℤ) ≤ e then d.take 1 ++ fraction (d.drop 1) ++ exponentText e
  else if e < 0 then ['0'] ++ fraction (List.replicate (-e - 1).toNat '0' ++ d)
  else d.take (e + 1).toNat ++ fraction (d.drop (e + 1).toNat)

/-- A sign is written for negative numbers. -/
def signed (f : K → Str) (x : K) : Str := if x < 0 then '-' :: f (-x) else f x

/-- `%.pg`; a precision of zero is taken as one. -/
def generalText (p : ℕ) (x : K) : Str := if x = 0 then ['0'] else signed (positiveText (max p 1)) x

/-- `%.pf` for a number which is not negative. -/
def nonnegativeFixed (p : ℕ) (x : K) : Str :=
  let m := (nearestEven (x * 10 ^ p)).toNat
  let d := decimal (m % 10 ^ p)
  decimal (m / 10 ^ p) ++ (if p = 0 then [] else '.' :: (List.replicate (p - d.length) '0' ++ d))

/-- `%.pf`. -/
def fixedText (p : ℕ) (x : K) : Str := signed (nonnegativeFixed p) x

/-- The state of an output stream: `precision()`, the flag `std::ios::fixed`, what has been written. -/
structure Stream where
  precision : ℕ
  fixed : Bool
  text : Str

/-- A file which has been opened by a logger, logger.h:422-436: the stream is in its initial state. -/
def Stream.file : Stream := ⟨6, false, []⟩

/-- `setDefaults`, logger.h:301-304, which is called by `initialize`, logger.h:409-415, 422-436; `digits10` is 15. -/
def Stream.setDefaults (s : Stream) : Stream := { s with precision := 15 }

/-- `operator<<` for characters. -/
def Stream.put (s : Stream) (t : Str) : Stream := { s with text := s.text ++ t }

/-- What `operator<<` writes for a `double` on the stream. -/
def Stream.format (s : Stream) (x : K) : Str := if s.fixed then fixedText s.precision x else generalText s.precision x

/-- `operator<<` for a timer, time.h:111-121; the argument is its value. -/
def Stream.timer (s : Stream) (timediff : K) : Stream :=
  let s' := { s with fixed := true, precision := 6 }
  let s' := s'.put "Timer value = ".toList
  let s' := s'.put (s'.format timediff)
  { s' with precision := s.precision, fixed := s.fixed }

/-- `operator<<` for a matrix in the format of logger.h:28, `print_matrix` of Eigen: the precision is set to that of
`Eigen::FullPrecision`, which is 15, 16 or 17 in different versions of Eigen, and restored afterwards. -/
def Stream.matrix (eigen : ℕ) (s : Stream) (rows : List (List K)) : Stream :=
  let s' := { s with precision := eigen }
  let s' := s'.put (matrixText (rows.map fun r => r.map fun x => s'.format x))
  { s' with precision := s.precision }

/-- Calls of `log` with arguments which contain doubles, and with other arguments (given by what they write). -/
inductive Item (K : Type) where
  | number (name : Str) (x : K)
  | matrix (name : Str) (rows : List (List K))
  | timer (timediff : K)
  | other (text : Str)

/-- `Logger::log`, logger.h:917-964 (and entries of the threaded logger, logger.h:488-500, 527-537), `formatAndOutputEntry`,
logger.h:122-128, 155-161. -/
def Stream.log (eigen : ℕ) (s : Stream) : Item K → Stream
  | .number name x => ((s.put (name ++ [' ', '=', ' '])).put (s.format x)).put [';', '\n']
  | .matrix name rows => ((s.put (name ++ [' ', '=', ' ', '.', '.', '.', '\n'])).matrix eigen rows).put ['\n']
  | .timer timediff => (s.timer timediff).put ['\n']
  | .other text => s.put text

/-- Everything that is written after a logger has been given a stream. -/
def Stream.logAll (eigen : ℕ) (s : Stream) (items : List (Item K)) : Stream := items.foldl (Stream.log eigen) s.setDefaults

end

end Humoto.LogNumber
