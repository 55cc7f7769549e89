import Verif.Spec.LogText
import Verif.Model.LogNumber

/-!
# What the text of a number means
-/

namespace Humoto.LogNumber

open LogName LogText LogText.Spec

/-- `12`, `1.5` -/
def readUnsigned (s : Str) : Option ℚ :=
  match cut '.' s with
  | [i] => (readNat i).map fun n : ℕ => (n : ℚ)
  | [i, f] => if i ≠ [] ∧ f ≠ [] then (readNat (i ++ f)).map fun n : ℕ => (n : ℚ) / 10 ^ f.length else none
  | _ => none

/-- `-05`, `+300` -/
def readExponent : Str → Option ℤ
  | '-' :: s => (readNat s).map fun n : ℕ => -(n : ℤ)
  | '+' :: s => (readNat s).map fun n : ℕ => (n : ℤ)
  | s => (readNat s).map fun n : ℕ => (n : ℤ)

/-- `1.5e-05` -/
def readPositive (s : Str) : Option ℚ :=
  match cut 'e' s with
  | [m] => readUnsigned m
  | [m, e] => (readUnsigned m).bind fun m => (readExponent e).map fun e => m * 10 ^ e
  | _ => none

/-- `-1.5e-05` -/
def readNumber : Str → Option ℚ
  | '-' :: s => (readPositive s).map fun x => -x
  | s => readPositive s

section
variable {K : Type} [Field K] [LinearOrder K]

/-- A decimal number with at most `p` significant digits. -/
def HasDigits (p : ℕ) (d : ℚ) : Prop := ∃ n j : ℤ, |n| < 10 ^ p ∧ d = n * 10 ^ j

/-- The nearest decimal number with at most `p` significant digits. -/
def NearestDecimal (p : ℕ) (x : K) (d : ℚ) : Prop := HasDigits p d ∧ ∀ d', HasDigits p d' → |(d : K) - x| ≤ |(d' : K) - x|

/-- What is written by a call of `log` for a number with 15 significant digits, matrices have `eigen` significant digits, times are
given with six digits after the point. -/
def Item.expected [FloorRing K] (eigen : ℕ) : Item K → Str
  | .number name x => name ++ " = ".toList ++ generalText 15 x ++ ";\n".toList
  | .matrix name rows =>
    name ++ " = ...\n".toList ++ matrixText (rows.map fun r => r.map fun x => generalText eigen x) ++ "\n".toList
  | .timer t => "Timer value = ".toList ++ fixedText 6 t ++ "\n".toList
  | .other text => text

end

end Humoto.LogNumber
