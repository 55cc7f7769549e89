import Mathlib.Data.Nat.Digits.Defs

/-!
# Names and values in logs

core/include/humoto/logger.h: `OctaveFormatter`, `LogEntryName`. Strings are lists of characters.
-/

namespace Humoto.LogName

/-- `std::string`. -/
abbrev Str := List Char

/-- Decimal representation: `boost::lexical_cast<std::string>` of an unsigned number. -/
def decimal (n : ℕ) : Str := if n = 0 then ['0'] else ((Nat.digits 10 n).map Nat.digitChar).reverse

/-- `appendEntryName`, logger.h:41-49 (and 58-66 for `const char *`). -/
def appendName (name addition : Str) : Str :=
  if name.length > 0 ∧ addition.length > 0 then name ++ ['.'] ++ addition else name ++ addition

/-- `appendEntryName` with an index, logger.h:75-81; `index + 1` is computed in 64 bits. -/
def appendIndex (name : Str) (index : ℕ) : Str := name ++ ['{'] ++ decimal ((index + 1) % 2 ^ 64) ++ ['}']

/-- Argument of `LogEntryName::add`, logger.h:229-262. -/
inductive Component where
  | name (s : Str)
  | index (i : ℕ)
deriving DecidableEq

/-- `LogEntryName::add`, logger.h:229-262. -/
def add (entry : Str) : Component → Str
  | .name s => appendName entry s
  | .index i => appendIndex entry i

/-- Loop of `formatAndOutputEntry` for `std::vector`, logger.h:97-105: the remaining elements, as text. -/
def vectorElements : List Str → Str
  | [] => []
  | x :: l => x ++ (if l.length ≠ 0 then [';'] else []) ++ vectorElements l

/-- `formatAndOutputEntry` for `std::vector`, logger.h:91-107; elements are given by what `operator<<` writes for them. -/
def formatVector (name : Str) (elements : List Str) : Str :=
  name ++ [' ', '=', ' '] ++ ['['] ++ vectorElements elements ++ [']', ';', '\n']

/-- `formatAndOutputEntry` for a string, logger.h:139-144. -/
def formatString (name string : Str) : Str := name ++ [' ', '=', ' ', '\''] ++ string ++ ['\'', ';', '\n']

/-- `formatAndOutputEntry`, logger.h:155-161; `data` is what `operator<<` writes. -/
def formatData (name data : Str) : Str := name ++ [' ', '=', ' '] ++ data ++ [';', '\n']

end Humoto.LogName
