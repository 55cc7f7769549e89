import Verif.Model.LogName

/-!
# The text of a log

core/include/humoto/logger.h: the values which are written by `OctaveFormatter`, and the text of a sequence of entries. Numbers
are given by what `operator<<` writes for them.
-/

namespace Humoto.LogText

open LogName

/-- Arguments of `formatAndOutputEntry`, logger.h:84-161: everything that has `operator<<`, `std::string`, `std::vector`, a matrix
(rows of coefficients). -/
inductive Value where
  | data (s : Str)
  | text (s : Str)
  | vector (l : List Str)
  | matrix (rows : List (List Str))

/-- An argument of `Logger::log`: a name and a value. -/
structure Entry where
  name : Str
  value : Value

/-- `s.width(width); s << x`: spaces are added in front. -/
def padded (width : ℕ) (x : Str) : Str := List.replicate (width - x.length) ' ' ++ x

/-- The length of the longest coefficient, `print_matrix` of Eigen. -/
def width (rows : List (List Str)) : ℕ := rows.flatten.foldl (fun w x => max w x.length) 0

/-- Coefficients of a row, `print_matrix` of Eigen with the separator of logger.h:28. -/
def rowText (w : ℕ) : List Str → Str
  | [] => []
  | x :: l => padded w x ++ (if l.length ≠ 0 then [',', ' '] else []) ++ rowText w l

/-- Rows of a matrix, `print_matrix` of Eigen with the separator of logger.h:28: all rows but the first one are indented by the
length of the suffix. -/
def rowsText (w : ℕ) : List (List Str) → Str
  | [] => []
  | r :: l => rowText w r ++ (if l.length ≠ 0 then [';', '\n', ' ', ' '] else []) ++ rowsText w l

/-- `matrix.format(getEigenMatrixFormat())`, logger.h:26-30, 127: `print_matrix` of Eigen. Nothing but the prefix and the suffix is
written for a matrix which has no coefficients. -/
def matrixText (rows : List (List Str)) : Str :=
  if rows.flatten.length = 0 then ['[', ']', ';'] else ['['] ++ rowsText (width rows) rows ++ [']', ';']

/-- `formatAndOutputEntry` for a matrix, logger.h:122-128. -/
def formatMatrix (name : Str) (rows : List (List Str)) : Str :=
  name ++ [' ', '=', ' ', '.', '.', '.', '\n'] ++ matrixText rows ++ ['\n']

/-- `formatAndOutputEntry`, logger.h:84-161. -/
def Entry.write (e : Entry) : Str :=
  match e.value with
  | .data s => formatData e.name s
  | .text s => formatString e.name s
  | .vector l => formatVector e.name l
  | .matrix r => formatMatrix e.name r

/-- Everything that is written by a sequence of calls of `log`, logger.h:919-964 (and by the threaded logger, property C44). -/
def write (l : List Entry) : Str := l.flatMap Entry.write

end Humoto.LogText
