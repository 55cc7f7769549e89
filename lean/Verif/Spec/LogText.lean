import Verif.Model.LogText

/-!
# Logs: what a reader finds in them

A reader of the part of the language of Octave which is used in logs, and assignments to members of structures and cells.
-/

namespace Humoto.LogText.Spec

open LogName

/-- A place in a nested structure: names of members and indices of cells. -/
abbrev Path := List Component

/-- Values: a number, a string, a matrix; a column is a matrix, all matrices without coefficients are the same. -/
inductive Val where
  | number (s : Str)
  | string (s : Str)
  | matrix (rows : List (List Str))
deriving DecidableEq

/-- Text is cut at a character. -/
def cut (c : Char) : Str → List Str
  | [] => [[]]
  | x :: t =>
    if x = c then [] :: cut c t
    else
      match cut c t with
      | [] => [[x]]
      | h :: r => (x :: h) :: r

/-- The text after a given beginning. -/
def after : (beginning s : Str) → Option Str
  | [], s => some s
  | _ :: _, [] => none
  | x :: b, y :: s => if x = y then after b s else none

/-- A decimal number. -/
def readNat (s : Str) : Option ℕ :=
  if s ≠ [] ∧ ∀ c ∈ s, '0' ≤ c ∧ c ≤ '9' then some (Nat.ofDigits 10 (s.reverse.map fun c => c.toNat - '0'.toNat)) else none

/-- `n}`, indices begin with one. -/
def readIndex (s : Str) : Option Component :=
  if s.getLast? = some '}' then
    match readNat s.dropLast with
    | some (n + 1) => some (.index n)
    | _ => none
  else none

/-- `a{1}{2}` -/
def readSegment (s : Str) : Option Path :=
  match cut '{' s with
  | [] => none
  | a :: l => (l.mapM readIndex).map fun l => if a = [] then l else .name a :: l

/-- `a.b{1}.c` -/
def readName (s : Str) : Option Path := ((cut '.' s).mapM readSegment).map List.flatten

/-- The inner part of `[1, 2; 3, 4]`; spaces and ends of lines mean nothing. -/
def readRows (s : Str) : List (List Str) :=
  let t := s.filter fun c => c ≠ ' ' ∧ c ≠ '\n'
  if t = [] then [] else (cut ';' t).map (cut ',')

/-- A value, and the text after it; a line which ends with `...` is continued. -/
def readValue (s : Str) : Option (Val × Str) :=
  let s := (after ['.', '.', '.', '\n'] s).getD s
  match s with
  | '\'' :: t => (after ['\''] (t.dropWhile (· ≠ '\''))).map fun r => (.string (t.takeWhile (· ≠ '\'')), r)
  | '[' :: t => (after [']'] (t.dropWhile (· ≠ ']'))).map fun r => (.matrix (readRows (t.takeWhile (· ≠ ']'))), r)
  | _ => some (.number (s.takeWhile (· ≠ ';')), s.dropWhile (· ≠ ';'))

/-- `name = value;` and the end of the line. -/
def readStatement (s : Str) : Option ((Path × Val) × Str) := do
  let p ← readName (s.takeWhile (· ≠ ' '))
  let t ← after [' ', '=', ' '] (s.dropWhile (· ≠ ' '))
  let v ← readValue t
  let t ← after [';', '\n'] v.2
  pure ((p, v.1), t)

/-- At most `n` statements. -/
def readStatements : ℕ → Str → Option (List (Path × Val))
  | _, [] => some []
  | 0, _ => none
  | n + 1, s => do
    let x ← readStatement s
    let l ← readStatements n x.2
    pure (x.1 :: l)

/-- All statements of a text. -/
def read (s : Str) : Option (List (Path × Val)) := readStatements s.length s

/-! ## Assignments -/

/-- One of two components is a name, the other one is an index: a structure is not a cell. -/
def differentKinds : Component → Component → Bool
  | .name _, .index _ => true
  | .index _, .name _ => true
  | _, _ => false

/-- An assignment to the second place is not possible while there is a value in the first place: a member of a value, or a member of
a cell, or a cell of a structure. -/
def blocks : Path → Path → Bool
  | [], [] => false
  | [], _ :: _ => true
  | _ :: _, [] => false
  | c :: p, d :: q => if c = d then blocks p q else differentKinds c d

/-- `path = value`: everything that was there is replaced. -/
def assign (env : List (Path × Val)) (x : Path × Val) : Option (List (Path × Val)) :=
  if env.any fun y => blocks y.1 x.1 then none else some (x :: env.filter fun y => ¬ x.1 <+: y.1)

/-- All assignments, one after another. -/
def run : List (Path × Val) → List (Path × Val) → Option (List (Path × Val))
  | env, [] => some env
  | env, x :: l => (assign env x).bind fun env => run env l

/-- What a reader of a log finds: the text is read, all statements are executed. -/
def load (s : Str) : Option (List (Path × Val)) := (read s).bind (run [])

/-- The value in a given place. -/
def lookup (env : List (Path × Val)) (p : Path) : Option Val := env.lookup p

/-- A reader finds every value of the contents in its place, and nothing else. -/
def Exactly (env C : List (Path × Val)) : Prop :=
  (∀ x ∈ C, lookup env x.1 = some x.2) ∧ ∀ p v, lookup env p = some v → (p, v) ∈ C

/-- The places do not depend on each other. -/
def Independent (p q : Path) : Prop := ¬ p <+: q ∧ ¬ q <+: p ∧ blocks p q = false ∧ blocks q p = false

/-! ## Nested structures -/

/-- Contents of a place: places inside of it with values. -/
abbrev Contents := List (Path × Val)

/-- Contents of a place are in the component of another place. -/
def Contents.at (c : Component) (E : Contents) : Contents := E.map fun x => (c :: x.1, x.2)

/-- Contents of a place as seen from outside. -/
def inside (p : Path) (E : Contents) : Contents := E.map fun x => (p ++ x.1, x.2)

/-- A value. -/
def leaf (v : Val) : Contents := [([], v)]

/-- A structure. -/
def fields (l : List (String × Contents)) : Contents := l.flatMap fun x => Contents.at (.name x.1.toList) x.2

/-- A cell array. -/
def cells (l : List Contents) : Contents := l.zipIdx.flatMap fun x => Contents.at (.index x.2) x.1

/-- The text of a number: no separators. -/
def Token (s : Str) : Prop := s ≠ [] ∧ ∀ c ∈ s, c ≠ ' ' ∧ c ≠ ';' ∧ c ≠ ',' ∧ c ≠ '[' ∧ c ≠ ']' ∧ c ≠ '\'' ∧ c ≠ '\n'

/-- Values which can be read: numbers are numbers, there are no apostrophes in strings, rows of a matrix have the same length. -/
def Legible : Value → Prop
  | .data s => Token s
  | .text s => '\'' ∉ s
  | .vector l => ∀ s ∈ l, Token s
  | .matrix r => (∀ l ∈ r, ∀ s ∈ l, Token s) ∧ ∃ n, ∀ l ∈ r, l.length = n

/-- What a value is for the reader. -/
def meaning : Value → Val
  | .data s => .number s
  | .text s => .string s
  | .vector l => .matrix (l.map fun s => [s])
  | .matrix r => .matrix (if r.flatten = [] then [] else r)

/-- Components which can be read: non-empty names without separators and spaces, indices which fit in `size_t` after they are
incremented. -/
def Good : Component → Prop
  | .name s => s ≠ [] ∧ '.' ∉ s ∧ '{' ∉ s ∧ '}' ∉ s ∧ ' ' ∉ s
  | .index i => i + 1 < 2 ^ 64

end Humoto.LogText.Spec
