import Verif.Model.Basic

/-!
# Active sets (core/include/humoto/active_set.h)
-/

namespace Humoto

/-- `ConstraintActivationType::Type`, active_set.h:20-36. -/
inductive Act
  | undefined
  | inactive
  | lowerBound
  | upperBound
  | equality
  deriving DecidableEq, Repr

/-- `humoto::Location` on machine words: `std::size_t` is 64 bits wide; utility.h:146-267. -/
structure Location64 where
  offset : BitVec 64
  length : BitVec 64

namespace Location64

/-- `Location::end`, utility.h:231-234: `offset_ + length_`, wraps around. -/
def fin (l : Location64) : BitVec 64 := l.offset + l.length

/-- `Location::checkLength`, utility.h:208-212. -/
def checkLength (l : Location64) (max : BitVec 64) : Bool := decide (l.offset ≤ l.fin) && decide (l.fin ≤ max)

end Location64

/-- `ActiveSetConstraints`, active_set.h:43-272: the vector `data_`. -/
abbrev ActiveSetC := List Act

/-- `std::copy(src.begin(), src.end(), buf.begin() + off)`; undefined behaviour when `buf` is too short. -/
def copyInto {α : Type} (buf : List α) (off : ℕ) (src : List α) : Res (List α) :=
  if off + src.length ≤ buf.length then .ok (buf.take off ++ src ++ buf.drop (off + src.length)) else .error .ub

namespace ActiveSetC

/-- `operator[] const`, active_set.h:56-61. -/
def get (s : ActiveSetC) (i : ℕ) : Res Act :=
  match s[i]? with
  | some a => .ok a
  | none => .error .thrown

/-- Assignment through `operator[]`, active_set.h:71-76. -/
def setAt (s : ActiveSetC) (i : ℕ) (a : Act) : Res ActiveSetC :=
  if i < s.length then .ok (List.set s i a) else .error .thrown

/-- `set(location, type)`, active_set.h:117-124: `std::fill` between `front()` and `end()`. -/
def setLoc (s : ActiveSetC) (l : Location) (a : Act) : Res ActiveSetC := do
  assertThat (l.checkLength s.length = true)
  copyInto s l.front (List.replicate (l.fin - l.front) a)

/-- `set(type)`, active_set.h:104-107. -/
def setAll (s : ActiveSetC) (a : Act) : Res ActiveSetC := setLoc s ⟨0, s.length⟩ a

/-- `copyTo(location, other)`, active_set.h:133-141. The whole `other` is copied; its length is not compared to
the length of the location. -/
def copyTo (s : ActiveSetC) (l : Location) (other : ActiveSetC) : Res ActiveSetC := do
  assertThat (l.checkLength s.length = true)
  copyInto s l.front other

/-- `copyFrom(other, location)`, active_set.h:150-159. -/
def copyFrom (s : ActiveSetC) (other : ActiveSetC) (l : Location) : Res ActiveSetC := do
  assertThat (l.checkLength other.length = true)
  assertThat (l.length = s.length)
  copyInto s 0 ((other.drop l.front).take (l.fin - l.front))

/-- `initialize(n)`, active_set.h:167-171: `resize` value-initialises, i.e. gives `UNDEFINED`. -/
def init (n : ℕ) : ActiveSetC := List.replicate n Act.undefined

/-- `initialize(other, location)`, active_set.h:180-192. -/
def initFrom (s : ActiveSetC) (other : ActiveSetC) (l : Location) : Res ActiveSetC := do
  assertThat (l.checkLength other.length = true)
  let s' : ActiveSetC := if s.length ≠ l.length then List.replicate l.length Act.undefined else s
  copyFrom s' other l

/-- `initialize(n, type)`, active_set.h:201-206. -/
def initWith (n : ℕ) (a : Act) : ActiveSetC := List.replicate n a

/-- `shift(shift_size, type)`, active_set.h:217-230: `std::rotate` then `std::fill` of the tail. -/
def shift (s : ActiveSetC) (k : ℕ) (a : Act) : Res ActiveSetC := do
  assertThat (k < s.length)
  let rotated := s.drop k ++ s.take k
  copyInto rotated (s.length - k) (List.replicate k a)

/-- Body of the loop in `countActiveInequalities`, active_set.h:242-253. -/
def countStep (n : ℕ) (a : Act) : ℕ :=
  match a with
  | .lowerBound => n + 1
  | .upperBound => n + 1
  | _ => n

/-- `countActiveInequalities`, active_set.h:238-256: loop with a counter. -/
def countActiveInequalities (s : ActiveSetC) : ℕ := s.foldl countStep 0

end ActiveSetC

/-- `ActiveSet`, active_set.h:278-384: one active set per level. -/
abbrev ActiveSetH := List ActiveSetC

namespace ActiveSetH

/-- `initialize(number_of_levels, number_of_constraints)`, active_set.h:353-363. Reading `number_of_constraints[i]`
beyond its end is undefined behaviour. -/
def init (levels : ℕ) (counts : List ℕ) : Res ActiveSetH := do
  require (levels ≤ counts.length)
  pure ((counts.take levels).map ActiveSetC.init)

/-- `set(level_index, type)`, active_set.h:319-324. -/
def setLevel (s : ActiveSetH) (i : ℕ) (a : Act) : Res ActiveSetH :=
  match s[i]? with
  | some l => do
    let l' ← ActiveSetC.setAll l a
    pure (List.set s i l')
  | none => .error .thrown

end ActiveSetH

end Humoto
