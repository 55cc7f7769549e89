import Verif.Model.LogName

/-!
# Names in logs: what is expected
-/

namespace Humoto.LogName.Spec

/-- The name obtained by adding components to an empty name. -/
def entryName (l : List Component) : Str := l.foldl add []

/-- Names which are not empty and do not contain separators; indices which fit in `size_t`. -/
def Proper : Component → Prop
  | .name s => s ≠ [] ∧ '.' ∉ s ∧ '{' ∉ s ∧ '}' ∉ s
  | .index i => i < 2 ^ 64

/-- The names with dots between them. -/
def dotted (l : List Str) : Str := ['.'].intercalate l

/-- The texts with semicolons between them. -/
def semicolons (l : List Str) : Str := [';'].intercalate l

end Humoto.LogName.Spec
