import Verif.Model.Config

/-!
# Configuration files: what is expected

An object is described by the values found at the paths of its entries: the names of the members which lead to a value. Entries
of a parent class belong to the object itself.
-/

namespace Humoto.Config.Spec

/-- Names of the entries of an object, those of its parents included. -/
def names : Entries → List String
  | .nil => []
  | .leaf n _ r => n :: names r
  | .member n _ r => n :: names r
  | .parent s r => names s ++ names r

/-- Names do not repeat in an object nor in any of its members. -/
def Distinct : Entries → Prop
  | .nil => True
  | .leaf n _ r => n ∉ names r ∧ Distinct r
  | .member n s r => n ∉ names r ∧ Distinct s ∧ Distinct r
  | .parent s r => (∀ n ∈ names s, n ∉ names r) ∧ Distinct s ∧ Distinct r

/-- The value at a path. -/
def valueAt : Entries → List String → Option Val
  | .nil, _ => none
  | .leaf n v r, p => if p = [n] then some v else valueAt r p
  | .member n s r, p =>
    match p with
    | m :: m' :: q => if m = n then valueAt s (m' :: q) else valueAt r p
    | p => valueAt r p
  | .parent s r, p => (valueAt s p).or (valueAt r p)

/-- Paths of all entries: values and members. -/
def paths : Entries → List (List String)
  | .nil => []
  | .leaf n _ r => [n] :: paths r
  | .member n s r => [n] :: ((paths s).map fun p => n :: p) ++ paths r
  | .parent s r => paths s ++ paths r

/-- Two values of the same variable. -/
def SameType : Val → Val → Prop
  | .scalar a, .scalar b => a.type = b.type
  | .enum _, .enum _ => True
  | .vec fa a, .vec fb b => fa = fb ∧ (fa = true → a.length = b.length)
  | .list ta _, .list tb _ => ta = tb
  | .lists ta _, .lists tb _ => ta = tb
  | .mat _ _ _, .mat _ _ _ => True
  | _, _ => False

/-- Two objects of the same class. -/
def SameClass : Entries → Entries → Prop
  | .nil, .nil => True
  | .leaf n v r, .leaf n' v' r' => n = n' ∧ SameType v v' ∧ SameClass r r'
  | .member n s r, .member n' s' r' => n = n' ∧ SameClass s s' ∧ SameClass r r'
  | .parent s r, .parent s' r' => SameClass s s' ∧ SameClass r r'
  | _, _ => False

/-- All values of an object. -/
def AllValues (P : Val → Prop) : Entries → Prop
  | .nil => True
  | .leaf _ v r => P v ∧ AllValues P r
  | .member _ s r => AllValues P s ∧ AllValues P r
  | .parent s r => AllValues P s ∧ AllValues P r

/-- Elements have the type of the container; the storage of a matrix has as many elements as the matrix. -/
def WellTyped : Val → Prop
  | .list ty l => ∀ s ∈ l, s.type = ty
  | .lists ty l => ∀ k ∈ l, ∀ s ∈ k, s.type = ty
  | .mat rows cols data => data.length = cols * rows
  | _ => True

/-- Everything but matrices. -/
def NoMatrix : Val → Prop
  | .mat _ _ _ => False
  | _ => True

/-- The number has at most 15 significant decimal digits. -/
def FifteenDigits (x : ℚ) : Prop := ∃ m k : ℤ, |m| < 10 ^ 15 ∧ x = (m : ℚ) * (10 : ℚ) ^ k

/-- A condition on all numbers in a scalar. -/
def scalarNumbers (P : ℚ → Prop) : Scalar → Prop
  | .real x => P x
  | _ => True

/-- A condition on all numbers in a value. -/
def Numbers (P : ℚ → Prop) : Val → Prop
  | .scalar s => scalarNumbers P s
  | .enum _ => True
  | .vec _ l => ∀ x ∈ l, P x
  | .list _ l => ∀ s ∈ l, scalarNumbers P s
  | .lists _ l => ∀ k ∈ l, ∀ s ∈ k, scalarNumbers P s
  | .mat _ _ data => ∀ x ∈ data, P x

/-- Scalars which differ at most by a relative error. -/
def CloseScalar (ε : ℚ) : Scalar → Scalar → Prop
  | .real x, .real y => |x - y| ≤ ε * |y|
  | a, b => a = b

/-- Values which differ at most by a relative error in each number. -/
def CloseVal (ε : ℚ) : Val → Val → Prop
  | .scalar a, .scalar b => CloseScalar ε a b
  | .vec f l, .vec g k => f = g ∧ List.Forall₂ (fun x y => |x - y| ≤ ε * |y|) l k
  | .list t l, .list u k => t = u ∧ List.Forall₂ (CloseScalar ε) l k
  | .lists t l, .lists u k => t = u ∧ List.Forall₂ (List.Forall₂ (CloseScalar ε)) l k
  | a, b => a = b

/-- A number which is represented exactly in `double` (without limits for the exponent). -/
def IsDouble (x : ℚ) : Prop := ∃ m k : ℤ, |m| < 2 ^ 53 ∧ x = (m : ℚ) * (2 : ℚ) ^ k

/-- A document from which entries are removed: `keep` tells whether the entry with the given path remains. -/
def remove (keep : List String → Prop) [DecidablePred keep] : List String → Fields → Fields
  | _, .nil => .nil
  | path, .leaf n v r => if keep (path ++ [n]) then .leaf n v (remove keep path r) else remove keep path r
  | path, .map n s r =>
    if keep (path ++ [n]) then .map n (remove keep (path ++ [n]) s) (remove keep path r) else remove keep path r

/-- Matrices are removed as a whole: if the entry remains, so do its sizes and its data. -/
def WholeMatrices (keep : List String → Prop) : List String → Entries → Prop
  | _, .nil => True
  | path, .leaf n v r =>
    (match v with
      | .mat _ _ _ => keep (path ++ [n]) → ∀ k ∈ ["cols", "rows", "data"], keep ((path ++ [n]) ++ [k])
      | _ => True) ∧ WholeMatrices keep path r
  | path, .member n s r => WholeMatrices keep (path ++ [n]) s ∧ WholeMatrices keep path r
  | path, .parent s r => WholeMatrices keep path s ∧ WholeMatrices keep path r

/-- The entry is in the document: neither it nor a member which contains it is removed. -/
def Present (keep : List String → Prop) (p : List String) : Prop := ∀ q, q ≠ [] → q <+: p → keep q

/-- File which contains the given sections. -/
def fileWith (f : Format) (sections : List (String × Entries)) : Fields :=
  sections.foldl (fun file s => writeConfig f file s.1 s.2) .nil

/-- Element of a matrix (in the default order of Eigen). -/
def element (rows : ℕ) (data : List ℚ) (i j : ℕ) : Option ℚ := data[j * rows + i]?

end Humoto.Config.Spec
