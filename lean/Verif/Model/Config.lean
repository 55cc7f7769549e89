import Verif.Model.Basic
import Mathlib.Algebra.Order.Round
import Mathlib.Data.Int.Log
import Mathlib.Data.Rat.Floor

/-!
# Configuration files

core/include/config.h, core/include/config/define_accessors.h, bridges/config_yaml/interface/config_yaml/{writer,reader}.h,
bridges/config_msgpack/interface/config_msgpack/{writer,reader}.h.

A configurable class is described by its list of entries (`HUMOTO_CONFIG_ENTRIES`). The libraries yaml-cpp and msgpack are
represented by their contracts: what is emitted is found in the tree which the parser returns. `double` is represented by a
rational number.
-/

namespace Humoto.Config

/-- Types of scalars that are read and written. -/
inductive ScalarType where
  | bool
  | int
  | real
  | str
deriving DecidableEq

/-- Scalars. -/
inductive Scalar where
  | bool (b : Bool)
  | int (i : ℤ)
  | real (x : ℚ)
  | str (s : String)
deriving DecidableEq

/-- Type of a scalar. -/
def Scalar.type : Scalar → ScalarType
  | .bool _ => .bool
  | .int _ => .int
  | .real _ => .real
  | .str _ => .str

/-- The two file formats. -/
inductive Format where
  | yaml
  | msgpack
deriving DecidableEq

/-! ## Documents -/

/-- Values without names in a document: a scalar, a sequence, a sequence of sequences. -/
inductive Leaf where
  | scalar (s : Scalar)
  | seq (l : List Scalar)
  | seqs (l : List (List Scalar))

/-- Contents of a map in a document: pairs of a key and a value, in the order of writing. -/
inductive Fields where
  | nil
  | leaf (name : String) (v : Leaf) (rest : Fields)
  | map (name : String) (sub : Fields) (rest : Fields)

/-- Node of a document. -/
inductive Node where
  | leaf (v : Leaf)
  | map (f : Fields)

/-- Concatenation of maps. -/
def Fields.append : Fields → Fields → Fields
  | .nil, g => g
  | .leaf n v r, g => .leaf n v (r.append g)
  | .map n s r, g => .map n s (r.append g)

/-- The first value with the given key: `FindValue` of yaml-cpp, loop at config_msgpack/reader.h:140-147. -/
def Fields.find (name : String) : Fields → Option Node
  | .nil => none
  | .leaf n v r => if name = n then some (.leaf v) else r.find name
  | .map n s r => if name = n then some (.map s) else r.find name

/-- The first map with the given key (root level of config_msgpack/reader.h:119-135; each handle has one key). -/
def Fields.findMap (name : String) : Fields → Option Node
  | .nil => none
  | .leaf _ _ r => r.findMap name
  | .map n s r => if name = n then some (.map s) else r.findMap name

/-! ## Objects -/

/-- Values of the members of a class. -/
inductive Val where
  /-- `HUMOTO_CONFIG_SCALAR` -/
  | scalar (s : Scalar)
  /-- `HUMOTO_CONFIG_ENUM` -/
  | enum (i : ℤ)
  /-- `Eigen::Matrix<double, n, 1>`, of fixed or dynamic size -/
  | vec (fixed : Bool) (l : List ℚ)
  /-- `std::vector<T>` -/
  | list (ty : ScalarType) (l : List Scalar)
  /-- `std::vector< std::vector<T> >` -/
  | lists (ty : ScalarType) (l : List (List Scalar))
  /-- `Eigen::Matrix<double, Dynamic, Dynamic>` in the default (column major) order: number of rows, number of columns, the
  storage (`data()`) -/
  | mat (rows cols : ℕ) (data : List ℚ)

/-- Entries of a class (define_accessors.h:17-82): values of its own members (`HUMOTO_CONFIG_SCALAR`, `HUMOTO_CONFIG_ENUM`,
`HUMOTO_CONFIG_COMPOUND`), members which are configurable classes (`HUMOTO_CONFIG_MEMBER_CLASS`), parents
(`HUMOTO_CONFIG_PARENT_CLASS`). -/
inductive Entries where
  | nil
  | leaf (name : String) (v : Val) (rest : Entries)
  | member (name : String) (sub : Entries) (rest : Entries)
  | parent (sub : Entries) (rest : Entries)

/-- `getNumberOfEntries` (define_accessors.h:96-114). -/
def Entries.number : Entries → ℕ
  | .nil => 0
  | .leaf _ _ r => 1 + r.number
  | .member _ _ r => 1 + r.number
  | .parent s r => s.number + r.number

/-! ## Writers -/

/-- A decimal number with 15 significant digits (`SetDoublePrecision(digits10)`, config_yaml/writer.h:39). Simplification: ties
are rounded up; there is no limit for the exponent. -/
def round15 (x : ℚ) : ℚ :=
  if x = 0 then 0 else (round (x * (10 : ℚ) ^ (14 - Int.log 10 |x|)) : ℤ) / (10 : ℚ) ^ (14 - Int.log 10 |x|)

/-- What becomes of a scalar which is written to a file and parsed with its type: text with a limited number of digits in YAML
(config_yaml/writer.h:39), binary data in msgpack. -/
def emit : Format → Scalar → Scalar
  | .yaml, .real x => .real (round15 x)
  | _, s => s

/-- Elements in the order of writing: `entry(j, i)` for each column `i` and each row `j` (config_yaml/writer.h:169-175). The
element is stored at `i * rows + j`. -/
def columnMajor (rows cols : ℕ) (data : List ℚ) : List ℚ :=
  (List.range cols).flatMap fun i => (List.range rows).map fun j => data.getD (i * rows + j) 0

/-- A sequence of sequences; an empty one is not different from any other empty sequence. -/
def seqsLeaf : List (List Scalar) → Leaf
  | [] => .seq []
  | k :: l => .seqs (k :: l)

/-- `writeCompound`, `writeEnum`, `writeScalar` (config_yaml/writer.h:120-265, config_msgpack/writer.h:96-222).
Simplification: sizes are less than 2^32 (assertions in config_msgpack/writer.h:102, 131, 163). -/
def writeVal (f : Format) (name : String) (v : Val) (rest : Fields) : Fields :=
  match v with
  | .scalar s => .leaf name (.scalar (emit f s)) rest
  | .enum i => .leaf name (.scalar (.int i)) rest
  | .vec _ l => .leaf name (.seq (l.map fun x => emit f (.real x))) rest
  | .list _ l => .leaf name (.seq (l.map (emit f))) rest
  -- the overload for vectors of vectors (config_yaml/writer.h:195-207) is a `const` member, so it is worse than the overload for
  -- `std::vector` (config_yaml/writer.h:219-233) for a writer which is not constant; `operator<<` of the emitter writes an element
  -- of this type as a sequence
  | .lists _ l => .leaf name (seqsLeaf (l.map fun k => k.map (emit f))) rest
  | .mat rows cols data =>
    .map name
      (.leaf "cols" (.scalar (.int cols)) (.leaf "rows" (.scalar (.int rows))
        (.leaf "data" (.seq ((match f with
          | .yaml => columnMajor rows cols data
          -- config_msgpack/writer.h:142-145
          | .msgpack => data).map fun x => emit f (.real x))) .nil))) rest

/-- `writeConfigEntries` (define_accessors.h:31-35, config.h:25-36): the map of the class. -/
def writeEntries (f : Format) : Entries → Fields
  | .nil => .nil
  | .leaf name v r => writeVal f name v (writeEntries f r)
  | .member name s r => .map name (writeEntries f s) (writeEntries f r)
  | .parent s r => (writeEntries f s).append (writeEntries f r)

/-- `writeConfig` (config.h:313-319): a section is added to the file. -/
def writeConfig (f : Format) (file : Fields) (name : String) (o : Entries) : Fields :=
  file.append (.map name (writeEntries f o) .nil)

/-! ## msgpack: the sequence of packed items -/

/-- Items in a msgpack file. -/
inductive Tok where
  /-- `pack_map(n)` -/
  | map (n : ℕ)
  /-- `pack_array(n)` -/
  | array (n : ℕ)
  | scalar (s : Scalar)

/-- `writeCompound`, `writeEnum`, `writeScalar` of config_msgpack/writer.h:96-222 (lines 104-109, 133-147, 165-170, 186-187,
203-204, 220-221). -/
def packVal (name : String) (v : Val) : List Tok :=
  match v with
  | .scalar s => [.scalar (.str name), .scalar s]
  | .enum i => [.scalar (.str name), .scalar (.int i)]
  | .vec _ l => .scalar (.str name) :: .array l.length :: l.map fun x => .scalar (.real x)
  | .list _ l => .scalar (.str name) :: .array l.length :: l.map .scalar
  | .lists _ l => .scalar (.str name) :: .array l.length :: l.flatMap fun k => .array k.length :: k.map .scalar
  | .mat rows cols data =>
    [.scalar (.str name), .map 3, .scalar (.str "cols"), .scalar (.int cols), .scalar (.str "rows"), .scalar (.int rows),
      .scalar (.str "data"), .array data.length] ++ data.map fun x => .scalar (.real x)

/-- `writeConfigEntries` with the msgpack writer; `descend` (config_msgpack/writer.h:64-68) announces the number of entries
returned by `getNumberOfEntries` (config.h:288). -/
def packEntries : Entries → List Tok
  | .nil => []
  | .leaf name v r => packVal name v ++ packEntries r
  | .member name s r => .scalar (.str name) :: .map s.number :: (packEntries s ++ packEntries r)
  | .parent s r => packEntries s ++ packEntries r

/-- `writeConfig` with the msgpack writer (config.h:313-319, config_msgpack/writer.h:64-77). -/
def packConfig (name : String) (o : Entries) : List Tok :=
  .map 1 :: .scalar (.str name) :: .map o.number :: packEntries o

/-- Contract of the msgpack parser: items of a sequence. -/
def unpackSeq : ℕ → List Tok → Option (List Scalar × List Tok)
  | 0, t => some ([], t)
  | n + 1, .scalar s :: t => (unpackSeq n t).map fun x => (s :: x.1, x.2)
  | _ + 1, _ => none

/-- Contract of the msgpack parser: a sequence of sequences. -/
def unpackSeqs : ℕ → List Tok → Option (List (List Scalar) × List Tok)
  | 0, t => some ([], t)
  | n + 1, .array k :: t =>
    (unpackSeq k t).bind fun x => (unpackSeqs n x.2).map fun y => (x.1 :: y.1, y.2)
  | _ + 1, _ => none

/-- Contract of the msgpack parser: an array; its items are scalars, or arrays if the first item is an array. -/
def unpackArray (n : ℕ) (t : List Tok) : Option (Leaf × List Tok) :=
  match n, t with
  | _ + 1, .array k :: t => (unpackSeqs n (.array k :: t)).map fun x => (.seqs x.1, x.2)
  | _, t => (unpackSeq n t).map fun x => (.seq x.1, x.2)

/-- Contract of the msgpack parser: `n` pairs of a key and a value (the first argument bounds the number of items). -/
def unpackMap : ℕ → ℕ → List Tok → Option (Fields × List Tok)
  | _, 0, t => some (.nil, t)
  | fuel + 1, n + 1, .scalar (.str name) :: .map k :: t =>
    (unpackMap fuel k t).bind fun x => (unpackMap fuel n x.2).map fun y => (.map name x.1 y.1, y.2)
  | fuel + 1, n + 1, .scalar (.str name) :: .array k :: t =>
    (unpackArray k t).bind fun x => (unpackMap fuel n x.2).map fun y => (.leaf name x.1 y.1, y.2)
  | fuel + 1, n + 1, .scalar (.str name) :: .scalar s :: t =>
    (unpackMap fuel n t).map fun y => (.leaf name (.scalar s) y.1, y.2)
  | _, _ + 1, _ => none

/-! ## Readers -/

/-- Computation of a reader: it changes the stack of nodes (`node_stack_`, config_yaml/reader.h:35) and may throw. The stack is
not restored when an exception is thrown. -/
abbrev RM (α : Type) : Type := List Node → Except Fault α × List Node

instance : Monad RM where
  pure a := fun st => (.ok a, st)
  bind x f := fun st =>
    match x st with
    | (.ok a, st') => f a st'
    | (.error e, st') => (.error e, st')

/-- Exception. -/
def RM.throw {α : Type} : RM α := fun st => (.error .thrown, st)

/-- Undefined behaviour. -/
def RM.ub {α : Type} : RM α := fun st => (.error .ub, st)

/-- `HUMOTO_ASSERT`. -/
def RM.assert (p : Prop) [Decidable p] : RM Unit := if p then pure () else RM.throw

/-- Child of a node. -/
def Node.find (name : String) : Node → Option Node
  | .map f => f.find name
  | .leaf _ => none

/-- Initial stack: the root node in YAML (config_yaml/reader.h:59), nothing in msgpack. -/
def openFile (f : Format) (file : Fields) : List Node :=
  match f with
  | .yaml => [.map file]
  | .msgpack => []

/-- `descend` (config_yaml/reader.h:102-115, config_msgpack/reader.h:117-152). -/
def descend (f : Format) (file : Fields) (name : String) : RM Bool := fun st =>
  match st with
  | [] =>
    match f with
    | .yaml => (.error .ub, st)
    | .msgpack =>
      match file.findMap name with
      | none => (.ok false, st)
      | some c => (.ok true, [c])
  | n :: r =>
    match n.find name with
    | none => (.ok false, st)
    | some c => (.ok true, c :: n :: r)

/-- `ascend` (config_yaml/reader.h:121-124, config_msgpack/reader.h:158-161). -/
def ascend : RM Unit := fun st =>
  match st with
  | [] => (.error .ub, st)
  | _ :: r => (.ok (), r)

/-- `getCurrentNode` (config_yaml/reader.h:68-71, config_msgpack/reader.h:83-86). -/
def getCurrentNode : RM Node := fun st =>
  match st with
  | [] => (.error .ub, st)
  | n :: _ => (.ok n, st)

/-- Conversion of a scalar to the type of the variable; an exception is thrown if it is not possible. Integers are accepted as
`double`. -/
def convert (ty : ScalarType) (s : Scalar) : RM Scalar :=
  if s.type = ty then pure s
  else match ty, s with
    | .real, .int i => pure (.real i)
    | _, _ => RM.throw

/-- Conversion of all elements (loops at config_yaml/reader.h:160-163, 254-257). -/
def convertAll (ty : ScalarType) : List Scalar → RM (List Scalar)
  | [] => pure []
  | s :: l => do
    let a ← convert ty s
    let r ← convertAll ty l
    pure (a :: r)

/-- Conversion of all sequences. -/
def convertSeqs (ty : ScalarType) : List (List Scalar) → RM (List (List Scalar))
  | [] => pure []
  | s :: l => do
    let a ← convertAll ty s
    let r ← convertSeqs ty l
    pure (a :: r)

/-- What is done when there is no entry (config_yaml/reader.h:167-173). -/
def missing {α : Type} (strict : Bool) (d : α) : RM α := if strict = true then RM.throw else pure d

/-- Scalar of the current node. -/
def currentScalar (ty : ScalarType) : RM Scalar := do
  let n ← getCurrentNode
  match n with
  | .leaf (.scalar s) => convert ty s
  | _ => RM.throw

/-- Sequence of the current node; other nodes are rejected (config_yaml/reader.h:147-148, 249-250). -/
def currentSeq (ty : ScalarType) : RM (List Scalar) := do
  let n ← getCurrentNode
  match n with
  | .leaf (.seq l) => convertAll ty l
  | _ => RM.throw

/-- Sequence of sequences of the current node. Simplification: a sequence of scalars is rejected (there `operator>>` for a vector
is applied to a scalar). -/
def currentSeqs (ty : ScalarType) : RM (List (List Scalar)) := do
  let n ← getCurrentNode
  match n with
  | .leaf (.seqs l) => convertSeqs ty l
  | .leaf (.seq []) => pure []
  | _ => RM.throw

/-- `readScalar` (config_yaml/reader.h:281-298, config_msgpack/reader.h:318-335). -/
def readScalar (f : Format) (file : Fields) (strict : Bool) (d : Scalar) (name : String) : RM Scalar := do
  let found ← descend f file name
  if found then do
    let s ← currentScalar d.type
    ascend
    pure s
  else missing strict d

/-- `readEnum` (config_yaml/reader.h:311-331, config_msgpack/reader.h:348-369). -/
def readEnum (f : Format) (file : Fields) (strict : Bool) (d : ℤ) (name : String) : RM ℤ := do
  let found ← descend f file name
  if found then do
    let s ← currentScalar .int
    ascend
    match s with
    | .int i => pure i
    | _ => RM.throw
  else missing strict d

/-- Numbers of a sequence which has been converted. -/
def reals (l : List Scalar) : List ℚ := l.filterMap fun s => match s with | .real x => some x | _ => none

/-- `readCompound` of a vector (config_yaml/reader.h:138-174, config_msgpack/reader.h:175-211). -/
def readVector (f : Format) (file : Fields) (strict : Bool) (fixed : Bool) (d : List ℚ) (name : String) : RM (List ℚ) := do
  let found ← descend f file name
  if found then do
    let l ← currentSeq .real
    RM.assert (fixed = true → l.length = d.length)
    ascend
    pure (reals l)
  else missing strict d

/-- `readCompound` of `std::vector` (config_yaml/reader.h:242-268, config_msgpack/reader.h:279-305). -/
def readList (f : Format) (file : Fields) (strict : Bool) (ty : ScalarType) (d : List Scalar) (name : String) :
    RM (List Scalar) := do
  let found ← descend f file name
  if found then do
    let l ← currentSeq ty
    ascend
    pure l
  else missing strict d

/-- The same for vectors of vectors. -/
def readLists (f : Format) (file : Fields) (strict : Bool) (ty : ScalarType) (d : List (List Scalar)) (name : String) :
    RM (List (List Scalar)) := do
  let found ← descend f file name
  if found then do
    let l ← currentSeqs ty
    ascend
    pure l
  else missing strict d

/-- `entry = map` where `map` is row major (config_yaml/reader.h:213-219): the storage of the column major matrix. -/
def fromRowMajor (rows cols : ℕ) (v : List ℚ) : List ℚ :=
  (List.range cols).flatMap fun j => (List.range rows).map fun i => v.getD (i * cols + j) 0

/-- `readCompound` of a matrix of dynamic size (config_yaml/reader.h:190-230, config_msgpack/reader.h:227-267). Simplification:
sizes are not negative. -/
def readMatrix (f : Format) (file : Fields) (strict : Bool) (d : ℕ × ℕ × List ℚ) (name : String) : RM (ℕ × ℕ × List ℚ) := do
  let found ← descend f file name
  if found then do
    let rows ← readEnum f file true 0 "rows"
    let cols ← readEnum f file true 0 "cols"
    let v ← readVector f file true false [] "data"
    RM.assert (0 ≤ rows ∧ 0 ≤ cols ∧ (v.length : ℤ) = rows * cols)
    ascend
    pure (rows.toNat, cols.toNat, fromRowMajor rows.toNat cols.toNat v)
  else missing strict d

/-- Reading of one member; `v` is its default. -/
def readVal (f : Format) (file : Fields) (strict : Bool) (v : Val) (name : String) : RM Val :=
  match v with
  | .scalar s => do
    let x ← readScalar f file strict s name
    pure (.scalar x)
  | .enum i => do
    let x ← readEnum f file strict i name
    pure (.enum x)
  | .vec fixed l => do
    let x ← readVector f file strict fixed l name
    pure (.vec fixed x)
  | .list ty l => do
    let x ← readList f file strict ty l name
    pure (.list ty x)
  | .lists ty l => do
    let x ← readLists f file strict ty l name
    pure (.lists ty x)
  | .mat rows cols data => do
    let x ← readMatrix f file strict (rows, cols, data) name
    pure (.mat x.1 x.2.1 x.2.2)

/-- `readConfigEntries` (define_accessors.h:63-69) and, for members, `readNestedConfig` (config.h:131-156); the argument is the
object after `setDefaults()`. Simplification: `finalize()` does not change the entries. -/
def readEntries (f : Format) (file : Fields) (strict : Bool) : Entries → RM Entries
  | .nil => pure .nil
  | .leaf name v r => do
    let x ← readVal f file strict v name
    let y ← readEntries f file strict r
    pure (.leaf name x y)
  | .member name s r => do
    let x ← (do
      let found ← descend f file name
      if found then do
        let x ← readEntries f file strict s
        ascend
        pure x
      else missing strict s)
    let y ← readEntries f file strict r
    pure (.member name x y)
  | .parent s r => do
    let x ← readEntries f file strict s
    let y ← readEntries f file strict r
    pure (.parent x y)

/-- `readConfig` (config.h:166-188), `readNestedConfig` (config.h:131-156): `d` is the object with default values. -/
def readConfig (f : Format) (file : Fields) (strict : Bool) (d : Entries) (name : String) : RM Entries := do
  let found ← descend f file name
  if found then do
    let x ← readEntries f file strict d
    ascend
    pure x
  else missing strict d

end Humoto.Config
