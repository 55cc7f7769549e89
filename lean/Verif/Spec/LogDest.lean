import Verif.Model.LogDest

/-!
# Specification: where the messages of a logger go
-/

namespace Humoto.Log.Spec

variable {σ μ : Type}

/-- A destination: a stream of the user or a file with the given name. -/
inductive Destination (σ : Type) where
  | stream (s : σ)
  | file (name : σ)
deriving DecidableEq

/-- The requests to open a file among the calls. -/
def fileRequests (calls : List (LogCall σ μ)) : List σ :=
  calls.filterMap fun | .toFile f => some f | _ => none

/-- A file can be given to a logger after the calls `before`: no file was opened by these calls, and the file system permits. -/
def Opens (canOpen : σ → Bool) (before : List (LogCall σ μ)) (name : σ) : Bool :=
  canOpen name && !(fileRequests before).any canOpen

/-- The result of an attempt to give a destination to the logger, `none` for other calls. -/
def attempt (canOpen : σ → Bool) (before : List (LogCall σ μ)) : LogCall σ μ → Option (Option (Destination σ))
  | .toStream s => some (some (.stream s))
  | .toFile f => some (if Opens canOpen before f then some (.file f) else none)
  | _ => none

/-- The result of the last attempt. -/
def lastAttempt (canOpen : σ → Bool) : List (LogCall σ μ) → List (LogCall σ μ) → Option (Destination σ) → Option (Destination σ)
  | _, [], r => r
  | before, c :: l, r => lastAttempt canOpen (before ++ [c]) l ((attempt canOpen before c).getD r)

/-- The first attempt which succeeds. -/
def firstSuccess (canOpen : σ → Bool) : List (LogCall σ μ) → List (LogCall σ μ) → Option (Destination σ)
  | _, [] => none
  | before, c :: l => ((attempt canOpen before c).getD none).or (firstSuccess canOpen (before ++ [c]) l)

/-- Where a message belongs which is logged between the calls `before` and `after`: to the destination given by the last attempt before it, or
if this attempt failed or there is none, to the first destination given afterwards. -/
def destination (canOpen : σ → Bool) (before after : List (LogCall σ μ)) : Option (Destination σ) :=
  (lastAttempt canOpen [] before none).or (firstSuccess canOpen before after)

/-- The messages which belong to a destination in the order of logging: `where_ before after` tells where a message belongs. -/
def received [DecidableEq σ] (where_ : List (LogCall σ μ) → List (LogCall σ μ) → Option (Destination σ)) (d : Destination σ) :
    List (LogCall σ μ) → List (LogCall σ μ) → List μ
  | _, [] => []
  | before, c :: after =>
    (match c with
      | .log m => if where_ before after = some d then [m] else []
      | _ => []) ++ received where_ d (before ++ [c]) after

/-- The file was opened by one of the calls. -/
def Opened (canOpen : σ → Bool) (calls : List (LogCall σ μ)) (name : σ) : Prop :=
  ∃ a b, calls = a ++ LogCall.toFile name :: b ∧ Opens canOpen a name = true

/-- How a call changes the situation of the logger without threads, see below. -/
def nextSituation (canOpen : σ → Bool) (before : List (LogCall σ μ)) (c : LogCall σ μ) (r : Option (Option (Destination σ))) :
    Option (Option (Destination σ)) :=
  match attempt canOpen before c, r with
  | none, r => r
  | some (some d), _ => some (some d)
  | some none, some (some (.file _)) => some none
  | some none, r => r

/-- Where the messages of the logger without threads go after the given calls: `none` if no destination was given, `some none` if they are
lost: the destination was a file and then another file was requested, which always fails. -/
def situation (canOpen : σ → Bool) :
    List (LogCall σ μ) → List (LogCall σ μ) → Option (Option (Destination σ)) → Option (Option (Destination σ))
  | _, [], r => r
  | before, c :: l, r => situation canOpen (before ++ [c]) l (nextSituation canOpen before c r)

/-- A message is logged before a destination was given. -/
def LogsTooEarly (canOpen : σ → Bool) (calls : List (LogCall σ μ)) : Prop :=
  ∃ a m b, calls = a ++ LogCall.log m :: b ∧ situation canOpen [] a none = none

/-- Everything is where it belongs: streams of the user are continued, files are overwritten when they are opened, other files are untouched. -/
def Delivered [DecidableEq σ] (canOpen : σ → Bool) (where_ : List (LogCall σ μ) → List (LogCall σ μ) → Option (Destination σ))
    (calls : List (LogCall σ μ)) (w w' : World σ μ) : Prop :=
  (∀ s, w'.streams s = w.streams s ++ received where_ (.stream s) [] calls) ∧
  (∀ f, Opened canOpen calls f → w'.files f = received where_ (.file f) [] calls) ∧
  (∀ f, ¬ Opened canOpen calls f → w'.files f = w.files f)

end Humoto.Log.Spec
