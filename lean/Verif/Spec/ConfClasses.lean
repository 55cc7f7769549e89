import Verif.Model.ConfClasses
import Verif.Spec.Config

/-!
# Configurable classes: what is expected
-/

namespace Humoto.Config.Spec

variable {α : Type}

/-- The numbers of an object survive in the format: all of them in msgpack, those with at most 15 significant digits in YAML. -/
def NumbersKept (f : Format) (e : Entries) : Prop := f = .msgpack ∨ AllValues (Numbers FifteenDigits) e

/-- The object `o` is written to a file, together with other objects, and is read by the object `q`, which becomes `r`. The reader
can be used again. -/
def ReadsAs (c : ConfClass α) (o q r : α) : Prop :=
  ∀ (f : Format) (sections : List (String × Entries)) (name : String) (strict : Bool), (sections.map Prod.fst).Nodup →
    (name, c.entries o) ∈ sections → NumbersKept f (c.entries o) →
    c.read f (fileWith f sections) strict q name (openFile f (fileWith f sections)) = (.ok r, openFile f (fileWith f sections))

/-- Objects (those which satisfy the condition) are restored from files whatever is the object which reads them. -/
def RestoredBy (c : ConfClass α) (Valid : α → Prop) : Prop := ∀ o, Valid o → ∀ q, ReadsAs c o q o

/-- There is no section for the object in the file: the default object is obtained, or an exception if the reading is strict. -/
def Defaulted (c : ConfClass α) (d : α) : Prop :=
  ∀ (q : α) (f : Format) (sections : List (String × Entries)) (name : String), name ∉ sections.map Prod.fst →
    c.read f (fileWith f sections) false q name (openFile f (fileWith f sections)) = (.ok d, openFile f (fileWith f sections)) ∧
    c.read f (fileWith f sections) true q name (openFile f (fileWith f sections))
      = (.error .thrown, openFile f (fileWith f sections))

/-- Whatever is in the file, and whatever is the object which reads it: if nothing is thrown, the object which is obtained satisfies
the condition. -/
def Consistent (c : ConfClass α) (P : α → Prop) : Prop :=
  ∀ (q : α) (f : Format) (file : Fields) (name : String) (strict : Bool) (st st' : List Node) (r : α),
    c.read f file strict q name st = (.ok r, st') → P r

/-- Sampling of walking: numbers of subsamples and times in seconds. -/
structure WpgMpcSampling (p : WpgMpcConf) : Prop where
  subsamples : p.subsamples_num * p.subsampling_time_ms = p.sampling_time_ms
  tds_subsamples : p.tds_subsamples_num * p.subsampling_time_ms = p.tds_sampling_time_ms
  positive : 0 < p.subsampling_time_ms
  sampling_time : 1000 * p.sampling_time = p.sampling_time_ms
  subsampling_time : 1000 * p.subsampling_time = p.subsampling_time_ms
  tds_sampling_time : 1000 * p.tds_sampling_time = p.tds_sampling_time_ms

end Humoto.Config.Spec
