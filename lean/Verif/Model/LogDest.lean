import Verif.Model.Basic

/-!
# Where the messages of a logger go

core/include/humoto/logger.h: `LoggerBase` (streams and files), both versions of `Logger`, as seen by the thread which owns the logger. What
happens inside of the threaded logger is the subject of C44; here its thread is represented by the messages which it has written so far.

Simplifications: a message is one value; streams given by the user accept everything; whether the file system lets open a file with a given name
does not change with time.
-/

namespace Humoto.Log

variable {σ μ : Type}

/-- Where a message may be written: one of the streams of the user, or the file which is open in `output_file_stream_`. -/
inductive Target (σ : Type) where
  | stream (s : σ)
  | file
deriving DecidableEq

/-- `std::ofstream`: the open file and `failbit`. -/
structure FileStream (σ : Type) where
  name : Option σ
  failed : Bool

/-- Contents of the streams and of the files. Both are identified by elements of `σ`. -/
structure World (σ μ : Type) where
  streams : σ → List μ
  files : σ → List μ

/-- `LoggerBase`, logger.h:285-436, with the world around. -/
structure Base (σ μ : Type) where
  world : World σ μ
  output_file_stream : FileStream σ
  file_stream_is_open : Bool
  output_stream : Option (Target σ)

/-- `LoggerBase::LoggerBase()`, logger.h:359-363. -/
def Base.construct (w : World σ μ) : Base σ μ :=
  { world := w, output_file_stream := { name := none, failed := false }, file_stream_is_open := false, output_stream := none }

/-- `initialize(std::ostream &)`, logger.h:409-415, 375-378. -/
def Base.toStream (b : Base σ μ) (s : σ) : Base σ μ :=
  { b with file_stream_is_open := false, output_stream := some (.stream s) }

/-- `std::ofstream::open`: fails if a file is open already or the file cannot be opened; otherwise the file is truncated and the state is
cleared. -/
def FileStream.open [DecidableEq σ] (canOpen : σ → Bool) (f : FileStream σ) (w : World σ μ) (name : σ) : FileStream σ × World σ μ :=
  if f.name.isSome then ({ f with failed := true }, w)
  else if canOpen name then
    ({ name := some name, failed := false }, { w with files := fun n => if n = name then [] else w.files n })
  else ({ f with failed := true }, w)

/-- `initialize(const std::string &)`, logger.h:423-435, 386-389. The first component tells whether there is no exception; the second one is
the state of the object after the call, also if there is one. -/
def Base.toFile [DecidableEq σ] (canOpen : σ → Bool) (b : Base σ μ) (name : σ) : Bool × Base σ μ :=
  let r := b.output_file_stream.open canOpen b.world name
  let b := { b with file_stream_is_open := true, output_file_stream := r.1, world := r.2 }
  if b.output_file_stream.failed then (false, b) else (true, { b with output_stream := some .file })

/-- Writing of messages to `*output_stream_` and flushing; a stream which has failed ignores everything. Undefined if there is no stream. -/
def Base.write [DecidableEq σ] (b : Base σ μ) (m : List μ) : Res (Base σ μ) :=
  match b.output_stream with
  | none => .error .ub
  | some (.stream s) => .ok { b with world := { b.world with streams := fun n => if n = s then b.world.streams n ++ m else b.world.streams n } }
  | some .file =>
    match b.output_file_stream.failed, b.output_file_stream.name with
    | false, some f => .ok { b with world := { b.world with files := fun n => if n = f then b.world.files n ++ m else b.world.files n } }
    | _, _ => .ok b

/-- Calls of the methods of a logger; `work n`: the thread of the threaded logger writes `n` messages of the queue. -/
inductive LogCall (σ μ : Type) where
  | log (m : μ)
  | toStream (s : σ)
  | toFile (name : σ)
  | work (n : ℕ)

/-! ## The logger without threads, logger.h:882-960 -/

/-- One call; exceptions of `initialize` are caught by the caller, logger.h:409-435, 913-917, 929-934, 951-957. -/
def directStep [DecidableEq σ] (canOpen : σ → Bool) (b : Base σ μ) : LogCall σ μ → Res (Base σ μ)
  | .log m => b.write [m]
  | .toStream s => .ok (b.toStream s)
  | .toFile name => .ok (b.toFile canOpen name).2
  | .work _ => .ok b

/-- All calls. -/
def directRun [DecidableEq σ] (canOpen : σ → Bool) (b : Base σ μ) : List (LogCall σ μ) → Res (Base σ μ)
  | [] => .ok b
  | c :: l => directStep canOpen b c >>= fun b => directRun canOpen b l

/-! ## The logger with threads, logger.h:555-875 -/

/-- `Logger`, logger.h:558-565. -/
structure Threaded (σ μ : Type) where
  base : Base σ μ
  message_queue : List μ
  interrupted : Bool

/-- `Logger::Logger()`, logger.h:670-674. -/
def Threaded.construct (w : World σ μ) : Threaded σ μ := { base := Base.construct w, message_queue := [], interrupted := true }

/-- `processQueue`, logger.h:587-637: the thread writes some of the messages. -/
def Threaded.work [DecidableEq σ] (t : Threaded σ μ) (n : ℕ) : Res (Threaded σ μ) :=
  if t.interrupted then .ok t
  else t.base.write (t.message_queue.take n) >>= fun b => .ok { t with base := b, message_queue := t.message_queue.drop n }

/-- `interrupt`, logger.h:643-650: when `join` returns, all messages are written (`C44_delivered`). -/
def Threaded.interrupt [DecidableEq σ] (t : Threaded σ μ) : Res (Threaded σ μ) :=
  if t.interrupted then .ok t
  else t.work t.message_queue.length >>= fun t => .ok { t with interrupted := true }

/-- `start`, logger.h:656-660. -/
def Threaded.start (t : Threaded σ μ) : Threaded σ μ := { t with interrupted := false }

/-- One call; exceptions of `initialize` are caught by the caller, logger.h:576-581, 723-751. -/
def Threaded.step [DecidableEq σ] (canOpen : σ → Bool) (t : Threaded σ μ) : LogCall σ μ → Res (Threaded σ μ)
  | .log m => .ok { t with message_queue := t.message_queue ++ [m] }
  | .work n => t.work n
  | .toStream s => t.interrupt >>= fun t => .ok ({ t with base := t.base.toStream s } : Threaded σ μ).start
  | .toFile name => t.interrupt >>= fun t =>
    let r := t.base.toFile canOpen name
    if r.1 then .ok ({ t with base := r.2 } : Threaded σ μ).start else .ok { t with base := r.2 }

/-- All calls and the destructor, logger.h:710-713. -/
def Threaded.run [DecidableEq σ] (canOpen : σ → Bool) (t : Threaded σ μ) : List (LogCall σ μ) → Res (Threaded σ μ)
  | [] => t.interrupt
  | c :: l => t.step canOpen c >>= fun t => t.run canOpen l

end Humoto.Log
