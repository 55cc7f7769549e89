import Verif.Model.Basic

/-!
# Threaded logger (core/include/humoto/logger.h:440-874)

The producers (any number of threads which call `log`), the thread which processes the queue and the thread which owns the
logger (`initialize`, destructor) are modelled as a transition system. One transition is one line of the source which touches
shared memory; the transitions of different threads interleave arbitrarily.

Simplifications:
* memory is sequentially consistent. In the source `interrupted_` is a plain `bool` which is read by the processing thread
  without synchronization (line 596), i.e., formally a data race; compilers that keep the load in the loop behave as modelled;
* `boost::mutex` is represented by its contract: `lock` waits until the mutex is free;
* the contents of a message (`LogMessage::write`) is abstracted to its identity, each `new LogMessage...` (lines 771-872)
  gives a message different from all the others;
* the stream keeps what is written in a buffer until it is flushed, or until it decides to flush on its own (`spill`);
* `initialize` of the base class does not fail (the file can be opened).
-/

namespace Humoto.Log

/-- Program counter of a thread which calls `log` (logger.h:576-581, 771-872); the argument is the message. -/
inductive Client (μ : Type) where
  /-- not in `log` -/
  | idle
  /-- before line 578: `message_queue_mutex_.lock()` -/
  | lock (m : μ)
  /-- before line 579: `message_queue_.push(msg)` -/
  | push (m : μ)
  /-- before line 580: `message_queue_mutex_.unlock()` -/
  | unlock (m : μ)

/-- Program counter of the processing thread (logger.h:587-637); `stop` is `stop_thread`, `k` is the number of messages which
remain to be processed in the loop at line 616 (`num_msg - i`). -/
inductive Worker (μ : Type) where
  /-- there is no thread -/
  | none
  /-- before line 596: `if (interrupted_)` -/
  | check
  /-- before line 601: `lock()` -/
  | lockSize (stop : Bool)
  /-- before line 602: `num_msg = message_queue_.size()` -/
  | size (stop : Bool)
  /-- before line 603: `unlock()`; `k = num_msg` -/
  | unlockSize (stop : Bool) (k : ℕ)
  /-- line 610: `sleep_for` -/
  | sleep
  /-- before line 620: `lock()`; `k > 0` messages remain -/
  | lockPop (stop : Bool) (k : ℕ)
  /-- before line 621: `msg = message_queue_.front()` -/
  | front (stop : Bool) (k : ℕ)
  /-- before line 622: `message_queue_.pop()` -/
  | pop (stop : Bool) (k : ℕ) (m : μ)
  /-- before line 623: `unlock()` -/
  | unlockPop (stop : Bool) (k : ℕ) (m : μ)
  /-- before line 625: `msg->write(output_stream_)` -/
  | write (stop : Bool) (k : ℕ) (m : μ)
  /-- before line 629: `output_stream_->flush()` -/
  | flush (stop : Bool)
  /-- before line 632: `if (stop_thread)` -/
  | decide (stop : Bool)
  /-- the thread has returned (line 634) -/
  | done
  /-- undefined behaviour: `front()` or `pop()` of an empty queue -/
  | crashed

/-- What the owner does after `interrupt()`: the destructor (logger.h:710-713) or `initialize` (logger.h:723-751). -/
inductive Purpose where
  | destroy
  | reinitialize

/-- Program counter of the owner of the logger (logger.h:643-660, 710-751). -/
inductive Owner where
  | idle
  /-- before line 645: `if (! interrupted_)` -/
  | check (p : Purpose)
  /-- before line 647: `interrupted_ = true` -/
  | set (p : Purpose)
  /-- line 648: `processor_thread_.join()` -/
  | join (p : Purpose)
  /-- before lines 728-731: `LoggerBase::initialize`, `start()` -/
  | start

/-- Holder of `message_queue_mutex_`. -/
inductive Holder where
  | client (i : ℕ)
  | worker
deriving DecidableEq

/-- Shared state (logger.h:558-565), program counters of all threads, streams. -/
structure State (μ : Type) where
  /-- `message_queue_mutex_` -/
  lock : Option Holder
  /-- `message_queue_` -/
  queue : List μ
  /-- `interrupted_` -/
  interrupted : Bool
  worker : Worker μ
  owner : Owner
  clients : ℕ → Client μ
  /-- data which is written to the current stream but not flushed -/
  buffered : List μ
  /-- contents of the current stream -/
  flushed : List μ
  /-- contents of the previous streams -/
  old : List (List μ)
  /-- messages allocated so far -/
  allocated : List μ

/-- Actions visible from outside, and pushing, which gives the order of messages. -/
inductive Label (μ : Type) where
  /-- thread `i` calls `log` -/
  | call (i : ℕ) (m : μ)
  /-- the message is pushed to the queue -/
  | push (m : μ)
  /-- `log` returns in thread `i` -/
  | ret (i : ℕ) (m : μ)
  /-- `initialize` or the destructor is called -/
  | shutdown
  /-- `interrupt()` has returned -/
  | stopped
  /-- the logger is started with a stream -/
  | started
  /-- anything else -/
  | internal

variable {μ : Type}

/-- Default constructor (logger.h:670-674). The constructors with a stream (lines 684-704) are `initialize` of a default
constructed logger. -/
def initial : State μ where
  lock := none
  queue := []
  interrupted := true
  worker := .none
  owner := .idle
  clients := fun _ => .idle
  buffered := []
  flushed := []
  old := []
  allocated := []

/-- Assignment of the program counter of a client. -/
def State.setClient (s : State μ) (i : ℕ) (c : Client μ) : State μ :=
  { s with clients := fun j => if j = i then c else s.clients j }

/-- One step of a producer within `pushMessage` (logger.h:576-581); `none` if the thread has to wait or is not in `log`. -/
def clientStep (s : State μ) (i : ℕ) : Option (Label μ × State μ) :=
  match s.clients i with
  | .idle => none
  | .lock m =>
    if s.lock = none then some (.internal, ({ s with lock := some (.client i) } : State μ).setClient i (.push m)) else none
  | .push m => some (.push m, ({ s with queue := s.queue ++ [m] } : State μ).setClient i (.unlock m))
  | .unlock m => some (.ret i m, ({ s with lock := none } : State μ).setClient i .idle)

/-- Loop condition at line 616 (logger.h:616). -/
def loopHead (stop : Bool) (k : ℕ) : Worker μ := if k = 0 then .flush stop else .lockPop stop k

/-- Branches at lines 606-615 (logger.h:606-615). -/
def afterSize (stop : Bool) (k : ℕ) : Worker μ :=
  if k = 0 then (if stop = false then .sleep else .decide stop) else loopHead stop k

/-- Branch at lines 632-635 (logger.h:632-635). -/
def afterDecide (stop : Bool) : Worker μ := if stop = true then .done else .check

/-- One step of the processing thread (logger.h:587-637); `none` if it has to wait, is absent or has returned. -/
def workerStep (s : State μ) : Option (State μ) :=
  match s.worker with
  | .none => none
  | .check => some { s with worker := .lockSize s.interrupted }
  | .lockSize stop => if s.lock = none then some { s with lock := some .worker, worker := .size stop } else none
  | .size stop => some { s with worker := .unlockSize stop s.queue.length }
  | .unlockSize stop k =>
    some { s with lock := none, worker := afterSize stop k }
  | .sleep => some { s with worker := .check }
  | .lockPop stop k => if s.lock = none then some { s with lock := some .worker, worker := .front stop k } else none
  | .front stop k =>
    match s.queue with
    | [] => some { s with worker := .crashed }
    | m :: _ => some { s with worker := .pop stop k m }
  | .pop stop k m =>
    match s.queue with
    | [] => some { s with worker := .crashed }
    | _ :: q => some { s with queue := q, worker := .unlockPop stop k m }
  | .unlockPop stop k m => some { s with lock := none, worker := .write stop k m }
  | .write stop k m => some { s with buffered := s.buffered ++ [m], worker := loopHead stop (k - 1) }
  | .flush stop => some { s with flushed := s.flushed ++ s.buffered, buffered := [], worker := .decide stop }
  | .decide stop => some { s with worker := afterDecide stop }
  | .done => none
  | .crashed => none

/-- Where the owner goes when `interrupt()` returns (logger.h:710-731). -/
def Purpose.next : Purpose → Owner
  | .destroy => .idle
  | .reinitialize => .start

/-- One step of the owner (logger.h:643-660, 723-751). -/
def ownerStep (s : State μ) : Option (Label μ × State μ) :=
  match s.owner with
  | .idle => none
  | .check p => if s.interrupted = false then some (.internal, { s with owner := .set p })
    else some (.stopped, { s with owner := p.next })
  | .set p => some (.internal, { s with interrupted := true, owner := .join p })
  | .join p =>
    match s.worker with
    | .done => some (.stopped, { s with worker := .none, owner := p.next })
    | _ => none
  | .start =>
    some (.started, { s with
      old := s.old ++ [s.flushed], flushed := [], buffered := []
      interrupted := false, worker := .check, owner := .idle })

/-- Who makes a step. -/
inductive Actor where
  | worker
  | client (i : ℕ)
  | owner
  /-- the program decides to call a method of the logger -/
  | user
  /-- the stream decides to flush a part of its buffer -/
  | stream

/-- One step of the whole system. -/
inductive Step : State μ → Actor → Label μ → State μ → Prop where
  | worker {s s' : State μ} : workerStep s = some s' → Step s .worker .internal s'
  | client {s s' : State μ} {i : ℕ} {l : Label μ} : clientStep s i = some (l, s') → Step s (.client i) l s'
  | owner {s s' : State μ} {l : Label μ} : ownerStep s = some (l, s') → Step s .owner l s'
  /-- `log` is called: the message is allocated (logger.h:771, 784, 808, 831, 846, 872) -/
  | call {s : State μ} (i : ℕ) (m : μ) : s.clients i = .idle → m ∉ s.allocated →
      Step s .user (.call i m) (({ s with allocated := s.allocated ++ [m] } : State μ).setClient i (.lock m))
  /-- `initialize` or the destructor is called (logger.h:710, 723, 742) -/
  | shutdown {s : State μ} (p : Purpose) : s.owner = .idle → Step s .user .shutdown { s with owner := .check p }
  /-- a part of the buffer of the stream is flushed -/
  | spill {s : State μ} (n : ℕ) :
      Step s .stream .internal { s with flushed := s.flushed ++ s.buffered.take n, buffered := s.buffered.drop n }

/-- Finite executions of a default constructed logger with the actions made. -/
inductive Run : List (Label μ) → State μ → Prop where
  | start : Run [] initial
  | step {t : List (Label μ)} {s s' : State μ} {a : Actor} {l : Label μ} :
      Run t s → Step s a l s' → Run (t ++ [l]) s'

end Humoto.Log
