import Verif.Model.Logger

/-!
# Specification of the threaded logger
-/

namespace Humoto.Spec

open Humoto.Log

variable {μ : Type}

/-- Everything that can be found in all streams the logger has been given, in the order of streams. -/
def delivered (s : State μ) : List μ := s.old.flatten ++ s.flushed

/-- `a` is found before `b` in the list. -/
def Before (a b : μ) (l : List μ) : Prop := ∃ x y z, l = x ++ a :: y ++ b :: z

/-- The logger has been given a stream, and has not been stopped since then. -/
def Running (t : List (Label μ)) : Prop :=
  ∃ a b, t = a ++ Label.started :: b ∧ Label.stopped ∉ b

/-- A thread is about to execute a line which accesses the queue. -/
def clientAccesses : Client μ → Prop
  | .push _ => True
  | _ => False

/-- The processing thread is about to execute a line which accesses the queue. -/
def workerAccesses : Worker μ → Prop
  | .size _ => True
  | .front _ _ => True
  | .pop _ _ _ => True
  | _ => False

/-- Infinite execution of a default constructed logger: states, who makes a step, and what is done. Executions which come to an
end are continued by steps in which the stream flushes nothing. -/
structure Execution (σ : ℕ → State μ) (act : ℕ → Actor) (lab : ℕ → Label μ) : Prop where
  start : σ 0 = initial
  step : ∀ n, Step (σ n) (act n) (lab n) (σ (n + 1))

/-- Assumptions on the scheduler: a producer or the owner which is able to make a step all the time makes it eventually; the
processing thread, which competes for the mutex, makes a step eventually if it is able to do it again and again. -/
structure Fair (σ : ℕ → State μ) (act : ℕ → Actor) : Prop where
  client : ∀ i n, (∀ m, n ≤ m → clientStep (σ m) i ≠ none) → ∃ m, n ≤ m ∧ act m = .client i
  owner : ∀ n, (∀ m, n ≤ m → ownerStep (σ m) ≠ none) → ∃ m, n ≤ m ∧ act m = .owner
  worker : (∀ n, ∃ m, n ≤ m ∧ workerStep (σ m) ≠ none) → ∀ n, ∃ m, n ≤ m ∧ act m = .worker

end Humoto.Spec
