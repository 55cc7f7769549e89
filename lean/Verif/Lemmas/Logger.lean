import Verif.Spec.Logger
import Mathlib.Data.List.Basic
import Mathlib.Data.List.Nodup
import Mathlib.Tactic.Linarith

/-!
# Invariants of the threaded logger
-/

set_option linter.unusedSimpArgs false

namespace Humoto.Log

variable {μ : Type}

/-- Messages in the order of pushing. -/
def pushed (t : List (Label μ)) : List μ := t.filterMap fun l => match l with | .push m => some m | _ => none

/-- Messages given to `log`. -/
def called (t : List (Label μ)) : List μ := t.filterMap fun l => match l with | .call _ m => some m | _ => none

theorem pushed_append (t u : List (Label μ)) : pushed (t ++ u) = pushed t ++ pushed u := by
  simp [pushed, List.filterMap_append]

theorem called_append (t u : List (Label μ)) : called (t ++ u) = called t ++ called u := by
  simp [called, List.filterMap_append]

/-- All that was written to streams, including the buffer. -/
def outs (s : State μ) : List μ := s.old.flatten ++ s.flushed ++ s.buffered

/-- Message taken from the queue, but not written yet. -/
def inflight : Worker μ → List μ
  | .unlockPop _ _ m => [m]
  | .write _ _ m => [m]
  | _ => []

/-- The client holds the mutex. -/
def inside : Client μ → Prop
  | .push _ => True
  | .unlock _ => True
  | _ => False

/-- The processing thread holds the mutex. -/
def insideW : Worker μ → Prop
  | .size _ => True
  | .unlockSize _ _ => True
  | .front _ _ => True
  | .pop _ _ _ => True
  | .unlockPop _ _ _ => True
  | .crashed => True
  | _ => False

/-! ## The owner -/

/-- `stop_thread` -/
def stopFlag : Worker μ → Bool
  | .lockSize b => b
  | .size b => b
  | .unlockSize b _ => b
  | .lockPop b _ => b
  | .front b _ => b
  | .pop b _ _ => b
  | .unlockPop b _ _ => b
  | .write b _ _ => b
  | .flush b => b
  | .decide b => b
  | .done => true
  | _ => false

/-- The owner is waiting for the thread. -/
def joining : Owner → Prop
  | .join _ => True
  | _ => False

@[simp] theorem stopFlag_loopHead (stop : Bool) (k : ℕ) : stopFlag (loopHead stop k : Worker μ) = stop := by
  unfold loopHead; split <;> rfl

@[simp] theorem loopHead_ne_none (stop : Bool) (k : ℕ) : (loopHead stop k : Worker μ) ≠ .none := by
  unfold loopHead; split <;> simp

@[simp] theorem loopHead_ne_crashed (stop : Bool) (k : ℕ) : (loopHead stop k : Worker μ) ≠ .crashed := by
  unfold loopHead; split <;> simp

@[simp] theorem stopFlag_afterSize (stop : Bool) (k : ℕ) : stopFlag (afterSize stop k : Worker μ) = stop := by
  unfold afterSize; split
  · cases stop <;> rfl
  · simp

@[simp] theorem afterSize_ne_none (stop : Bool) (k : ℕ) : (afterSize stop k : Worker μ) ≠ .none := by
  unfold afterSize; split
  · cases stop <;> simp
  · simp

@[simp] theorem stopFlag_afterDecide (stop : Bool) : stopFlag (afterDecide stop : Worker μ) = stop := by
  cases stop <;> rfl

@[simp] theorem afterDecide_ne_none (stop : Bool) : (afterDecide stop : Worker μ) ≠ .none := by
  cases stop <;> simp [afterDecide]

@[simp] theorem not_joining_next (p : Purpose) : ¬ joining p.next := by cases p <;> simp [Purpose.next, joining]

/-- State of the owner, of the flag and of the thread fit together. -/
structure Owned (s : State μ) : Prop where
  none : s.worker = .none ↔ (s.interrupted = true ∧ ¬ joining s.owner)
  stop : stopFlag s.worker = true → joining s.owner
  joining : joining s.owner → s.interrupted = true
  set : ∀ p, s.owner = .set p → s.interrupted = false
  start : s.owner = .start → s.worker = .none

theorem owned_step {s s' : State μ} {a : Actor} {l : Label μ} (h : Step s a l s') (hs : Owned s) : Owned s' := by
  obtain ⟨h1, h2, h3, h4, h5⟩ := hs
  have hint : s.interrupted = true → s.worker ≠ .none → Log.joining s.owner := by
    intro a b; by_contra hc; exact b (h1.2 ⟨a, hc⟩)
  cases h with
  | worker h =>
    unfold workerStep at h
    split at h <;> rename_i hp <;> (try split at h) <;>
      simp only [Option.some.injEq, reduceCtorEq] at h <;> subst h <;>
      simp only [hp, stopFlag, reduceCtorEq, false_iff, ne_eq, not_false_eq_true, forall_const] at h1 h2 h5 hint <;>
      refine ⟨?_, ?_, h3, h4, ?_⟩ <;>
      simp only [stopFlag_afterSize, stopFlag_afterDecide, stopFlag_loopHead] <;> (try simp_all) <;>
      (try simp_all [stopFlag])
  | client h =>
    unfold clientStep at h
    split at h <;> (try split at h) <;> simp only [Option.some.injEq, reduceCtorEq, Prod.mk.injEq] at h <;>
      obtain ⟨-, rfl⟩ := h <;> exact ⟨h1, h2, h3, h4, h5⟩
  | owner h =>
    unfold ownerStep at h
    split at h <;> rename_i hp <;> (try split at h) <;>
      simp only [Option.some.injEq, reduceCtorEq, Prod.mk.injEq] at h <;>
      obtain ⟨-, rfl⟩ := h <;> simp only [hp, Log.joining] at h1 h2 h3 h4 h5 <;>
      constructor <;> simp_all [stopFlag, Log.joining] <;> (try cases ‹Purpose› <;> simp_all [Purpose.next, Log.joining])
  | call i m hi hm => exact ⟨h1, h2, h3, h4, h5⟩
  | shutdown p hp =>
    simp only [hp, Log.joining] at h1 h2 h3 h4 h5
    constructor <;> simp_all [Log.joining]
  | spill n => exact ⟨h1, h2, h3, h4, h5⟩

/-! ## The mutex -/

/-- The mutex is held by the thread which is in a critical section. -/
structure Mutex (s : State μ) : Prop where
  client : ∀ i, s.lock = some (.client i) ↔ inside (s.clients i)
  worker : s.lock = some .worker ↔ insideW s.worker

theorem insideW_loopHead (stop : Bool) (k : ℕ) : ¬ insideW (loopHead stop k : Worker μ) := by
  unfold loopHead; split <;> simp [insideW]

theorem insideW_afterSize (stop : Bool) (k : ℕ) : ¬ insideW (afterSize stop k : Worker μ) := by
  unfold afterSize; split
  · cases stop <;> simp [insideW]
  · exact insideW_loopHead stop k

theorem insideW_afterDecide (stop : Bool) : ¬ insideW (afterDecide stop : Worker μ) := by
  cases stop <;> simp [insideW, afterDecide]

theorem mutex_step {s s' : State μ} {a : Actor} {l : Label μ} (h : Step s a l s') (ho : Owned s) (hs : Mutex s) :
    Mutex s' := by
  obtain ⟨hc, hw⟩ := hs
  have hfree : ∀ i, s.lock = some .worker → ¬ inside (s.clients i) := by
    intro i hl hi; rw [← hc, hl] at hi; simp at hi
  have hfree' : ∀ i, s.lock = none → ¬ inside (s.clients i) := by
    intro i hl hi; rw [← hc, hl] at hi; simp at hi
  cases h with
  | worker h =>
    unfold workerStep at h
    split at h <;> rename_i hp <;> simp only [hp, insideW] at hw <;>
      (try split at h) <;> simp only [Option.some.injEq, reduceCtorEq] at h <;> subst h <;>
      refine ⟨fun i => ?_, ?_⟩ <;>
      simp only [insideW_loopHead, insideW_afterSize, insideW_afterDecide] <;> (try simp_all) <;>
      (try simp_all [insideW])
  | client h =>
    rename_i i
    unfold clientStep at h
    have hother : ∀ j, j ≠ i → s.lock = some (.client i) → ¬ inside (s.clients j) := by
      intro j hj hl hi; rw [← hc, hl] at hi; simp only [Option.some.injEq, Holder.client.injEq] at hi; exact hj hi.symm
    have hi := hc i
    split at h <;> rename_i hp <;> simp only [hp, inside, iff_true, iff_false] at hi <;>
      (try split at h) <;> simp only [Option.some.injEq, reduceCtorEq, Prod.mk.injEq] at h <;> obtain ⟨-, rfl⟩ := h
    · rename_i hl
      refine ⟨fun j => ?_, ?_⟩
      · by_cases hj : j = i
        · simp [State.setClient, hj, inside]
        · have := hfree' j hl
          simp only [State.setClient, hj, if_false, this, iff_false, Option.some.injEq, Holder.client.injEq]
          exact fun e => hj e.symm
      · rw [hl] at hw
        simpa [State.setClient] using hw
    · refine ⟨fun j => ?_, ?_⟩
      · by_cases hj : j = i
        · simp [State.setClient, hj, inside, hi]
        · simpa [State.setClient, hj] using hc j
      · simpa [State.setClient] using hw
    · refine ⟨fun j => ?_, ?_⟩
      · by_cases hj : j = i
        · simp [State.setClient, hj, inside]
        · simpa [State.setClient, hj] using hother j hj hi
      · rw [hi] at hw
        simpa [State.setClient] using hw
  | owner h =>
    have h5 := ho.start
    unfold ownerStep at h
    split at h <;> (try split at h) <;> simp only [Option.some.injEq, reduceCtorEq, Prod.mk.injEq] at h <;>
      obtain ⟨-, rfl⟩ := h <;> constructor <;> simp_all [insideW]
  | call i m hi hm =>
    refine ⟨fun j => ?_, ?_⟩
    · by_cases hj : j = i
      · have := hc i
        rw [hi] at this
        simpa [State.setClient, hj, inside] using this
      · simpa [State.setClient, hj] using hc j
    · simpa [State.setClient] using hw
  | shutdown p hp => exact ⟨hc, hw⟩
  | spill n => exact ⟨hc, hw⟩

/-! ## Flow of messages -/

/-- Number of messages the loop is going to take from the queue. -/
def remaining : Worker μ → ℕ
  | .unlockSize _ k => k
  | .lockPop _ k => k
  | .front _ k => k
  | .pop _ k _ => k
  | .unlockPop _ k _ => k - 1
  | .write _ k _ => k - 1
  | _ => 0

/-- The thread is in the loop, where at least one message is to be processed. -/
def positive : Worker μ → Prop
  | .lockPop _ k => 0 < k
  | .front _ k => 0 < k
  | .pop _ k _ => 0 < k
  | .unlockPop _ k _ => 0 < k
  | .write _ k _ => 0 < k
  | _ => True

/-- The stream may contain data which is not flushed. -/
def dirty : Worker μ → Prop
  | .lockPop _ _ => True
  | .front _ _ => True
  | .pop _ _ _ => True
  | .unlockPop _ _ _ => True
  | .write _ _ _ => True
  | .flush _ => True
  | _ => False

@[simp] theorem remaining_loopHead (stop : Bool) (k : ℕ) : remaining (loopHead stop k : Worker μ) = k := by
  unfold loopHead; split <;> simp_all [remaining]

@[simp] theorem positive_loopHead (stop : Bool) (k : ℕ) : positive (loopHead stop k : Worker μ) := by
  unfold loopHead; split <;> simp_all [positive]; omega

@[simp] theorem dirty_loopHead (stop : Bool) (k : ℕ) : dirty (loopHead stop k : Worker μ) := by
  unfold loopHead; split <;> simp_all [dirty]

@[simp] theorem inflight_loopHead (stop : Bool) (k : ℕ) : inflight (loopHead stop k : Worker μ) = [] := by
  unfold loopHead; split <;> simp_all [inflight]

/-- Each pushed message is in one of the streams, in the hands of the processing thread or in the queue, in this order. -/
structure Flow (t : List (Label μ)) (s : State μ) : Prop where
  flow : pushed t = outs s ++ inflight s.worker ++ s.queue
  head : ∀ b k m, s.worker = .pop b k m → ∃ q, s.queue = m :: q
  remaining : remaining s.worker ≤ s.queue.length
  positive : positive s.worker
  clean : ¬ dirty s.worker → s.buffered = []
  safe : s.worker ≠ .crashed

theorem flow_step {t : List (Label μ)} {s s' : State μ} {a : Actor} {l : Label μ} (h : Step s a l s') (ho : Owned s)
    (hs : Flow t s) : Flow (t ++ [l]) s' := by
  obtain ⟨h1, h2, h3, h4, h5, h6⟩ := hs
  cases h with
  | worker h =>
    have hpush : pushed (t ++ [(.internal : Label μ)]) = pushed t := by simp [pushed_append, pushed]
    rw [show (Flow (t ++ [Label.internal]) s') ↔ Flow t s' from
      ⟨fun ⟨a, b, c, d, e, f⟩ => ⟨hpush ▸ a, b, c, d, e, f⟩, fun ⟨a, b, c, d, e, f⟩ => ⟨hpush.symm ▸ a, b, c, d, e, f⟩⟩]
    clear hpush
    unfold workerStep at h
    split at h <;> rename_i hp
    · simp at h
    · obtain rfl := Option.some.inj h
      simp only [hp] at h1 h2 h3 h4 h5
      exact ⟨h1, by simp, Nat.zero_le _, trivial, fun _ => h5 (by simp [dirty]), by simp⟩
    · split at h
      · obtain rfl := Option.some.inj h
        simp only [hp] at h1 h2 h3 h4 h5
        exact ⟨h1, by simp, Nat.zero_le _, trivial, fun _ => h5 (by simp [dirty]), by simp⟩
      · simp at h
    · obtain rfl := Option.some.inj h
      simp only [hp] at h1 h2 h3 h4 h5
      exact ⟨h1, by simp, by simp [Log.remaining], trivial, fun _ => h5 (by simp [dirty]), by simp⟩
    · rename_i stop k
      obtain rfl := Option.some.inj h
      simp only [hp, Log.remaining] at h1 h2 h3 h4 h5
      by_cases hk : k = 0
      · cases stop <;> simp only [hk, afterSize, if_true]
        · exact ⟨h1, by simp, Nat.zero_le _, trivial, fun _ => h5 (by simp [dirty]), by simp⟩
        · exact ⟨h1, by simp, Nat.zero_le _, trivial, fun _ => h5 (by simp [dirty]), by simp⟩
      · simp only [hk, afterSize, if_false]
        refine ⟨?_, ?_, by simpa using h3, by simp, by simp, by simp⟩
        · rw [h1, inflight_loopHead]; rfl
        · intro b k' m e
          unfold loopHead at e; split at e <;> simp at e
    · obtain rfl := Option.some.inj h
      simp only [hp] at h1 h2 h3 h4 h5
      exact ⟨h1, by simp, Nat.zero_le _, trivial, fun _ => h5 (by simp [dirty]), by simp⟩
    · split at h
      · obtain rfl := Option.some.inj h
        simp only [hp] at h1 h2 h3 h4 h5
        exact ⟨h1, by simp, h3, h4, fun hh => absurd trivial hh, by simp⟩
      · simp at h
    · simp only [hp, Log.positive, Log.remaining] at h1 h2 h3 h4 h5
      split at h <;> rename_i hq
      · rw [hq] at h3; simp at h3; omega
      · obtain rfl := Option.some.inj h
        refine ⟨h1, ?_, h3, h4, fun hh => absurd trivial hh, by simp⟩
        intro b k m e
        simp only [Worker.pop.injEq] at e
        rw [← e.2.2]; exact ⟨_, hq⟩
    · rename_i stop k m
      simp only [hp, Log.positive, Log.remaining] at h1 h3 h4 h5
      obtain ⟨q, hq⟩ := h2 _ _ _ hp
      rw [hq] at h
      obtain rfl := Option.some.inj h
      refine ⟨?_, by simp, ?_, h4, fun hh => absurd trivial hh, by simp⟩
      · rw [h1, hq]; simp [inflight, outs]
      · rw [hq] at h3; simp only [Log.remaining]; simp at h3; omega
    · obtain rfl := Option.some.inj h
      simp only [hp] at h1 h2 h3 h4 h5
      exact ⟨h1, by simp, h3, h4, fun hh => absurd trivial hh, by simp⟩
    · rename_i stop k m
      obtain rfl := Option.some.inj h
      simp only [hp, Log.remaining, Log.positive] at h1 h2 h3 h4 h5
      refine ⟨?_, ?_, by simpa using h3, by simp, by simp, by simp⟩
      · rw [h1, inflight_loopHead]; simp [outs, show inflight (.write stop k m) = [m] from rfl]
      · intro b k' m e
        unfold loopHead at e; split at e <;> simp at e
    · obtain rfl := Option.some.inj h
      simp only [hp] at h1 h2 h3 h4 h5
      refine ⟨?_, by simp, Nat.zero_le _, trivial, fun _ => rfl, by simp⟩
      rw [h1]; simp [inflight, outs]
    · rename_i stop
      obtain rfl := Option.some.inj h
      simp only [hp] at h1 h2 h3 h4 h5
      cases stop
      · exact ⟨h1, by simp [afterDecide], Nat.zero_le _, trivial, fun _ => h5 (by simp [dirty]), by simp [afterDecide]⟩
      · exact ⟨h1, by simp [afterDecide], Nat.zero_le _, trivial, fun _ => h5 (by simp [dirty]), by simp [afterDecide]⟩
    · simp at h
    · simp at h
  | client h =>
    unfold clientStep at h
    split at h <;> rename_i hp
    · simp at h
    · split at h
      · obtain ⟨rfl, rfl⟩ := Prod.mk.inj (Option.some.inj h)
        exact ⟨by simpa [pushed_append, pushed, outs, State.setClient] using h1, h2, h3, h4, h5, h6⟩
      · simp at h
    · obtain ⟨rfl, rfl⟩ := Prod.mk.inj (Option.some.inj h)
      refine ⟨?_, ?_, ?_, h4, h5, h6⟩
      · rw [pushed_append, h1]; simp [pushed, outs, State.setClient]
      · intro b k m e
        obtain ⟨q, hq⟩ := h2 b k m e
        exact ⟨q ++ _, by simp only [State.setClient, hq]; rfl⟩
      · simp only [State.setClient, List.length_append]; exact le_trans h3 (by simp)
    · obtain ⟨rfl, rfl⟩ := Prod.mk.inj (Option.some.inj h)
      exact ⟨by simpa [pushed_append, pushed, outs, State.setClient] using h1, h2, h3, h4, h5, h6⟩
  | owner h =>
    unfold ownerStep at h
    split at h <;> rename_i hp
    · simp at h
    · split at h <;> obtain ⟨rfl, rfl⟩ := Prod.mk.inj (Option.some.inj h) <;>
        exact ⟨by simpa [pushed_append, pushed, outs] using h1, h2, h3, h4, h5, h6⟩
    · obtain ⟨rfl, rfl⟩ := Prod.mk.inj (Option.some.inj h)
      exact ⟨by simpa [pushed_append, pushed, outs] using h1, h2, h3, h4, h5, h6⟩
    · split at h
      · rename_i hw
        obtain ⟨rfl, rfl⟩ := Prod.mk.inj (Option.some.inj h)
        simp only [hw] at h1 h2 h3 h4 h5
        exact ⟨by simpa [pushed_append, pushed, outs, inflight] using h1, by simp, Nat.zero_le _, trivial,
          fun _ => h5 (by simp [dirty]), by simp⟩
      · simp at h
    · obtain ⟨rfl, rfl⟩ := Prod.mk.inj (Option.some.inj h)
      have hw := ho.start hp
      simp only [hw] at h1 h2 h3 h4 h5
      refine ⟨?_, by simp, Nat.zero_le _, trivial, fun _ => rfl, by simp⟩
      have hb := h5 (by simp [dirty])
      rw [pushed_append, h1]
      simp [outs, hb, pushed, inflight]
  | call i m hi hm =>
    exact ⟨by simpa [pushed_append, pushed, outs, State.setClient] using h1, h2, h3, h4, h5, h6⟩
  | shutdown p hp =>
    exact ⟨by simpa [pushed_append, pushed, outs] using h1, h2, h3, h4, h5, h6⟩
  | spill n =>
    refine ⟨?_, h2, h3, h4, fun hh => by simp [h5 hh], h6⟩
    rw [pushed_append, h1]
    have : s.flushed ++ s.buffered = (s.flushed ++ s.buffered.take n) ++ s.buffered.drop n := by
      rw [List.append_assoc, List.take_append_drop]
    simp [pushed, outs]

/-! ## Messages are different -/

/-- The message a thread is going to push. -/
def pending : Client μ → Option μ
  | .lock m => some m
  | .push m => some m
  | _ => none

/-- Messages are different and are pushed once. -/
structure Fresh (t : List (Label μ)) (s : State μ) : Prop where
  allocated : s.allocated = called t
  nodup : (pushed t).Nodup
  sub : ∀ m ∈ pushed t, m ∈ called t
  pending : ∀ i m, pending (s.clients i) = some m → m ∈ called t ∧ m ∉ pushed t
  distinct : ∀ i j m, Log.pending (s.clients i) = some m → Log.pending (s.clients j) = some m → i = j
  unlock : ∀ i m, s.clients i = .unlock m → m ∈ pushed t
  ret : ∀ i m, Label.ret i m ∈ t → m ∈ pushed t

theorem fresh_congr {t : List (Label μ)} {s s' : State μ} {l : Label μ} (h : Fresh t s) (h1 : s'.allocated = s.allocated)
    (h2 : s'.clients = s.clients) (h3 : pushed [l] = []) (h4 : called [l] = []) (h5 : ∀ i m, l ≠ .ret i m) :
    Fresh (t ++ [l]) s' := by
  obtain ⟨a, b, c, d, e, f, g⟩ := h
  refine ⟨?_, ?_, ?_, ?_, ?_, ?_, ?_⟩
  · rw [h1, called_append, h4, a, List.append_nil]
  · rw [pushed_append, h3, List.append_nil]; exact b
  · rw [pushed_append, called_append, h3, h4, List.append_nil, List.append_nil]; exact c
  · rw [pushed_append, called_append, h3, h4, List.append_nil, List.append_nil, h2]; exact d
  · rw [h2]; exact e
  · rw [pushed_append, h3, List.append_nil, h2]; exact f
  · intro i m hm
    rw [pushed_append, h3, List.append_nil]
    rcases List.mem_append.1 hm with hm | hm
    · exact g i m hm
    · exact absurd (List.mem_singleton.1 hm).symm (h5 i m)

theorem fresh_step {t : List (Label μ)} {s s' : State μ} {a : Actor} {l : Label μ} (h : Step s a l s')
    (hs : Fresh t s) : Fresh (t ++ [l]) s' := by
  cases h with
  | worker h =>
    have : s'.allocated = s.allocated ∧ s'.clients = s.clients := by
      unfold workerStep at h
      split at h <;> (try split at h) <;> simp only [Option.some.injEq, reduceCtorEq] at h <;> subst h <;> exact ⟨rfl, rfl⟩
    exact fresh_congr hs this.1 this.2 rfl rfl (by simp)
  | client h =>
    rename_i i
    obtain ⟨ha, b, c, d, e, f, g⟩ := hs
    unfold clientStep at h
    split at h <;> rename_i hp
    · simp at h
    · rename_i m
      split at h
      · obtain ⟨rfl, rfl⟩ := Prod.mk.inj (Option.some.inj h)
        have hpend : ∀ j, Log.pending ((({ s with lock := some (.client i) } : State μ).setClient i (.push m)).clients j) =
            Log.pending (s.clients j) := by
          intro j; by_cases hj : j = i
          · simp [State.setClient, hj, Log.pending, hp]
          · simp [State.setClient, hj]
        have e1 : pushed [(.internal : Label μ)] = [] := rfl
        have e2 : called [(.internal : Label μ)] = [] := rfl
        refine ⟨?_, ?_, ?_, ?_, ?_, ?_, ?_⟩
        · rw [called_append, e2, List.append_nil]; exact ha
        · rw [pushed_append, e1, List.append_nil]; exact b
        · rw [pushed_append, called_append, e1, e2, List.append_nil, List.append_nil]; exact c
        · intro j m' hj
          rw [pushed_append, called_append, e1, e2, List.append_nil, List.append_nil]
          exact d j m' (hpend j ▸ hj)
        · intro j k m' hj hk; exact e j k m' (hpend j ▸ hj) (hpend k ▸ hk)
        · intro j m' hj
          rw [pushed_append, e1, List.append_nil]
          by_cases hji : j = i
          · simp [State.setClient, hji] at hj
          · simp [State.setClient, hji] at hj; exact f j m' hj
        · intro j m' hj
          rw [pushed_append, e1, List.append_nil]
          simp at hj; exact g j m' hj
      · simp at h
    · rename_i m
      obtain ⟨rfl, rfl⟩ := Prod.mk.inj (Option.some.inj h)
      have e1 : pushed [(.push m : Label μ)] = [m] := rfl
      have e2 : called [(.push m : Label μ)] = [] := rfl
      have hm := d i m (by rw [hp]; rfl)
      refine ⟨?_, ?_, ?_, ?_, ?_, ?_, ?_⟩
      · rw [called_append, e2, List.append_nil]; exact ha
      · rw [pushed_append, e1]
        exact List.Nodup.append b (by simp) (by simpa using hm.2)
      · rw [pushed_append, called_append, e1, e2, List.append_nil]
        intro x hx
        rcases List.mem_append.1 hx with hx | hx
        · exact c x hx
        · rw [List.mem_singleton.1 hx]; exact hm.1
      · intro j m' hj
        rw [pushed_append, called_append, e1, e2, List.append_nil]
        by_cases hji : j = i
        · simp [State.setClient, hji, Log.pending] at hj
        · have hj' : Log.pending (s.clients j) = some m' := by simpa [State.setClient, hji] using hj
          refine ⟨(d j m' hj').1, ?_⟩
          intro hx
          rcases List.mem_append.1 hx with hx | hx
          · exact (d j m' hj').2 hx
          · rw [List.mem_singleton.1 hx] at hj'
            exact hji (e j i m hj' (by rw [hp]; rfl))
      · intro j k m' hj hk
        by_cases hji : j = i
        · simp [State.setClient, hji, Log.pending] at hj
        · by_cases hki : k = i
          · simp [State.setClient, hki, Log.pending] at hk
          · simp only [State.setClient, hji, hki, if_false] at hj hk; exact e j k m' hj hk
      · intro j m' hj
        rw [pushed_append, e1]
        by_cases hji : j = i
        · simp [State.setClient, hji] at hj; simp [hj]
        · simp [State.setClient, hji] at hj; exact List.mem_append_left _ (f j m' hj)
      · intro j m' hj
        rw [pushed_append]
        simp at hj; exact List.mem_append_left _ (g j m' hj)
    · rename_i m
      obtain ⟨rfl, rfl⟩ := Prod.mk.inj (Option.some.inj h)
      have e1 : pushed [(.ret i m : Label μ)] = [] := rfl
      have e2 : called [(.ret i m : Label μ)] = [] := rfl
      refine ⟨?_, ?_, ?_, ?_, ?_, ?_, ?_⟩
      · rw [called_append, e2, List.append_nil]; exact ha
      · rw [pushed_append, e1, List.append_nil]; exact b
      · rw [pushed_append, called_append, e1, e2, List.append_nil, List.append_nil]; exact c
      · intro j m' hj
        rw [pushed_append, called_append, e1, e2, List.append_nil, List.append_nil]
        by_cases hji : j = i
        · simp [State.setClient, hji, Log.pending] at hj
        · simp only [State.setClient, hji, if_false] at hj; exact d j m' hj
      · intro j k m' hj hk
        by_cases hji : j = i
        · simp [State.setClient, hji, Log.pending] at hj
        · by_cases hki : k = i
          · simp [State.setClient, hki, Log.pending] at hk
          · simp only [State.setClient, hji, hki, if_false] at hj hk; exact e j k m' hj hk
      · intro j m' hj
        rw [pushed_append, e1, List.append_nil]
        by_cases hji : j = i
        · simp [State.setClient, hji] at hj
        · simp [State.setClient, hji] at hj; exact f j m' hj
      · intro j m' hj
        rw [pushed_append, e1, List.append_nil]
        simp at hj
        rcases hj with hj | hj
        · exact g j m' hj
        · rw [hj.2]; exact f i m hp
  | owner h =>
    unfold ownerStep at h
    split at h <;> (try split at h) <;> simp only [Option.some.injEq, reduceCtorEq, Prod.mk.injEq] at h <;>
      obtain ⟨rfl, rfl⟩ := h <;> exact fresh_congr hs rfl rfl rfl rfl (by simp)
  | call i m hi hm =>
    obtain ⟨ha, b, c, d, e, f, g⟩ := hs
    have e1 : pushed [(.call i m : Label μ)] = [] := rfl
    have e2 : called [(.call i m : Label μ)] = [m] := rfl
    rw [ha] at hm
    refine ⟨?_, ?_, ?_, ?_, ?_, ?_, ?_⟩
    · rw [called_append, e2, ← ha]; rfl
    · rw [pushed_append, e1, List.append_nil]; exact b
    · rw [pushed_append, called_append, e1, List.append_nil]
      intro x hx; exact List.mem_append_left _ (c x hx)
    · intro j m' hj
      rw [pushed_append, called_append, e1, e2, List.append_nil]
      by_cases hji : j = i
      · simp [State.setClient, hji, Log.pending] at hj
        rw [← hj]
        exact ⟨by simp, fun hx => hm (c _ hx)⟩
      · simp only [State.setClient, hji, if_false] at hj
        exact ⟨List.mem_append_left _ (d j m' hj).1, (d j m' hj).2⟩
    · intro j k m' hj hk
      by_cases hji : j = i
      · by_cases hki : k = i
        · rw [hji, hki]
        · simp [State.setClient, hji, Log.pending] at hj
          simp only [State.setClient, hki, if_false] at hk
          exact absurd (hj ▸ (d k m' hk).1) hm
      · by_cases hki : k = i
        · simp [State.setClient, hki, Log.pending] at hk
          simp only [State.setClient, hji, if_false] at hj
          exact absurd (hk ▸ (d j m' hj).1) hm
        · simp only [State.setClient, hji, hki, if_false] at hj hk; exact e j k m' hj hk
    · intro j m' hj
      rw [pushed_append, e1, List.append_nil]
      by_cases hji : j = i
      · simp [State.setClient, hji] at hj
      · simp [State.setClient, hji] at hj; exact f j m' hj
    · intro j m' hj
      rw [pushed_append, e1, List.append_nil]
      simp at hj; exact g j m' hj
  | shutdown p hp => exact fresh_congr hs rfl rfl rfl rfl (by simp)
  | spill n => exact fresh_congr hs rfl rfl rfl rfl (by simp)

/-! ## What has to be written before the thread stops -/

/-- Number of pushed messages, number of messages pushed before the last request to stop, the thread exists. -/
structure Hist where
  count : ℕ
  cut : ℕ
  armed : Bool

/-- Effect of an action. -/
def Hist.add (h : Hist) : Label μ → Hist
  | .push _ => { h with count := h.count + 1 }
  | .shutdown => { h with cut := h.count }
  | .started => { h with armed := true }
  | .stopped => { h with armed := false }
  | _ => h

/-- Effect of all actions. -/
def hist (t : List (Label μ)) : Hist := t.foldl Hist.add ⟨0, 0, false⟩

theorem hist_append (t : List (Label μ)) (l : Label μ) : hist (t ++ [l]) = (hist t).add l := by
  simp [hist, List.foldl_append]

theorem hist_count (t : List (Label μ)) : (hist t).count = (pushed t).length := by
  induction t using List.reverseRecOn with
  | nil => rfl
  | append_singleton t l ih =>
    rw [hist_append, pushed_append, List.length_append, ← ih]
    cases l <;> rfl

theorem hist_cut (t : List (Label μ)) : (hist t).cut ≤ (hist t).count := by
  induction t using List.reverseRecOn with
  | nil => exact le_refl _
  | append_singleton t l ih =>
    rw [hist_append]
    cases l <;> simp only [Hist.add] <;> omega

/-- The thread knows that it has to stop and has read the number of messages. -/
def sized : Worker μ → Prop
  | .unlockSize true _ => True
  | .lockPop true _ => True
  | .front true _ => True
  | .pop true _ _ => True
  | .unlockPop true _ _ => True
  | .write true _ _ => True
  | .flush true => True
  | .decide true => True
  | .done => True
  | _ => False

theorem sized_stop {w : Worker μ} (h : sized w) : stopFlag w = true := by
  match w, h with
  | .unlockSize true _, _ => rfl
  | .lockPop true _, _ => rfl
  | .front true _, _ => rfl
  | .pop true _ _, _ => rfl
  | .unlockPop true _ _, _ => rfl
  | .write true _ _, _ => rfl
  | .flush true, _ => rfl
  | .decide true, _ => rfl
  | .done, _ => rfl

theorem sized_loopHead (stop : Bool) (k : ℕ) : sized (loopHead stop k : Worker μ) ↔ stop = true := by
  unfold loopHead; split <;> cases stop <;> simp [sized]

theorem sized_afterSize (stop : Bool) (k : ℕ) : sized (afterSize stop k : Worker μ) ↔ stop = true := by
  unfold afterSize; split
  · cases stop <;> simp [sized]
  · exact sized_loopHead stop k

theorem sized_afterDecide (stop : Bool) : sized (afterDecide stop : Worker μ) ↔ stop = true := by
  cases stop <;> simp [sized, afterDecide]

/-- Messages pushed before the request to stop are written, or are going to be written. -/
structure Cut (t : List (Label μ)) (s : State μ) : Prop where
  armed : (hist t).armed = true ↔ s.worker ≠ .none
  cut : sized s.worker → (hist t).cut ≤ (outs s).length + (inflight s.worker).length + remaining s.worker

theorem Cut.add {t : List (Label μ)} {s : State μ} {l : Label μ} (h : (((hist t).add l).armed = true ↔ s.worker ≠ .none) ∧
    (sized s.worker → ((hist t).add l).cut ≤ (outs s).length + (inflight s.worker).length + Log.remaining s.worker)) :
    Cut (t ++ [l]) s := by
  rw [← hist_append] at h
  exact ⟨h.1, h.2⟩

theorem cut_step {t : List (Label μ)} {s s' : State μ} {a : Actor} {l : Label μ} (h : Step s a l s') (ho : Owned s)
    (hf : Flow t s) (hs : Cut t s) : Cut (t ++ [l]) s' := by
  obtain ⟨h1, h2⟩ := hs
  have hn := hist_count t
  have hc := hist_cut t
  cases h with
  | worker h =>
    have e : hist (t ++ [(.internal : Label μ)]) = hist t := by rw [hist_append]; rfl
    have hfl := hf.flow
    have hpos := hf.positive
    unfold workerStep at h
    refine ⟨?_, ?_⟩
    · rw [e, h1]
      have hne : s.worker ≠ .none := by intro hw; rw [hw] at h; simp at h
      simp only [hne, ne_eq, not_false_eq_true, true_iff]
      split at h <;> (try split at h) <;> simp only [Option.some.injEq, reduceCtorEq] at h <;> subst h <;> simp
    · rw [e]
      split at h <;> rename_i hp
      · simp at h
      · obtain rfl := Option.some.inj h
        simp [sized]
      · split at h
        · obtain rfl := Option.some.inj h
          simp [sized]
        · simp at h
      · obtain rfl := Option.some.inj h
        intro _
        rw [hp] at hfl
        rw [hfl] at hn
        simp only [List.length_append, inflight, List.length_nil] at hn
        simp only [remaining, inflight, List.length_nil]
        have : outs { s with worker := Worker.unlockSize ‹Bool› s.queue.length } = outs s := rfl
        rw [this]; omega
      · rename_i stop k
        obtain rfl := Option.some.inj h
        intro hz
        rw [sized_afterSize] at hz
        subst hz
        rw [hp] at h2
        have := h2 trivial
        simp only [afterSize]
        by_cases hk : k = 0
        · simp only [hk, if_true]
          simpa [remaining, inflight, hk, outs] using this
        · simp only [hk, if_false]
          rw [inflight_loopHead, remaining_loopHead]
          exact this
      · obtain rfl := Option.some.inj h
        simp [sized]
      · split at h
        · rename_i stop k _
          obtain rfl := Option.some.inj h
          rw [hp] at h2
          cases stop
          · simp [sized]
          · exact h2
        · simp at h
      · rename_i stop k
        split at h
        · obtain rfl := Option.some.inj h
          simp [sized]
        · obtain rfl := Option.some.inj h
          rw [hp] at h2
          cases stop
          · simp [sized]
          · exact h2
      · rename_i stop k m
        obtain ⟨q, hq⟩ := hf.head _ _ _ hp
        rw [hq] at h
        obtain rfl := Option.some.inj h
        rw [hp] at h2 hpos
        cases stop
        · simp [sized]
        · intro _
          have := h2 trivial
          simp only [remaining, inflight, List.length_singleton, List.length_nil, positive] at this hpos ⊢
          have e2 : outs { s with queue := q, worker := Worker.unlockPop true k m } = outs s := rfl
          rw [e2]; omega
      · rename_i stop k m
        obtain rfl := Option.some.inj h
        rw [hp] at h2
        cases stop
        · simp [sized]
        · exact h2
      · rename_i stop k m
        obtain rfl := Option.some.inj h
        rw [hp] at h2
        intro hz
        rw [sized_loopHead] at hz
        subst hz
        have := h2 trivial
        rw [inflight_loopHead, remaining_loopHead]
        simp only [remaining, inflight, List.length_singleton, List.length_nil, outs, List.length_append] at this ⊢
        omega
      · rename_i stop
        obtain rfl := Option.some.inj h
        rw [hp] at h2
        cases stop
        · simp [sized]
        · intro _
          have := h2 trivial
          simp only [remaining, inflight, List.length_nil, outs, List.length_append] at this ⊢
          omega
      · rename_i stop
        obtain rfl := Option.some.inj h
        rw [hp] at h2
        cases stop
        · simp [sized, afterDecide]
        · intro _
          exact h2 trivial
      · simp at h
      · simp at h
  | client h =>
    unfold clientStep at h
    split at h <;> rename_i hp
    · simp at h
    · split at h
      · obtain ⟨rfl, rfl⟩ := Prod.mk.inj (Option.some.inj h)
        exact Cut.add ⟨h1, h2⟩
      · simp at h
    · obtain ⟨rfl, rfl⟩ := Prod.mk.inj (Option.some.inj h)
      exact Cut.add ⟨h1, h2⟩
    · obtain ⟨rfl, rfl⟩ := Prod.mk.inj (Option.some.inj h)
      exact Cut.add ⟨h1, h2⟩
  | owner h =>
    unfold ownerStep at h
    split at h <;> rename_i hp
    · simp at h
    · split at h
      · obtain ⟨rfl, rfl⟩ := Prod.mk.inj (Option.some.inj h)
        exact Cut.add ⟨h1, h2⟩
      · rename_i hi
        obtain ⟨rfl, rfl⟩ := Prod.mk.inj (Option.some.inj h)
        have hw : s.worker = .none := ho.none.2 ⟨by simpa using hi, by rw [hp]; simp [joining]⟩
        exact Cut.add ⟨by simp [Hist.add, hw], h2⟩
    · obtain ⟨rfl, rfl⟩ := Prod.mk.inj (Option.some.inj h)
      exact Cut.add ⟨h1, h2⟩
    · split at h
      · obtain ⟨rfl, rfl⟩ := Prod.mk.inj (Option.some.inj h)
        exact Cut.add ⟨by simp [Hist.add], by simp [sized]⟩
      · simp at h
    · obtain ⟨rfl, rfl⟩ := Prod.mk.inj (Option.some.inj h)
      exact Cut.add ⟨by simp [Hist.add], by simp [sized]⟩
  | call i m hi hm => exact Cut.add ⟨h1, h2⟩
  | shutdown p hp =>
    refine Cut.add ⟨h1, fun hz => ?_⟩
    have := ho.stop (sized_stop hz)
    rw [hp] at this
    exact this.elim
  | spill n =>
    refine Cut.add ⟨h1, fun hz => ?_⟩
    have := h2 hz
    have e : (outs { s with flushed := s.flushed ++ s.buffered.take n, buffered := s.buffered.drop n }) = outs s := by
      simp [outs]
    rw [e]; exact this

/-! ## All reachable states -/

/-- All invariants. -/
structure Inv (t : List (Label μ)) (s : State μ) : Prop where
  owned : Owned s
  mutex : Mutex s
  flow : Flow t s
  fresh : Fresh t s
  cut : Cut t s

theorem inv_step {t : List (Label μ)} {s s' : State μ} {a : Actor} {l : Label μ} (h : Step s a l s') (hs : Inv t s) :
    Inv (t ++ [l]) s' :=
  ⟨owned_step h hs.owned, mutex_step h hs.owned hs.mutex, flow_step h hs.owned hs.flow, fresh_step h hs.fresh,
    cut_step h hs.owned hs.flow hs.cut⟩

theorem inv_initial : Inv [] (initial : State μ) where
  owned := ⟨by simp [initial, joining], by simp [initial, stopFlag], by simp [initial, joining], by simp [initial],
    by simp [initial]⟩
  mutex := ⟨by simp [initial, inside], by simp [initial, insideW]⟩
  flow := ⟨rfl, by simp [initial], Nat.zero_le _, trivial, fun _ => rfl, by simp [initial]⟩
  fresh := ⟨rfl, List.nodup_nil, by simp [pushed], by simp [initial, pending], by simp [initial, pending], by simp [initial],
    by simp⟩
  cut := ⟨by simp [initial, hist], by simp [initial, sized]⟩

theorem inv_run {t : List (Label μ)} {s : State μ} (h : Run t s) : Inv t s := by
  induction h with
  | start => exact inv_initial
  | step _ hs ih => exact inv_step hs ih

end Humoto.Log
