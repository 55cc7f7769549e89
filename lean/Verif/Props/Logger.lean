import Verif.Lemmas.LoggerLive

/-!
# Properties of the threaded logger
-/

namespace Humoto

open Humoto.Log

variable {μ : Type}

theorem run_prefix {t u : List (Label μ)} {s : State μ} (h : Run (t ++ u) s) : ∃ s', Run t s' := by
  induction u using List.reverseRecOn generalizing s with
  | nil => rw [List.append_nil] at h; exact ⟨s, h⟩
  | append_singleton u l ih =>
    rw [← List.append_assoc] at h
    generalize hv : t ++ u ++ [l] = v at h
    cases h with
    | start => simp at hv
    | step h' _ =>
      obtain ⟨rfl, _⟩ := List.append_inj' hv rfl
      exact ih h'

theorem mem_called {t : List (Label μ)} {m : μ} : m ∈ called t ↔ ∃ i, Label.call i m ∈ t := by
  constructor
  · intro h
    simp only [called, List.mem_filterMap] at h
    obtain ⟨l, hl, hm⟩ := h
    cases l with
    | call i x => simp at hm; subst hm; exact ⟨i, hl⟩
    | _ => simp at hm
  · rintro ⟨i, hi⟩
    simp only [called, List.mem_filterMap]
    exact ⟨_, hi, rfl⟩

/-- What is found in streams is the beginning of what is pushed. -/
theorem delivered_prefix {t : List (Label μ)} {s : State μ} (h : Run t s) :
    ∃ r, pushed t = Spec.delivered s ++ r := by
  refine ⟨s.buffered ++ inflight s.worker ++ s.queue, ?_⟩
  rw [(inv_run h).flow.flow]
  simp [outs, Spec.delivered]

/-- **C44** No message is written twice and nothing but logged messages is written. -/
theorem C44_once {t : List (Label μ)} {s : State μ} (h : Run t s) :
    (Spec.delivered s).Nodup ∧ ∀ m ∈ Spec.delivered s, ∃ i, Label.call i m ∈ t := by
  obtain ⟨r, hr⟩ := delivered_prefix h
  have hf := (inv_run h).fresh
  constructor
  · have := hf.nodup
    rw [hr] at this
    exact (List.nodup_append.1 this).1
  · intro m hm
    exact mem_called.1 (hf.sub m (by rw [hr]; exact List.mem_append_left _ hm))

/-- **C44** Messages are written in the order of logging: if `log` of the first message returns before the second one is
logged (by the same thread or by another one), and the second message is written, then the first one is written before it. -/
theorem C44_order {a b c : List (Label μ)} {i j : ℕ} {m₁ m₂ : μ} {s : State μ}
    (h : Run (a ++ Label.ret i m₁ :: b ++ Label.call j m₂ :: c) s) (hm : m₂ ∈ Spec.delivered s) :
    Spec.Before m₁ m₂ (Spec.delivered s) := by
  obtain ⟨r, hr⟩ := delivered_prefix h
  have h1 : Run ((a ++ [Label.ret i m₁]) ++ (b ++ Label.call j m₂ :: c)) s := by simpa using h
  obtain ⟨s1, hs1⟩ := run_prefix h1
  have h2 : Run ((a ++ Label.ret i m₁ :: b ++ [Label.call j m₂]) ++ c) s := by simpa using h
  obtain ⟨s2, hs2⟩ := run_prefix h2
  set u := a ++ Label.ret i m₁ :: b ++ [Label.call j m₂] with hu
  have hp1 : m₁ ∈ pushed u := by
    have := (inv_run hs1).fresh.ret i m₁ (by simp)
    rw [hu, pushed_append, show a ++ Label.ret i m₁ :: b = (a ++ [Label.ret i m₁]) ++ b by simp, pushed_append]
    exact List.mem_append_left _ (List.mem_append_left _ this)
  have hp2 : m₂ ∉ pushed u := by
    -- the message is new when it is logged
    generalize hv : u = v at hs2
    cases hs2 with
    | start => simp [hu] at hv
    | step hr' hstep =>
      rename_i t' s' a' l'
      obtain ⟨rfl, hl⟩ := List.append_inj' (hu ▸ hv : a ++ Label.ret i m₁ :: b ++ [Label.call j m₂] = t' ++ [l']) rfl
      have hl' : Label.call j m₂ = l' := by simpa using hl
      subst hl'
      have hf := (inv_run hr').fresh
      rw [pushed_append, show pushed [(Label.call j m₂ : Label μ)] = [] from rfl, List.append_nil]
      intro hx
      cases hstep with
      | client hc =>
        unfold clientStep at hc
        split at hc <;> (try split at hc) <;> simp at hc
      | owner hc =>
        unfold ownerStep at hc
        split at hc <;> (try split at hc) <;> simp at hc
      | call _ _ _ hnew =>
        rw [hf.allocated] at hnew
        exact hnew (hf.sub _ hx)
  have hall : pushed (a ++ Label.ret i m₁ :: b ++ Label.call j m₂ :: c) = pushed u ++ pushed c := by
    rw [← pushed_append, hu]; simp
  rw [hall] at hr
  -- the messages pushed before the call are all in front of the second one
  obtain ⟨x, y, hxy⟩ := List.append_of_mem hp1
  rcases List.append_eq_append_iff.1 hr with ⟨e, he, _⟩ | ⟨e, he, _⟩
  · rw [he] at hm
    rcases List.mem_append.1 hm with hm | hm
    · exact absurd hm hp2
    · obtain ⟨z, w, hzw⟩ := List.append_of_mem hm
      refine ⟨x, y ++ z, w, ?_⟩
      rw [he, hxy, hzw]; simp
  · exact absurd (by rw [he]; exact List.mem_append_left _ hm) hp2

theorem armed_of_running {t : List (Label μ)} (h : Spec.Running t) : (hist t).armed = true := by
  obtain ⟨a, b, rfl, hb⟩ := h
  induction b using List.reverseRecOn with
  | nil => rw [hist_append]; rfl
  | append_singleton b l ih =>
    have hl : l ≠ Label.stopped := by rintro rfl; simp at hb
    have := ih (fun hx => hb (by simp [hx]))
    rw [show a ++ Label.started :: (b ++ [l]) = (a ++ Label.started :: b) ++ [l] by simp, hist_append]
    cases l <;> simp_all [Hist.add]

theorem hist_after_shutdown {t₁ t₂ : List (Label μ)} (h1 : Label.shutdown ∉ t₂) (h2 : Label.stopped ∉ t₂)
    (ha : (hist t₁).armed = true) :
    (hist (t₁ ++ Label.shutdown :: t₂)).cut = (pushed t₁).length ∧ (hist (t₁ ++ Label.shutdown :: t₂)).armed = true := by
  induction t₂ using List.reverseRecOn with
  | nil => rw [hist_append]; exact ⟨hist_count t₁, ha⟩
  | append_singleton b l ih =>
    have hl1 : l ≠ Label.shutdown := by rintro rfl; simp at h1
    have hl2 : l ≠ Label.stopped := by rintro rfl; simp at h2
    have := ih (fun hx => h1 (by simp [hx])) (fun hx => h2 (by simp [hx]))
    rw [show t₁ ++ Label.shutdown :: (b ++ [l]) = (t₁ ++ Label.shutdown :: b) ++ [l] by simp, hist_append]
    cases l <;> simp_all [Hist.add]

/-- **C44** Every message whose `log` returned before the shutdown of a running logger was requested is in a stream (and
flushed) when the shutdown returns, whatever the threads do meanwhile. This includes messages which were logged before the
logger was given the stream. -/
theorem C44_delivered {t₁ t₂ : List (Label μ)} {s : State μ}
    (h : Run (t₁ ++ Label.shutdown :: t₂ ++ [Label.stopped]) s) (h1 : Label.shutdown ∉ t₂) (h2 : Label.stopped ∉ t₂)
    (hrun : Spec.Running t₁) {i : ℕ} {m : μ} (hm : Label.ret i m ∈ t₁) : m ∈ Spec.delivered s := by
  obtain ⟨s1, hs1⟩ := run_prefix (t := t₁) (u := Label.shutdown :: t₂ ++ [Label.stopped]) (by simpa using h)
  have hp := (inv_run hs1).fresh.ret i m hm
  obtain ⟨hcut, harm⟩ := hist_after_shutdown h1 h2 (armed_of_running hrun)
  generalize hv : t₁ ++ Label.shutdown :: t₂ ++ [Label.stopped] = v at h
  cases h with
  | start => simp at hv
  | step hr hstep =>
    rename_i t' s' a' l'
    obtain ⟨rfl, hl⟩ := List.append_inj' hv rfl
    have hl' : Label.stopped = l' := by simpa using hl
    subst hl'
    have hi := inv_run hr
    have hne := hi.cut.armed.1 harm
    cases hstep with
    | client hc =>
      unfold clientStep at hc
      split at hc <;> (try split at hc) <;> simp at hc
    | owner hc =>
      unfold ownerStep at hc
      split at hc <;> rename_i hp'
      · simp at hc
      · split at hc
        · simp at hc
        · rename_i hint
          exact absurd (hi.owned.none.2 ⟨by simpa using hint, by rw [hp']; simp [joining]⟩) hne
      · simp at hc
      · split at hc
        · rename_i hw
          obtain ⟨-, rfl⟩ := Prod.mk.inj (Option.some.inj hc)
          have hcl : s'.buffered = [] := hi.flow.clean (by rw [hw]; simp [dirty])
          have hle := hi.cut.cut (by rw [hw]; trivial)
          have hfl := hi.flow.flow
          rw [hw] at hle hfl
          rw [hcut] at hle
          simp only [inflight, remaining, List.length_nil, Nat.add_zero, List.append_nil, pushed_append] at hle hfl
          have hd : outs s' = Spec.delivered s' := by simp [outs, Spec.delivered, hcl]
          show m ∈ Spec.delivered s'
          rw [← hd]
          rcases List.append_eq_append_iff.1 hfl with ⟨e, he, _⟩ | ⟨e, he, _⟩
          · rw [he]; exact List.mem_append_left _ hp
          · have : e = [] := by
              have hlen := congrArg List.length he
              rw [List.length_append] at hlen
              exact List.length_eq_zero_iff.1 (by omega)
            rw [this, List.append_nil] at he
            rw [← he]; exact hp
        · simp at hc
      · simp at hc

/-- **C44** The queue is never accessed by two threads at the same time, and it is not empty when a message is taken. -/
theorem C44_safe {t : List (Label μ)} {s : State μ} (h : Run t s) :
    (∀ i, Spec.clientAccesses (s.clients i) → ¬ Spec.workerAccesses s.worker) ∧
    (∀ i j, Spec.clientAccesses (s.clients i) → Spec.clientAccesses (s.clients j) → i = j) ∧
    s.worker ≠ .crashed := by
  have hm := (inv_run h).mutex
  have hc : ∀ i, Spec.clientAccesses (s.clients i) → s.lock = some (.client i) := by
    intro i hi
    refine (hm.client i).2 ?_
    cases hx : s.clients i <;> rw [hx] at hi <;> simp_all [Spec.clientAccesses, inside]
  have hw : Spec.workerAccesses s.worker → s.lock = some .worker := by
    intro hi
    refine hm.worker.2 ?_
    cases hx : s.worker <;> rw [hx] at hi <;> simp_all [Spec.workerAccesses, insideW]
  refine ⟨fun i hi hj => ?_, fun i j hi hj => ?_, (inv_run h).flow.safe⟩
  · have := (hc i hi).symm.trans (hw hj); simp at this
  · have := (hc i hi).symm.trans (hc j hj); simpa using this

/-- **C44** The shutdown returns: however many messages the other threads keep logging, and whatever the fair schedule is. -/
theorem C44_returns {σ : ℕ → State μ} {act : ℕ → Actor} {lab : ℕ → Label μ} (h : Spec.Execution σ act lab)
    (hf : Spec.Fair σ act) {n : ℕ} (hn : lab n = .shutdown) : ∃ m, n < m ∧ lab m = .stopped := by
  have hchk : ∃ p, (σ (n + 1)).owner = .check p := by
    have hs := h.step n
    rw [hn] at hs
    generalize hb : σ (n + 1) = s' at hs
    generalize act n = a at hs
    cases hs with
    | client hc =>
      unfold clientStep at hc
      split at hc <;> (try split at hc) <;> simp at hc
    | owner hc =>
      unfold ownerStep at hc
      split at hc <;> (try split at hc) <;> simp at hc
    | shutdown p hp => exact ⟨p, rfl⟩
  obtain ⟨p, hp⟩ := hchk
  obtain ⟨k, hk, hP, hx⟩ := leads (σ := σ) (act := act) (P := fun s => s.owner = .check p) (x := .owner) (n := n + 1)
    (fun k _ hP hx => by rw [(owner_const (h.step k) hx (by rw [hP]; simp)).1]; exact hP)
    (fun hall => hf.owner (n + 1) fun k hk => by
      simp only [ownerStep, hall k hk]; split <;> simp) hp
  have hs := h.step k
  rw [hx] at hs
  generalize hb : σ (k + 1) = s' at hs
  generalize hl : lab k = l at hs
  cases hs with
  | owner hs =>
    simp only [ownerStep, hP] at hs
    split at hs
    · simp only [Option.some.injEq, Prod.mk.injEq] at hs
      have hset : (σ (k + 1)).owner = .set p := by rw [hb, ← hs.2]
      obtain ⟨k', hk', hP', hx'⟩ := leads (σ := σ) (act := act) (P := fun s => s.owner = .set p) (x := .owner) (n := k + 1)
        (fun k _ hP hx => by rw [(owner_const (h.step k) hx (by rw [hP]; simp)).1]; exact hP)
        (fun hall => hf.owner (k + 1) fun k hk => by simp [ownerStep, hall k hk]) hset
      have hs' := h.step k'
      rw [hx'] at hs'
      have hjoin : (σ (k' + 1)).owner = .join p := by
        generalize hb' : σ (k' + 1) = s'' at hs'
        cases hs' with
        | owner hs' =>
          simp only [ownerStep, hP', Option.some.injEq, Prod.mk.injEq] at hs'
          rw [← hs'.2]
      obtain ⟨m, hm, hst⟩ := join_returns h hf hjoin
      exact ⟨m, by omega, hst⟩
    · simp only [Option.some.injEq, Prod.mk.injEq] at hs
      exact ⟨k, by omega, by rw [hl, ← hs.1]⟩

/-! ## Examples of executions -/

/-- Who makes the next step, and what it does if there is a choice. -/
inductive Choice (μ : Type) where
  | worker
  | client (i : ℕ)
  | owner
  | call (i : ℕ) (m : μ)
  | shutdown (p : Purpose)
  | stutter

/-- Effect of a choice, `none` if it is not possible. -/
def choose [DecidableEq μ] (s : State μ) : Choice μ → Option (Actor × Label μ × State μ)
  | .worker => (workerStep s).map fun s' => (.worker, .internal, s')
  | .client i => (clientStep s i).map fun x => (.client i, x.1, x.2)
  | .owner => (ownerStep s).map fun x => (.owner, x.1, x.2)
  | .call i m =>
    match s.clients i with
    | .idle => if m ∈ s.allocated then none
      else some (.user, .call i m, ({ s with allocated := s.allocated ++ [m] } : State μ).setClient i (.lock m))
    | _ => none
  | .shutdown p =>
    match s.owner with
    | .idle => some (.user, .shutdown, { s with owner := .check p })
    | _ => none
  | .stutter => some (.stream, .internal, s)

theorem choose_step [DecidableEq μ] {s s' : State μ} {c : Choice μ} {a : Actor} {l : Label μ}
    (h : choose s c = some (a, l, s')) : Step s a l s' := by
  cases c with
  | worker =>
    simp only [choose, Option.map_eq_some_iff, Prod.mk.injEq] at h
    obtain ⟨x, hx, rfl, rfl, rfl⟩ := h
    exact .worker hx
  | client i =>
    simp only [choose, Option.map_eq_some_iff, Prod.mk.injEq] at h
    obtain ⟨x, hx, rfl, rfl, rfl⟩ := h
    exact .client hx
  | owner =>
    simp only [choose, Option.map_eq_some_iff, Prod.mk.injEq] at h
    obtain ⟨x, hx, rfl, rfl, rfl⟩ := h
    exact .owner hx
  | call i m =>
    simp only [choose] at h
    split at h
    · rename_i hc
      split at h
      · simp at h
      · rename_i hm
        simp only [Option.some.injEq, Prod.mk.injEq] at h
        obtain ⟨rfl, rfl, rfl⟩ := h
        exact .call i m hc hm
    · simp at h
  | shutdown p =>
    simp only [choose] at h
    split at h
    · rename_i hc
      simp only [Option.some.injEq, Prod.mk.injEq] at h
      obtain ⟨rfl, rfl, rfl⟩ := h
      exact .shutdown p hc
    · simp at h
  | stutter =>
    simp only [choose, Option.some.injEq, Prod.mk.injEq] at h
    obtain ⟨rfl, rfl, rfl⟩ := h
    have := Step.spill (s := s) 0
    simpa using this

/-- Effect of a sequence of choices, the last one first. -/
def perform [DecidableEq μ] : List (Choice μ) → Option (List (Label μ) × State μ)
  | [] => some ([], initial)
  | c :: cs => (perform cs).bind fun x => (choose x.2 c).map fun y => (x.1 ++ [y.2.1], y.2.2)

theorem perform_run [DecidableEq μ] {cs : List (Choice μ)} {t : List (Label μ)} {s : State μ}
    (h : perform cs = some (t, s)) : Run t s := by
  induction cs generalizing t s with
  | nil =>
    simp only [perform, Option.some.injEq, Prod.mk.injEq] at h
    obtain ⟨rfl, rfl⟩ := h
    exact .start
  | cons c cs ih =>
    simp only [perform, Option.bind_eq_some_iff, Option.map_eq_some_iff, Prod.mk.injEq] at h
    obtain ⟨⟨t', s'⟩, hx, ⟨a, l, s''⟩, hy, rfl, rfl⟩ := h
    exact .step (ih hx) (choose_step hy)

/-- Sequence of choices in which the shutdown of a running logger returns. -/
def exampleSchedule : List (Choice ℕ) :=
  -- message 10 is logged before there is a stream
  [.call 0 10, .client 0, .client 0, .client 0] ++
  -- the logger is started
  [.shutdown .reinitialize, .owner, .owner] ++
  -- message 20 is logged; the thread reads the flag, waits for the mutex and reads the number of messages (2)
  [.worker, .call 0 20, .client 0, .client 0, .client 0, .worker, .worker, .worker] ++
  -- the first message is taken, the shutdown is requested, the message is written, another thread logs 30
  [.worker, .worker, .worker, .worker, .shutdown .reinitialize, .worker, .call 1 30, .owner, .owner, .client 1, .client 1,
    .client 1] ++
  -- the second message is written and flushed; the thread notices the request, writes 30 and returns
  [.worker, .worker, .worker, .worker, .worker, .worker, .worker, .worker, .worker, .worker, .worker] ++
  [.worker, .worker, .worker, .worker, .worker, .worker, .worker] ++
  -- join
  [.owner]

def exampleBefore : List (Label ℕ) :=
  [.call 0 10, .internal, .push 10, .ret 0 10, .shutdown, .stopped, .started, .internal, .call 0 20, .internal, .push 20,
    .ret 0 20, .internal, .internal, .internal, .internal, .internal, .internal, .internal]

def exampleAfter : List (Label ℕ) :=
  [.internal, .call 1 30, .internal, .internal, .internal, .push 30, .ret 1 30] ++ List.replicate 18 .internal

theorem exampleRun : ∃ s, Run (exampleBefore ++ Label.shutdown :: exampleAfter ++ [Label.stopped]) s ∧
    Spec.delivered s = [10, 20, 30] ∧ s.old = [[]] := by
  have h : ((perform exampleSchedule.reverse).map fun x => (x.1, Spec.delivered x.2, x.2.old)) =
      some (exampleBefore ++ Label.shutdown :: exampleAfter ++ [Label.stopped], [10, 20, 30], [[]]) := by rfl
  simp only [Option.map_eq_some_iff, Prod.mk.injEq] at h
  obtain ⟨⟨t, s⟩, hp, ht, hd, ho⟩ := h
  exact ⟨s, ht ▸ perform_run hp, hd, ho⟩

/-- The hypotheses of `C44_delivered` are met by this execution, for both messages logged before the request. -/
example : Spec.Running exampleBefore ∧ Label.shutdown ∉ exampleAfter ∧ Label.stopped ∉ exampleAfter ∧
    Label.ret 0 10 ∈ exampleBefore ∧ Label.ret 0 20 ∈ exampleBefore := by
  refine ⟨⟨exampleBefore.take 6, exampleBefore.drop 7, rfl, ?_⟩, ?_, ?_, ?_, ?_⟩ <;>
    simp [exampleBefore, exampleAfter]

/-- The hypotheses of `C44_order` are met by messages 20 and 30 of different threads. -/
example : ∃ a b c s, Run (a ++ Label.ret 0 20 :: b ++ Label.call 1 30 :: c) s ∧ (30 : ℕ) ∈ Spec.delivered s := by
  obtain ⟨s, hs, hd, _⟩ := exampleRun
  refine ⟨exampleBefore.take 11, exampleBefore.drop 12 ++ [.shutdown, .internal], exampleAfter.drop 2 ++ [.stopped], s, ?_,
    by rw [hd]; simp⟩
  exact hs

/-- A logger which has never been given a stream does not write anything: its shutdown returns, and the message is lost. The
assumption of `C44_delivered` that the logger is running cannot be dropped. -/
theorem C44_uninitialised :
    ∃ (t : List (Label ℕ)) (s : State ℕ), Run (t ++ [Label.shutdown, Label.stopped]) s ∧ Label.ret 0 10 ∈ t ∧
      10 ∉ Spec.delivered s := by
  have h : ((perform [Choice.call 0 10, .client 0, .client 0, .client 0, .shutdown .destroy, .owner].reverse).map
      fun x => (x.1, Spec.delivered x.2)) =
      some ([.call 0 10, .internal, .push 10, .ret 0 10] ++ [Label.shutdown, .stopped], []) := by rfl
  simp only [Option.map_eq_some_iff, Prod.mk.injEq] at h
  obtain ⟨⟨t, s⟩, hp, ht, hd⟩ := h
  have hr := perform_run hp
  have ht' : t = _ := ht
  rw [ht'] at hr
  have hd' : Spec.delivered s = [] := hd
  exact ⟨[.call 0 10, .internal, .push 10, .ret 0 10], s, hr, by simp, by rw [hd']; simp⟩

/-- Choice number `n` of a finite schedule; then nothing happens. -/
def choiceAt (cs : List (Choice μ)) (n : ℕ) : Choice μ := (cs[n]?).getD .stutter

/-- States of a schedule; choices which are not possible are skipped. -/
def stateAt [DecidableEq μ] (cs : List (Choice μ)) : ℕ → State μ
  | 0 => initial
  | n + 1 => ((choose (stateAt cs n) (choiceAt cs n)).getD (.stream, .internal, stateAt cs n)).2.2

theorem execution_of_schedule [DecidableEq μ] (cs : List (Choice μ)) :
    Spec.Execution (stateAt cs)
      (fun n => ((choose (stateAt cs n) (choiceAt cs n)).getD (.stream, .internal, stateAt cs n)).1)
      (fun n => ((choose (stateAt cs n) (choiceAt cs n)).getD (.stream, .internal, stateAt cs n)).2.1) := by
  refine ⟨rfl, fun n => ?_⟩
  simp only [stateAt]
  cases hc : choose (stateAt cs n) (choiceAt cs n) with
  | none =>
    have := Step.spill (s := stateAt cs n) 0
    simpa using this
  | some x =>
    obtain ⟨a, l, s'⟩ := x
    exact choose_step hc

theorem fair_of_schedule [DecidableEq μ] (cs : List (Choice μ)) (act : ℕ → Actor)
    (hw : (stateAt cs cs.length).worker = .none) (ho : (stateAt cs cs.length).owner = .idle)
    (hc : ∀ i, (stateAt cs cs.length).clients i = .idle) : Spec.Fair (stateAt cs) act := by
  have hconst : ∀ m, cs.length ≤ m → stateAt cs m = stateAt cs cs.length := by
    intro m hm
    induction m, hm using Nat.le_induction with
    | base => rfl
    | succ m hm ih =>
      have hch : choiceAt cs m = .stutter := by simp [choiceAt, List.getElem?_eq_none hm]
      simp only [stateAt, hch, choose, Option.getD_some]
      exact ih
  refine ⟨fun i n hall => ?_, fun n hall => ?_, fun hall => ?_⟩
  · refine absurd ?_ (hall (max n cs.length) (le_max_left _ _))
    rw [hconst _ (le_max_right _ _)]
    simp [clientStep, hc i]
  · refine absurd ?_ (hall (max n cs.length) (le_max_left _ _))
    rw [hconst _ (le_max_right _ _)]
    simp [ownerStep, ho]
  · obtain ⟨m, hm, hen⟩ := hall cs.length
    rw [hconst m hm] at hen
    exact absurd (by simp [workerStep, hw]) hen

/-- The logger is started, a message is logged, the logger is destroyed. -/
def exampleLife : List (Choice ℕ) :=
  [.shutdown .reinitialize, .owner, .owner, .worker, .call 0 10, .client 0, .client 0, .client 0, .shutdown .destroy, .owner,
    .owner, .worker, .worker, .worker, .worker, .worker, .worker, .worker, .worker, .worker, .worker,
    .worker, .worker, .worker, .worker, .worker, .owner]

/-- The assumptions of `C44_returns` are met. -/
theorem exampleFair : ∃ (σ : ℕ → State ℕ) (act : ℕ → Actor) (lab : ℕ → Label ℕ),
    Spec.Execution σ act lab ∧ Spec.Fair σ act ∧ lab 8 = .shutdown ∧ Spec.delivered (σ 27) = [10] := by
  refine ⟨_, _, _, execution_of_schedule exampleLife, fair_of_schedule exampleLife _ rfl rfl fun i => ?_, rfl, rfl⟩
  have h : (stateAt exampleLife exampleLife.length).clients i = if i = 0 then .idle else if i = 0 then .unlock 10 else
    if i = 0 then .push 10 else if i = 0 then .lock 10 else .idle := rfl
  rw [h]
  by_cases hi : i = 0 <;> simp [hi]

end Humoto
