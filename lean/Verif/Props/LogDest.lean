import Verif.Lemmas.LogDest

/-!
# Properties: where the messages of a logger go
-/

namespace Humoto

open Humoto.Log Humoto.Log.Spec

variable {σ μ : Type} [DecidableEq σ]

/-- **C103** The threaded logger, after any calls (including attempts to open files which fail and whose exceptions are caught), with any
progress of its thread in between, and the destructor: every message is in the destination which was given last before it was logged,
or, if there was none or the last attempt failed, in the first destination given afterwards; messages of a destination are in the order of
logging, each of them once; nothing else is in the files and streams. -/
theorem C103_threaded (canOpen : σ → Bool) (w : World σ μ) (calls : List (LogCall σ μ)) :
    ∃ t, (Threaded.construct w).run canOpen calls = .ok t ∧ Delivered canOpen (destination canOpen) calls w t.base.world := by
  have inv : ThreadedInv canOpen ([] : List (LogCall σ μ)) (Threaded.construct w) :=
    ⟨rfl, fun _ => rfl, fun d hd => by cases hd⟩
  obtain ⟨t, e, hs, hf, hn⟩ := threaded_main canOpen calls [] _ inv
  refine ⟨t, e, ?_, ?_, ?_⟩
  · intro s
    rw [hs s]
    simp [Threaded.construct, Base.construct]
  · intro f ho
    rw [hf f ((Opened_iff canOpen calls f).1 ho)]
    simp [Threaded.construct, opened_nil]
  · intro f ho
    rw [hn f (fun h => ho ((Opened_iff canOpen calls f).2 (by simpa using h)))]
    rfl

/-- **C103** A file is accepted exactly if it can be opened and no other file was opened before; otherwise there is an
exception (`C103_threaded` and `C103_direct` state what happens to the messages then). -/
theorem C103_accepted (canOpen : σ → Bool) (w : World σ μ) (calls : List (LogCall σ μ)) (f : σ) {b : Base σ μ}
    (h : directRun canOpen (Base.construct w) calls = .ok b) :
    (b.toFile canOpen f).1 = true ↔ canOpen f = true ∧ ∀ g, LogCall.toFile g ∈ calls → canOpen g = false := by
  have main : ∀ (calls a : List (LogCall σ μ)) (b₀ : Base σ μ), b₀.output_file_stream.name = opened? canOpen a →
      directRun canOpen b₀ calls = .ok b → b.output_file_stream.name = opened? canOpen (a ++ calls) := by
    intro calls
    induction calls with
    | nil => intro a b₀ h0 h; cases h; simpa using h0
    | cons c l ih =>
      intro a b₀ h0 h
      rw [show a ++ c :: l = (a ++ [c]) ++ l by simp]
      cases c with
      | work n => exact ih (a ++ [.work n]) b₀ (by rw [opened_work]; exact h0) h
      | toStream s => exact ih (a ++ [.toStream s]) _ (by rw [opened_toStream]; exact h0) h
      | toFile g => exact ih (a ++ [.toFile g]) _ (toFile_spec canOpen h0 g).2.1 h
      | log m =>
        simp only [directRun, directStep, bind, Except.bind] at h
        cases hw : b₀.write [m] with
        | error e => rw [hw] at h; cases h
        | ok b₁ =>
          rw [hw] at h
          refine ih (a ++ [.log m]) b₁ ?_ h
          rw [opened_log, ← h0]
          unfold Base.write at hw
          split at hw
          · cases hw
          · cases hw; rfl
          · split at hw <;> cases hw <;> rfl
  have hn := main calls [] (Base.construct w) rfl h
  rw [List.nil_append] at hn
  rw [(toFile_spec canOpen hn f).1]
  unfold Opens
  simp [fileRequests]
  intro _
  constructor
  · intro h g hg
    exact h _ hg
  · intro h c hc
    cases c with
    | toFile g => exact h g hc
    | _ => rfl

/-- **C103** The logger without threads: it is undefined to log before a destination is given, otherwise every message is in the destination
which was given last, or it is lost (see `C103_lost_refuted`). -/
theorem C103_direct (canOpen : σ → Bool) (w : World σ μ) (calls : List (LogCall σ μ)) :
    (LogsTooEarly canOpen calls → directRun canOpen (Base.construct w) calls = .error .ub) ∧
      (¬ LogsTooEarly canOpen calls → ∃ b, directRun canOpen (Base.construct w) calls = .ok b ∧
        Delivered canOpen (fun before _ => (situation canOpen [] before none).join) calls w b.world) := by
  have inv : DirectInv canOpen ([] : List (LogCall σ μ)) (Base.construct w) :=
    ⟨rfl, fun _ => rfl, fun hd => (by cases hd), fun d hd => (by cases hd)⟩
  constructor
  · rintro ⟨a, m, b, rfl, h⟩
    -- the first message which is too early
    have keep : ∀ (x y : List (LogCall σ μ)), situation canOpen [] (x ++ y) none = none → situation canOpen [] x none = none := by
      intro x y
      induction y using List.reverseRecOn with
      | nil => intro h; simpa using h
      | append_singleton y c ih =>
        intro h
        apply ih
        rw [← List.append_assoc, situation_snoc] at h
        unfold nextSituation at h
        split at h
        · exact h
        · cases h
        · cases h
        · exact h
    by_cases hn : ∀ m, LogCall.log m ∉ a
    · exact direct_ub canOpen a m b [] _ inv h hn
    · have : ∃ x m' y, a = x ++ LogCall.log m' :: y ∧ ∀ m, LogCall.log m ∉ x := by
        clear h keep
        induction a with
        | nil => simp at hn
        | cons c l ih =>
          by_cases hc : ∃ m', c = LogCall.log m'
          · obtain ⟨m', rfl⟩ := hc
            exact ⟨[], m', l, rfl, by simp⟩
          · obtain ⟨x, m', y, e, hx⟩ := ih (fun h => hn (fun m hm => by
              rcases List.mem_cons.1 hm with e | hm
              · exact hc ⟨m, e.symm⟩
              · exact h m hm))
            refine ⟨c :: x, m', y, by rw [e]; rfl, fun m hm => ?_⟩
            rcases List.mem_cons.1 hm with e | hm
            · exact hc ⟨m, e.symm⟩
            · exact hx m hm
      obtain ⟨x, m', y, rfl, hx⟩ := this
      rw [show x ++ LogCall.log m' :: y ++ LogCall.log m :: b = x ++ LogCall.log m' :: (y ++ LogCall.log m :: b) by simp]
      exact direct_ub canOpen x m' _ [] _ inv (keep x _ h) hx
  · intro h
    obtain ⟨b, e, hs, hf, hn⟩ := direct_main canOpen calls [] _ inv (by
      intro x m y e hx
      exact h ⟨x, m, y, e, hx⟩)
    refine ⟨b, e, ?_, ?_, ?_⟩
    · intro s; rw [hs s]; rfl
    · intro f ho
      rw [hf f ((Opened_iff canOpen calls f).1 ho), opened_nil]
      rfl
    · intro f ho
      rw [hn f (fun h => ho ((Opened_iff canOpen calls f).2 (by simpa using h)))]
      rfl

/-- **C103**, missing part: without threads messages are in the destination which was given last if all requests to open files succeed; see
`C103_lost_refuted` for the others. -/
theorem C103_direct_partial (canOpen : σ → Bool) (w : World σ μ) (calls : List (LogCall σ μ)) (hl : ¬ LogsTooEarly canOpen calls)
    (ho : ∀ a f b, calls = a ++ LogCall.toFile f :: b → Opens canOpen a f = true) :
    ∃ b, directRun canOpen (Base.construct w) calls = .ok b ∧ Delivered canOpen (destination canOpen) calls w b.world := by
  obtain ⟨b, e, hs, hf, hn⟩ := (C103_direct canOpen w calls).2 hl
  have sit : ∀ a b : List (LogCall σ μ), calls = a ++ b →
      situation canOpen [] a none = (lastAttempt canOpen [] a none).map some := by
    intro a
    induction a using List.reverseRecOn with
    | nil => intro b _; rfl
    | append_singleton a c ih =>
      intro b hb
      have hi := ih (c :: b) (by simpa using hb)
      rw [situation_snoc, lastAttempt_snoc, hi]
      cases c with
      | log m => rfl
      | work n => rfl
      | toStream s => simp [nextSituation, attempt]
      | toFile f =>
        have := ho a f b (by simpa using hb)
        simp [nextSituation, attempt, this]
  have rec' : ∀ d (after a : List (LogCall σ μ)), calls = a ++ after →
      received (fun before _ => (situation canOpen [] before none).join) d a after = received (destination canOpen) d a after := by
    intro d after
    induction after with
    | nil => intro a _; rfl
    | cons c after ih =>
      intro a ha
      simp only [received]
      rw [ih (a ++ [c]) (by simpa using ha)]
      congr 1
      cases c with
      | log m =>
        have hne : situation canOpen [] a none ≠ none := fun h => hl ⟨a, m, after, ha, h⟩
        have := sit a _ ha
        cases hla : lastAttempt canOpen [] a none with
        | none => rw [hla] at this; exact absurd this hne
        | some x => simp [destination, this, hla]
      | _ => rfl
  refine ⟨b, e, ?_, ?_, hn⟩
  · intro s; rw [hs s, rec' _ calls [] rfl]
  · intro f hf'; rw [hf f hf', rec' _ calls [] rfl]

/-- **C103** A logger can be given a file only once: although both files can be opened, the second request is answered by an exception, also if
the logger was given a stream in the meantime. -/
theorem C103_second_file_refuted :
    ∃ b, directRun (fun _ => true) (Base.construct (⟨fun _ => [], fun _ => []⟩ : World ℕ String)) [.toFile 1, .log "first", .toStream 0] = .ok b ∧
      (b.toFile (fun _ => true) 2).1 = false :=
  ⟨_, rfl, rfl⟩

/-- **C103** After a failed request to open a second file the logger without threads looses all messages: the second message is nowhere. -/
theorem C103_lost_refuted :
    ∃ b, directRun (fun _ => true) (Base.construct (⟨fun _ => [], fun _ => []⟩ : World ℕ String))
        [.toFile 1, .log "first", .toFile 2, .log "second"] = .ok b ∧
      b.world.files 1 = ["first"] ∧ b.world.files 2 = [] ∧ ∀ s, b.world.streams s = [] :=
  ⟨_, rfl, rfl, rfl, fun _ => rfl⟩

/-- **C103** Messages of a threaded logger which is never given a destination are lost. -/
theorem C103_never_refuted :
    ∃ t, (Threaded.construct (⟨fun _ => [], fun _ => []⟩ : World ℕ String)).run (fun _ => false) [.log "first", .toFile 1, .log "second"] = .ok t ∧
      (∀ f, t.base.world.files f = []) ∧ (∀ s, t.base.world.streams s = []) :=
  ⟨_, rfl, fun _ => rfl, fun _ => rfl⟩

/-- Messages logged before the first destination, between destinations and after a failure. -/
example : ∃ t, (Threaded.construct (⟨fun _ => ["old"], fun _ => ["old"]⟩ : World ℕ String)).run (fun f => f != 3)
    [.log "a", .toFile 1, .log "b", .work 1, .log "c", .toStream 0, .log "d", .toFile 2, .log "e", .toStream 5, .log "f"] = .ok t ∧
      t.base.world.files 1 = ["a", "b", "c"] ∧ t.base.world.files 2 = ["old"] ∧ t.base.world.streams 0 = ["old", "d"] ∧
        t.base.world.streams 5 = ["old", "e", "f"] :=
  ⟨_, rfl, rfl, rfl, rfl, rfl⟩

example : ¬ LogsTooEarly (fun _ : ℕ => true) ([.toFile 1, .log "first", .toStream 0, .log "second"] : List (LogCall ℕ String)) := by
  rintro ⟨a, m, b, h, hs⟩
  match a, h with
  | [_], h => cases h; cases hs
  | [_, _, _], h => cases h; cases hs
  | [_, _, _, _], h => cases h
  | _ :: _ :: _ :: _ :: _ :: _, h => cases h

end Humoto
