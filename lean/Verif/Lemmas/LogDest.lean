import Verif.Spec.LogDest

/-!
# Lemmas about destinations of loggers
-/

namespace Humoto.Log

open Spec

variable {σ μ : Type}

/-- The file which was opened. -/
def opened? (canOpen : σ → Bool) (calls : List (LogCall σ μ)) : Option σ := (fileRequests calls).find? canOpen

theorem fileRequests_append (a b : List (LogCall σ μ)) : fileRequests (a ++ b) = fileRequests a ++ fileRequests b := by
  simp [fileRequests, List.filterMap_append]

theorem opens_iff (canOpen : σ → Bool) (a : List (LogCall σ μ)) (f : σ) :
    Opens canOpen a f = (canOpen f && (opened? canOpen a).isNone) := by
  unfold Opens opened?
  congr 1
  rw [Bool.eq_iff_iff]
  simp

theorem opened_append (canOpen : σ → Bool) (a b : List (LogCall σ μ)) :
    opened? canOpen (a ++ b) = (opened? canOpen a).or (opened? canOpen b) := by
  unfold opened?
  rw [fileRequests_append, List.find?_append]

theorem opened_toFile (canOpen : σ → Bool) (a : List (LogCall σ μ)) (f : σ) :
    opened? canOpen (a ++ [.toFile f]) = if Opens canOpen a f then some f else opened? canOpen a := by
  rw [opened_append, opens_iff]
  have : opened? canOpen [(LogCall.toFile f : LogCall σ μ)] = if canOpen f then some f else none := by
    simp [opened?, fileRequests, List.find?_cons]
    split <;> simp_all
  rw [this]
  cases h : opened? canOpen a <;> cases h' : canOpen f <;> simp

theorem opened_log (canOpen : σ → Bool) (a : List (LogCall σ μ)) (m : μ) : opened? canOpen (a ++ [.log m]) = opened? canOpen a := by
  rw [opened_append]; simp [opened?, fileRequests]

theorem opened_work (canOpen : σ → Bool) (a : List (LogCall σ μ)) (n : ℕ) : opened? canOpen (a ++ [.work n]) = opened? canOpen a := by
  rw [opened_append]; simp [opened?, fileRequests]

theorem opened_toStream (canOpen : σ → Bool) (a : List (LogCall σ μ)) (s : σ) :
    opened? canOpen (a ++ [.toStream s]) = opened? canOpen a := by
  rw [opened_append]; simp [opened?, fileRequests]

theorem opened_nil (canOpen : σ → Bool) : opened? canOpen ([] : List (LogCall σ μ)) = none := rfl

theorem Opened_iff (canOpen : σ → Bool) (calls : List (LogCall σ μ)) (f : σ) :
    Opened canOpen calls f ↔ opened? canOpen calls = some f := by
  constructor
  · rintro ⟨a, b, rfl, h⟩
    rw [show a ++ LogCall.toFile f :: b = (a ++ [.toFile f]) ++ b by simp, opened_append, opened_toFile, if_pos h]
    rfl
  · intro h
    induction calls using List.reverseRecOn with
    | nil => cases h
    | append_singleton l c ih =>
      have rest : opened? canOpen l = some f → Opened canOpen (l ++ [c]) f := by
        intro h
        obtain ⟨a, b, e, ho⟩ := ih h
        exact ⟨a, b ++ [c], by rw [e]; simp, ho⟩
      cases c with
      | log m => rw [opened_log] at h; exact rest h
      | work n => rw [opened_work] at h; exact rest h
      | toStream s => rw [opened_toStream] at h; exact rest h
      | toFile g =>
        rw [opened_toFile] at h
        split at h
        · rename_i ho
          cases h
          exact ⟨l, [], rfl, ho⟩
        · exact rest h

theorem attempt_congr (canOpen : σ → Bool) {a b : List (LogCall σ μ)} (h : fileRequests a = fileRequests b) (c : LogCall σ μ) :
    attempt canOpen a c = attempt canOpen b c := by
  cases c <;> simp [attempt, Opens, h]

theorem firstSuccess_congr (canOpen : σ → Bool) {a b : List (LogCall σ μ)} (h : fileRequests a = fileRequests b)
    (l : List (LogCall σ μ)) : firstSuccess canOpen a l = firstSuccess canOpen b l := by
  induction l generalizing a b with
  | nil => rfl
  | cons c l ih =>
    simp only [firstSuccess, attempt_congr canOpen h c]
    rw [ih (a := a ++ [c]) (b := b ++ [c]) (by rw [fileRequests_append, fileRequests_append, h])]

theorem lastAttempt_snoc (canOpen : σ → Bool) (p l : List (LogCall σ μ)) (c : LogCall σ μ) (r : Option (Destination σ)) :
    lastAttempt canOpen p (l ++ [c]) r = (attempt canOpen (p ++ l) c).getD (lastAttempt canOpen p l r) := by
  induction l generalizing p r with
  | nil => simp [lastAttempt]
  | cons x l ih => simp only [List.cons_append, lastAttempt, ih]; simp

theorem situation_snoc (canOpen : σ → Bool) (p l : List (LogCall σ μ)) (c : LogCall σ μ) (r : Option (Option (Destination σ))) :
    situation canOpen p (l ++ [c]) r = nextSituation canOpen (p ++ l) c (situation canOpen p l r) := by
  induction l generalizing p r with
  | nil => simp [situation]
  | cons x l ih => simp only [List.cons_append, situation, ih]; simp

/-- Contents of a destination. -/
def World.content (w : World σ μ) : Destination σ → List μ
  | .stream s => w.streams s
  | .file f => w.files f

/-- The logger writes to the destination. -/
def Points (b : Base σ μ) : Destination σ → Prop
  | .stream s => b.output_stream = some (.stream s)
  | .file f => b.output_stream = some .file ∧ b.output_file_stream.failed = false ∧ b.output_file_stream.name = some f

variable [DecidableEq σ]

theorem write_points {b : Base σ μ} {d : Destination σ} (h : Points b d) (m : List μ) :
    ∃ b', b.write m = .ok b' ∧ b'.output_file_stream = b.output_file_stream ∧ b'.output_stream = b.output_stream ∧
      ∀ e, b'.world.content e = b.world.content e ++ if d = e then m else [] := by
  cases d with
  | stream s =>
    simp only [Points] at h
    unfold Base.write
    rw [h]
    refine ⟨_, rfl, rfl, h.symm ▸ rfl, ?_⟩
    intro e
    cases e with
    | stream s' =>
      by_cases e : s' = s
      · subst e; simp [World.content]
      · simp [World.content, e, Ne.symm e]
    | file f => simp [World.content]
  | file f =>
    obtain ⟨h1, h2, h3⟩ := h
    unfold Base.write
    rw [h1, h2, h3]
    refine ⟨_, rfl, rfl, h1.symm ▸ rfl, ?_⟩
    intro e
    cases e with
    | stream s' => simp [World.content]
    | file g =>
      by_cases e : g = f
      · subst e; simp [World.content]
      · simp [World.content, e, Ne.symm e]

theorem Points.of_eq {b b' : Base σ μ} {d : Destination σ} (h : Points b d) (h1 : b'.output_file_stream = b.output_file_stream)
    (h2 : b'.output_stream = b.output_stream) : Points b' d := by
  cases d with
  | stream s => simp only [Points] at h ⊢; rw [h2, h]
  | file f => simp only [Points] at h ⊢; rw [h1, h2]; exact h

/-- `initialize` with a file, in terms of the specification. -/
theorem toFile_spec (canOpen : σ → Bool) {b : Base σ μ} {a : List (LogCall σ μ)} (hn : b.output_file_stream.name = opened? canOpen a) (f : σ) :
    (b.toFile canOpen f).1 = Opens canOpen a f ∧
    (b.toFile canOpen f).2.output_file_stream.name = opened? canOpen (a ++ [.toFile f]) ∧
    (Opens canOpen a f = true → Points (b.toFile canOpen f).2 (.file f) ∧
      (b.toFile canOpen f).2.world.streams = b.world.streams ∧
      (b.toFile canOpen f).2.world.files = fun g => if g = f then [] else b.world.files g) ∧
    (Opens canOpen a f = false → (b.toFile canOpen f).2.world = b.world ∧
      (b.toFile canOpen f).2.output_stream = b.output_stream ∧ (b.toFile canOpen f).2.output_file_stream.failed = true) := by
  rw [opened_toFile]
  have ho := opens_iff canOpen a f
  unfold Base.toFile FileStream.open
  rw [hn]
  cases h1 : opened? canOpen a with
  | none =>
    cases h2 : canOpen f with
    | true => simp [h1, h2] at ho; simp [ho, Points]
    | false => simp [h2] at ho; simp [ho, hn, h1]
  | some g =>
    simp [h1] at ho
    simp [ho, hn, h1]

/-! ## The threaded logger -/

/-- What is known about the threaded logger after the calls `a`. -/
structure ThreadedInv (canOpen : σ → Bool) (a : List (LogCall σ μ)) (t : Threaded σ μ) : Prop where
  name : t.base.output_file_stream.name = opened? canOpen a
  idle : lastAttempt canOpen [] a none = none → t.interrupted = true
  busy : ∀ d, lastAttempt canOpen [] a none = some d → t.interrupted = false ∧ Points t.base d

/-- What the thread writes when `interrupt` is called. -/
theorem interrupt_spec {canOpen : σ → Bool} {a : List (LogCall σ μ)} {t : Threaded σ μ} (h : ThreadedInv canOpen a t) :
    ∃ t', t.interrupt = .ok t' ∧ t'.interrupted = true ∧ t'.base.output_file_stream = t.base.output_file_stream ∧
      t'.base.output_stream = t.base.output_stream ∧
      (∀ e, t'.base.world.content e = t.base.world.content e ++
        if lastAttempt canOpen [] a none = some e then t.message_queue else []) ∧
      t'.message_queue = if lastAttempt canOpen [] a none = none then t.message_queue else [] := by
  cases hl : lastAttempt canOpen [] a none with
  | none =>
    have := h.idle hl
    refine ⟨t, by simp [Threaded.interrupt, this], this, rfl, rfl, by simp, by simp⟩
  | some d =>
    obtain ⟨h1, h2⟩ := h.busy d hl
    obtain ⟨b', hw, e1, e2, hc⟩ := write_points h2 t.message_queue
    refine ⟨{ t with base := b', message_queue := [], interrupted := true }, ?_, rfl, e1, e2, ?_, by simp⟩
    · simp [Threaded.interrupt, Threaded.work, h1, hw, bind, Except.bind]
    · intro e
      rw [hc]
      simp

theorem lastAttempt_log (canOpen : σ → Bool) (a : List (LogCall σ μ)) (m : μ) :
    lastAttempt canOpen [] (a ++ [.log m]) none = lastAttempt canOpen [] a none := by
  rw [lastAttempt_snoc]; rfl

theorem lastAttempt_work (canOpen : σ → Bool) (a : List (LogCall σ μ)) (n : ℕ) :
    lastAttempt canOpen [] (a ++ [.work n]) none = lastAttempt canOpen [] a none := by
  rw [lastAttempt_snoc]; rfl

theorem lastAttempt_toStream (canOpen : σ → Bool) (a : List (LogCall σ μ)) (s : σ) :
    lastAttempt canOpen [] (a ++ [.toStream s]) none = some (.stream s) := by
  rw [lastAttempt_snoc]; rfl

theorem lastAttempt_toFile (canOpen : σ → Bool) (a : List (LogCall σ μ)) (f : σ) :
    lastAttempt canOpen [] (a ++ [.toFile f]) none = if Opens canOpen a f then some (.file f) else none := by
  rw [lastAttempt_snoc]; simp [attempt]

theorem destination_log (canOpen : σ → Bool) (a after : List (LogCall σ μ)) (m : μ) :
    destination canOpen a (.log m :: after) = destination canOpen (a ++ [.log m]) after := by
  simp [destination, lastAttempt_log, firstSuccess, attempt]

theorem destination_log' (canOpen : σ → Bool) (a after : List (LogCall σ μ)) (m : μ) :
    destination canOpen (a ++ [.log m]) after = destination canOpen a after := by
  unfold destination
  rw [lastAttempt_log, firstSuccess_congr canOpen (a := a ++ [LogCall.log m]) (b := a) (by simp [fileRequests]) after]

theorem destination_work (canOpen : σ → Bool) (a after : List (LogCall σ μ)) (n : ℕ) :
    destination canOpen a (.work n :: after) = destination canOpen (a ++ [.work n]) after := by
  simp [destination, lastAttempt_work, firstSuccess, attempt]

theorem destination_toStream (canOpen : σ → Bool) (a after : List (LogCall σ μ)) (s : σ) :
    destination canOpen a (.toStream s :: after) = (lastAttempt canOpen [] a none).or (some (.stream s)) := by
  simp [destination, firstSuccess, attempt]

theorem destination_toStream' (canOpen : σ → Bool) (a after : List (LogCall σ μ)) (s : σ) :
    destination canOpen (a ++ [.toStream s]) after = some (.stream s) := by
  simp [destination, lastAttempt_toStream]

theorem destination_toFile (canOpen : σ → Bool) (a after : List (LogCall σ μ)) (f : σ) :
    destination canOpen a (.toFile f :: after) =
      (lastAttempt canOpen [] a none).or (destination canOpen (a ++ [.toFile f]) after) := by
  unfold destination
  rw [lastAttempt_toFile]
  simp only [firstSuccess, attempt, Option.getD_some]

/-- The induction hypothesis is applied after the call `c`. -/
theorem threaded_main (canOpen : σ → Bool) (after a : List (LogCall σ μ)) (t : Threaded σ μ) (h : ThreadedInv canOpen a t) :
    ∃ t', t.run canOpen after = .ok t' ∧
      (∀ s, t'.base.world.streams s = t.base.world.streams s ++
        (if destination canOpen a after = some (.stream s) then t.message_queue else []) ++
          received (destination canOpen) (.stream s) a after) ∧
      (∀ f, opened? canOpen (a ++ after) = some f → t'.base.world.files f = (if opened? canOpen a = some f then t.base.world.files f else []) ++
        (if destination canOpen a after = some (.file f) then t.message_queue else []) ++
          received (destination canOpen) (.file f) a after) ∧
      (∀ f, opened? canOpen (a ++ after) ≠ some f → t'.base.world.files f = t.base.world.files f) := by
  induction after generalizing a t with
  | nil =>
    obtain ⟨t', e, _, _, _, hc, _⟩ := interrupt_spec h
    refine ⟨t', e, ?_, ?_, ?_⟩
    · intro s
      have := hc (.stream s)
      simp only [World.content] at this
      rw [this]
      simp [received, destination, firstSuccess]
    · intro f hf
      have := hc (.file f)
      simp only [World.content] at this
      rw [List.append_nil] at hf
      rw [this]
      simp [received, destination, firstSuccess, hf]
    · intro f hf
      have := hc (.file f)
      simp only [World.content] at this
      rw [List.append_nil] at hf
      rw [this, if_neg, List.append_nil]
      intro hl
      have := (h.busy _ hl).2.2.2
      rw [h.name] at this
      exact hf this
  | cons c after ih =>
    have assoc : a ++ c :: after = (a ++ [c]) ++ after := by simp
    rw [assoc]
    cases c with
    | log m =>
      have h' : ThreadedInv canOpen (a ++ [.log m]) { t with message_queue := t.message_queue ++ [m] } :=
        ⟨by rw [opened_log]; exact h.name, by rw [lastAttempt_log]; exact h.idle, by rw [lastAttempt_log]; exact h.busy⟩
      obtain ⟨t', e, hs, hf, hn⟩ := ih _ _ h'
      refine ⟨t', by simp only [Threaded.run, Threaded.step]; exact e, ?_, ?_, hn⟩
      · intro s
        rw [hs s, destination_log]
        simp only [received, ← destination_log' canOpen a after m]
        split <;> simp
      · intro f hof
        rw [hf f hof, destination_log, opened_log]
        simp only [received, ← destination_log' canOpen a after m]
        split <;> split <;> simp
    | work n =>
      cases hl : lastAttempt canOpen [] a none with
      | none =>
        have hi := h.idle hl
        have h' : ThreadedInv canOpen (a ++ [.work n]) t :=
          ⟨by rw [opened_work]; exact h.name, by rw [lastAttempt_work]; exact h.idle, by rw [lastAttempt_work]; exact h.busy⟩
        obtain ⟨t', e, hs, hf, hn⟩ := ih _ _ h'
        refine ⟨t', ?_, ?_, ?_, hn⟩
        · simp only [Threaded.run, Threaded.step, Threaded.work, hi, if_true]; exact e
        · intro s
          rw [hs s, destination_work]
          simp [received]
        · intro f hof
          rw [hf f hof, destination_work, opened_work]
          simp [received]
      | some d =>
        obtain ⟨hi, hp⟩ := h.busy d hl
        obtain ⟨b', hw, e1, e2, hc⟩ := write_points hp (t.message_queue.take n)
        have h' : ThreadedInv canOpen (a ++ [.work n]) { t with base := b', message_queue := t.message_queue.drop n } := by
          refine ⟨by rw [opened_work]; exact (congrArg _ e1).trans h.name, ?_, ?_⟩
          · rw [lastAttempt_work, hl]; intro hx; cases hx
          · rw [lastAttempt_work, hl]
            intro d' hd
            cases hd
            exact ⟨hi, hp.of_eq e1 e2⟩
        obtain ⟨t', e, hs, hf, hn⟩ := ih _ _ h'
        have hd : destination canOpen (a ++ [.work n]) after = some d := by simp [destination, lastAttempt_work, hl]
        refine ⟨t', ?_, ?_, ?_, ?_⟩
        · rw [hi] at e
          simp only [Threaded.run, Threaded.step, Threaded.work, hi, hw, bind, Except.bind, Bool.false_eq_true, if_false]
          exact e
        · intro s
          have := hc (.stream s)
          simp only [World.content] at this
          rw [hs s, destination_work, hd]
          simp only [this, received, Option.some.injEq]
          split <;> simp
        · intro f hof
          have := hc (.file f)
          simp only [World.content] at this
          rw [hf f hof, destination_work, hd, opened_work]
          simp only [this, received, Option.some.injEq]
          by_cases hdf : d = .file f
          · have ho : opened? canOpen a = some f := by rw [← h.name]; rw [hdf] at hp; exact hp.2.2
            simp [hdf, ho]
          · simp [hdf]
        · intro f hof
          have := hc (.file f)
          simp only [World.content] at this
          rw [hn f hof]
          simp only [this]
          rw [if_neg, List.append_nil]
          rintro rfl
          apply hof
          rw [opened_append, opened_work, ← h.name, hp.2.2]
          rfl
    | toStream s₀ =>
      obtain ⟨t₁, e₁, hi, e2, e3, hc, hq⟩ := interrupt_spec h
      have h' : ThreadedInv canOpen (a ++ [.toStream s₀]) ({ t₁ with base := t₁.base.toStream s₀ } : Threaded σ μ).start := by
        refine ⟨?_, ?_, ?_⟩
        · rw [opened_toStream]; exact (congrArg _ e2).trans h.name
        · rw [lastAttempt_toStream]; intro hx; cases hx
        · rw [lastAttempt_toStream]
          intro d hd
          cases hd
          exact ⟨rfl, rfl⟩
      obtain ⟨t', e, hs, hf, hn⟩ := ih _ _ h'
      refine ⟨t', ?_, ?_, ?_, ?_⟩
      · simp only [Threaded.run, Threaded.step, e₁, bind, Except.bind]
        exact e
      · intro s
        have := hc (.stream s)
        simp only [World.content] at this
        rw [hs s, destination_toStream, destination_toStream']
        simp only [Threaded.start, Base.toStream, received, this, hq]
        cases lastAttempt canOpen [] a none <;> simp
      · intro f hof
        have := hc (.file f)
        simp only [World.content] at this
        rw [hf f hof, destination_toStream, destination_toStream', opened_toStream]
        simp only [Threaded.start, Base.toStream, received, this, hq]
        cases hl : lastAttempt canOpen [] a none with
        | none => simp
        | some d =>
          by_cases hd : d = .file f
          · subst hd
            have ho : opened? canOpen a = some f := by rw [← h.name]; exact (h.busy _ hl).2.2.2
            simp [ho]
          · simp [hd]
      · intro f hof
        have := hc (.file f)
        simp only [World.content] at this
        rw [hn f hof]
        simp only [Threaded.start, Base.toStream, this]
        rw [if_neg, List.append_nil]
        intro hl
        apply hof
        rw [opened_append, opened_toStream, ← h.name, (h.busy _ hl).2.2.2]
        rfl
    | toFile g =>
      obtain ⟨t₁, e₁, hi, e2, e3, hc, hq⟩ := interrupt_spec h
      obtain ⟨r1, r2, r3, r4⟩ := toFile_spec canOpen (b := t₁.base) (a := a) ((congrArg _ e2).trans h.name) g
      cases ho : Opens canOpen a g with
      | true =>
        obtain ⟨r3, r5, r6⟩ := r3 ho
        have hna : opened? canOpen a = none := by
          rw [opens_iff] at ho
          simp at ho
          exact ho.2
        have h' : ThreadedInv canOpen (a ++ [.toFile g]) ({ t₁ with base := (t₁.base.toFile canOpen g).2 } : Threaded σ μ).start := by
          refine ⟨r2, ?_, ?_⟩
          · rw [lastAttempt_toFile, if_pos ho]; intro hx; cases hx
          · rw [lastAttempt_toFile, if_pos ho]
            intro d hd
            cases hd
            exact ⟨rfl, r3⟩
        obtain ⟨t', e, hs, hf, hn⟩ := ih _ _ h'
        have hd : destination canOpen (a ++ [.toFile g]) after = some (.file g) := by
          simp [destination, lastAttempt_toFile, ho]
        have hog : opened? canOpen (a ++ [.toFile g]) = some g := by rw [opened_toFile, if_pos ho]
        have hoa : opened? canOpen ((a ++ [.toFile g]) ++ after) = some g := by rw [opened_append, hog]; rfl
        have hnf : ∀ f, lastAttempt canOpen [] a none ≠ some (.file f) := by
          intro f hl
          have := (h.busy _ hl).2.2.2
          rw [h.name, hna] at this
          cases this
        refine ⟨t', ?_, ?_, ?_, ?_⟩
        · simp only [Threaded.run, Threaded.step, e₁, bind, Except.bind, r1, ho, if_true]
          exact e
        · intro s
          have := hc (.stream s)
          simp only [World.content] at this
          rw [hs s, destination_toFile, hd]
          simp only [Threaded.start, received, r5, this, hq]
          cases lastAttempt canOpen [] a none <;> simp
        · intro f hof
          rw [hoa] at hof
          cases hof
          rw [hf g hoa, destination_toFile, hd, hog, hna]
          simp only [Threaded.start, received, r6, hq]
          cases hl : lastAttempt canOpen [] a none with
          | none => simp
          | some d =>
            have : d ≠ .file g := fun e => hnf g (e ▸ hl)
            simp [this]
        · intro f hof
          have := hc (.file f)
          simp only [World.content] at this
          rw [hn f hof]
          simp only [Threaded.start, r6]
          rw [hoa] at hof
          rw [if_neg (fun e => hof (by rw [e])), this, if_neg (hnf f), List.append_nil]
      | false =>
        obtain ⟨r5, r6, r7⟩ := r4 ho
        have h' : ThreadedInv canOpen (a ++ [.toFile g]) { t₁ with base := (t₁.base.toFile canOpen g).2 } := by
          refine ⟨r2, fun _ => hi, ?_⟩
          rw [lastAttempt_toFile, if_neg (by rw [ho]; simp)]
          intro d hd
          cases hd
        obtain ⟨t', e, hs, hf, hn⟩ := ih _ _ h'
        have hog : opened? canOpen (a ++ [.toFile g]) = opened? canOpen a := by
          rw [opened_toFile, if_neg (by rw [ho]; simp)]
        refine ⟨t', ?_, ?_, ?_, ?_⟩
        · simp only [Threaded.run, Threaded.step, e₁, bind, Except.bind, r1, ho]
          exact e
        · intro s
          have := hc (.stream s)
          simp only [World.content] at this
          rw [hs s, destination_toFile]
          simp only [received, r5, this, hq]
          cases lastAttempt canOpen [] a none <;> simp <;> congr
        · intro f hof
          have := hc (.file f)
          simp only [World.content] at this
          rw [hf f hof, destination_toFile, hog]
          simp only [received, r5, this, hq]
          cases hl : lastAttempt canOpen [] a none with
          | none => simp; congr
          | some d =>
            by_cases hd : d = .file f
            · subst hd
              have ho : opened? canOpen a = some f := by rw [← h.name]; exact (h.busy _ hl).2.2.2
              simp [ho]
            · simp [hd]
        · intro f hof
          have := hc (.file f)
          simp only [World.content] at this
          rw [hn f hof]
          simp only [r5, this]
          rw [if_neg, List.append_nil]
          intro hl
          apply hof
          rw [opened_append, hog, ← h.name, (h.busy _ hl).2.2.2]
          rfl

/-! ## The logger without threads -/

/-- What is known about the logger without threads after the calls `a`. -/
structure DirectInv (canOpen : σ → Bool) (a : List (LogCall σ μ)) (b : Base σ μ) : Prop where
  name : b.output_file_stream.name = opened? canOpen a
  nowhere : situation canOpen [] a none = none → b.output_stream = none
  lost : situation canOpen [] a none = some none → b.output_stream = some .file ∧ b.output_file_stream.failed = true
  points : ∀ d, situation canOpen [] a none = some (some d) → Points b d

theorem DirectInv.toStream {canOpen : σ → Bool} {a : List (LogCall σ μ)} {b : Base σ μ} (h : DirectInv canOpen a b) (s : σ) :
    DirectInv canOpen (a ++ [.toStream s]) (b.toStream s) := by
  have e : situation canOpen [] (a ++ [.toStream s]) none = some (some (.stream s)) := by
    rw [situation_snoc]; simp [nextSituation, attempt]
  refine ⟨by rw [opened_toStream]; exact h.name, ?_, ?_, ?_⟩ <;> rw [e]
  · intro hx; cases hx
  · intro hx; cases hx
  · intro d hd; cases hd; rfl

theorem DirectInv.toFile {canOpen : σ → Bool} {a : List (LogCall σ μ)} {b : Base σ μ} (h : DirectInv canOpen a b) (f : σ) :
    DirectInv canOpen (a ++ [.toFile f]) (b.toFile canOpen f).2 := by
  obtain ⟨r1, r2, r3, r4⟩ := toFile_spec canOpen h.name f
  cases ho : Opens canOpen a f with
  | true =>
    have e : situation canOpen [] (a ++ [.toFile f]) none = some (some (.file f)) := by
      rw [situation_snoc]; simp [nextSituation, attempt, ho]
    refine ⟨r2, ?_, ?_, ?_⟩ <;> rw [e]
    · intro hx; cases hx
    · intro hx; cases hx
    · intro d hd; cases hd; exact (r3 ho).1
  | false =>
    obtain ⟨r5, r6, r7⟩ := r4 ho
    have e : situation canOpen [] (a ++ [.toFile f]) none =
        match situation canOpen [] a none with | some (some (.file _)) => some none | r => r := by
      rw [situation_snoc]
      simp only [nextSituation, attempt, ho, List.nil_append, Bool.false_eq_true, if_false]
      split <;> split <;> simp_all
    cases hs : situation canOpen [] a none with
    | none =>
      rw [hs] at e
      refine ⟨r2, fun _ => r6.trans (h.nowhere hs), ?_, ?_⟩ <;> rw [e]
      · intro hx; cases hx
      · intro d hd; cases hd
    | some r =>
      cases r with
      | none =>
        rw [hs] at e
        refine ⟨r2, ?_, fun _ => ⟨r6.trans (h.lost hs).1, r7⟩, ?_⟩ <;> rw [e]
        · intro hx; cases hx
        · intro d hd; cases hd
      | some d =>
        cases d with
        | stream s =>
          rw [hs] at e
          refine ⟨r2, ?_, ?_, ?_⟩ <;> rw [e]
          · intro hx; cases hx
          · intro hx; cases hx
          · intro d hd
            cases hd
            exact r6.trans (h.points _ hs)
        | file g =>
          rw [hs] at e
          refine ⟨r2, ?_, fun _ => ⟨r6.trans (h.points _ hs).1, r7⟩, ?_⟩ <;> rw [e]
          · intro hx; cases hx
          · intro d hd; cases hd

theorem situation_log (canOpen : σ → Bool) (a : List (LogCall σ μ)) (m : μ) :
    situation canOpen [] (a ++ [.log m]) none = situation canOpen [] a none := by
  rw [situation_snoc]; rfl

theorem situation_work (canOpen : σ → Bool) (a : List (LogCall σ μ)) (n : ℕ) :
    situation canOpen [] (a ++ [.work n]) none = situation canOpen [] a none := by
  rw [situation_snoc]; rfl

/-- Where messages of the logger without threads go. -/
def directWhere (canOpen : σ → Bool) (before _after : List (LogCall σ μ)) : Option (Destination σ) :=
  (situation canOpen [] before none).join

theorem direct_main (canOpen : σ → Bool) (after a : List (LogCall σ μ)) (b : Base σ μ) (h : DirectInv canOpen a b)
    (hl : ∀ x m y, after = x ++ LogCall.log m :: y → situation canOpen [] (a ++ x) none ≠ none) :
    ∃ b', directRun canOpen b after = .ok b' ∧
      (∀ s, b'.world.streams s = b.world.streams s ++ received (directWhere canOpen) (.stream s) a after) ∧
      (∀ f, opened? canOpen (a ++ after) = some f → b'.world.files f = (if opened? canOpen a = some f then b.world.files f else []) ++
        received (directWhere canOpen) (.file f) a after) ∧
      (∀ f, opened? canOpen (a ++ after) ≠ some f → b'.world.files f = b.world.files f) := by
  induction after generalizing a b with
  | nil => exact ⟨b, rfl, by simp [received], by intro f hf; rw [List.append_nil] at hf; simp [received, hf], fun _ _ => rfl⟩
  | cons c after ih =>
    have hl' : ∀ x m y, after = x ++ LogCall.log m :: y → situation canOpen [] ((a ++ [c]) ++ x) none ≠ none := by
      intro x m y e
      have := hl (c :: x) m y (by rw [e]; rfl)
      simpa using this
    have assoc : a ++ c :: after = (a ++ [c]) ++ after := by simp
    rw [assoc]
    cases c with
    | work n =>
      have h' : DirectInv canOpen (a ++ [.work n]) b :=
        ⟨by rw [opened_work]; exact h.name, by rw [situation_work]; exact h.nowhere, by rw [situation_work]; exact h.lost,
          by rw [situation_work]; exact h.points⟩
      obtain ⟨b', e, hs, hf, hn⟩ := ih _ _ h' hl'
      exact ⟨b', e, hs, fun f hof => by rw [hf f hof, opened_work]; rfl, hn⟩
    | toStream s =>
      obtain ⟨b', e, hs, hf, hn⟩ := ih _ _ (h.toStream s) hl'
      exact ⟨b', e, hs, fun f hof => by rw [hf f hof, opened_toStream]; rfl, hn⟩
    | toFile g =>
      obtain ⟨r1, r2, r3, r4⟩ := toFile_spec canOpen h.name g
      obtain ⟨b', e, hs, hf, hn⟩ := ih _ _ (h.toFile g) hl'
      refine ⟨b', e, ?_, ?_, ?_⟩
      · intro s
        rw [hs s]
        cases ho : Opens canOpen a g with
        | true => rw [(r3 ho).2.1]; rfl
        | false => rw [(r4 ho).1]; rfl
      · intro f hof
        rw [hf f hof]
        cases ho : Opens canOpen a g with
        | true =>
          have hna : opened? canOpen a = none := by
            rw [opens_iff] at ho
            simp at ho
            exact ho.2
          have hog : opened? canOpen (a ++ [.toFile g]) = some g := by rw [opened_toFile, if_pos ho]
          rw [(r3 ho).2.2, hna, hog]
          have : f = g := by
            rw [opened_append, hog] at hof
            cases hof
            rfl
          subst this
          simp [received]
        | false =>
          have hog : opened? canOpen (a ++ [.toFile g]) = opened? canOpen a := by
            rw [opened_toFile, if_neg (by rw [ho]; simp)]
          rw [(r4 ho).1, hog]
          rfl
      · intro f hof
        rw [hn f hof]
        cases ho : Opens canOpen a g with
        | true =>
          rw [(r3 ho).2.2]
          apply if_neg
          rintro rfl
          apply hof
          rw [opened_append, opened_toFile, if_pos ho]
          rfl
        | false => rw [(r4 ho).1]
    | log m =>
      have hsit := hl [] m after rfl
      rw [List.append_nil] at hsit
      cases hs0 : situation canOpen [] a none with
      | none => exact absurd hs0 hsit
      | some r =>
        cases r with
        | none =>
          obtain ⟨h1, h2⟩ := h.lost hs0
          have hw : b.write [m] = .ok b := by simp [Base.write, h1, h2]
          have h' : DirectInv canOpen (a ++ [.log m]) b :=
            ⟨by rw [opened_log]; exact h.name, by rw [situation_log]; exact h.nowhere, by rw [situation_log]; exact h.lost,
              by rw [situation_log]; exact h.points⟩
          obtain ⟨b', e, hs, hf, hn⟩ := ih _ _ h' hl'
          refine ⟨b', ?_, ?_, ?_, hn⟩
          · simp only [directRun, directStep, hw, bind, Except.bind]; exact e
          · intro s
            rw [hs s]
            simp [received, directWhere, hs0]
          · intro f hof
            rw [hf f hof, opened_log]
            simp [received, directWhere, hs0]
        | some d =>
          have hp := h.points d hs0
          obtain ⟨b₁, hw, e1, e2, hc⟩ := write_points hp [m]
          have h' : DirectInv canOpen (a ++ [.log m]) b₁ := by
            refine ⟨by rw [opened_log, e1]; exact h.name, ?_, ?_, ?_⟩ <;> rw [situation_log, hs0]
            · intro hx; cases hx
            · intro hx; cases hx
            · intro d' hd
              cases hd
              exact hp.of_eq e1 e2
          obtain ⟨b', e, hs, hf, hn⟩ := ih _ _ h' hl'
          refine ⟨b', ?_, ?_, ?_, ?_⟩
          · simp only [directRun, directStep, hw, bind, Except.bind]; exact e
          · intro s
            have := hc (.stream s)
            simp only [World.content] at this
            rw [hs s, this]
            simp [received, directWhere, hs0]
          · intro f hof
            have := hc (.file f)
            simp only [World.content] at this
            rw [hf f hof, opened_log, this]
            by_cases hdf : d = .file f
            · subst hdf
              have ho : opened? canOpen a = some f := by rw [← h.name]; exact hp.2.2
              simp [received, directWhere, hs0, ho]
            · simp [received, directWhere, hs0, hdf]
          · intro f hof
            have := hc (.file f)
            simp only [World.content] at this
            rw [hn f hof, this, if_neg, List.append_nil]
            rintro rfl
            apply hof
            rw [opened_append, opened_log, ← h.name, hp.2.2]
            rfl

/-- Logging without a destination. -/
theorem direct_ub (canOpen : σ → Bool) (x : List (LogCall σ μ)) (m : μ) (y a : List (LogCall σ μ)) (b : Base σ μ) (h : DirectInv canOpen a b)
    (hx : situation canOpen [] (a ++ x) none = none) (hn : ∀ m, LogCall.log m ∉ x) :
    directRun canOpen b (x ++ LogCall.log m :: y) = .error .ub := by
  induction x generalizing a b with
  | nil =>
    rw [List.append_nil] at hx
    simp [directRun, directStep, Base.write, h.nowhere hx, bind, Except.bind]
  | cons c x ih =>
    have hx' : situation canOpen [] ((a ++ [c]) ++ x) none = none := by simpa using hx
    have hn' : ∀ m, LogCall.log m ∉ x := fun m hm => hn m (by simp [hm])
    cases c with
    | log m => exact absurd (by simp) (hn m)
    | work n =>
      have h' : DirectInv canOpen (a ++ [.work n]) b :=
        ⟨by rw [opened_work]; exact h.name, by rw [situation_work]; exact h.nowhere, by rw [situation_work]; exact h.lost,
          by rw [situation_work]; exact h.points⟩
      exact ih _ _ h' hx' hn'
    | toStream s => exact ih _ _ (h.toStream s) hx' hn'
    | toFile g => exact ih _ _ (h.toFile g) hx' hn'

end Humoto.Log
