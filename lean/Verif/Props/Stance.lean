import Verif.Lemmas.StanceTime

/-!
# C22 – C25: the stance finite state machine
-/

namespace Humoto

open Spec

/-! ## C22: the stance sequence is a legal walk -/

/-- C22. With every accepted parameter set (initially or with `setParameters`, `c` being the stance before) the machine
makes transitions forever without failure, and the stances form a legal walk which starts with the first stance of the
parameters. After an initial double support the first single support is the requested one. The machine is
deterministic, i.e. this is the only run. Missing: parameters with an undefined side of the first step and a nonzero
number of steps, `C22_undefined_refuted`. -/
theorem C22_legal_walk_partial {c : Stance} {p : FSMParams} {f : FSM} (h : FSM.finalize c p = .ok f) (hp : Proper p) :
    ∃ s, Run f s ∧ LegalWalk p.firstStance (fun k => (s k).cur.type) ∧
      (p.firstStance = .ds → p.numSteps ≠ 0 → (s 2).cur.type = p.firstSsType) ∧ ∀ s', Run f s' → s' = s := by
  obtain ⟨side, h1, h2, h3, -⟩ := finalize_inv h hp
  obtain ⟨hr, hI⟩ := states_run h1 h2
  have hw : (fun k => (states f k).cur.type) = walkType p.firstStance side p.numSteps := funext fun k => (hI k).type
  refine ⟨states f, hr, by rw [hw]; exact walkType_legal h1, fun hd hn => ?_, fun s' hs' => run_unique hs' hr⟩
  obtain ⟨hs, hS⟩ := h3 hd hn
  rw [(hI 2).type]
  have hz : ¬ (p.firstStance = .ds ∧ p.numSteps = 0) := fun hz => hn hz.2
  simp only [walkType, if_neg hz, show ¬ (2 : ℕ) = 0 by omega, if_false, show ¬ 2 * p.numSteps + 2 ≤ 2 by omega, sideAt, hs]
  rcases hS with hS | hS <;> rw [hS] <;> rfl

/-- The default parameters are accepted: seven steps, the right one first. -/
example : ∃ f, FSM.construct FSMParams.default = .ok f ∧ Proper FSMParams.default := by
  refine ⟨_, rfl, ?_⟩
  intro _ h
  cases h

/-- **C22.** The support foot is defined for single supports only, and is the foot they are named after. -/
theorem C22_support_foot (t : StanceType) :
    (determineSupportFoot t = .ok .left ↔ t = .lss) ∧ (determineSupportFoot t = .ok .right ↔ t = .rss) ∧
    (determineSupportFoot t = .error .thrown ↔ ¬ IsSingle t) := by
  cases t <;> simp [determineSupportFoot, IsSingle]

/-- The durations of the stances are those of the parameters: the first one lasts `first_stance_duration_ms`, all
others the duration of their type. -/
theorem C22_durations {c : Stance} {p : FSMParams} {f : FSM} {s : ℕ → FSM} (h : FSM.finalize c p = .ok f)
    (hp : Proper p) (hs : Run f s) :
    (s 0).cur.duration = p.firstMs ∧
    ∀ k, ((s (k + 1)).cur.type = .tds → (s (k + 1)).cur.duration = p.tdsMs) ∧
      (IsSingle (s (k + 1)).cur.type → (s (k + 1)).cur.duration = p.ssMs) ∧
      ((s (k + 1)).cur.type = .ds → (s (k + 1)).cur.duration = p.lastMs) := by
  obtain ⟨side, h1, h2, -⟩ := finalize_inv h hp
  obtain ⟨hr, hI⟩ := states_run h1 h2
  rw [run_unique hs hr]
  refine ⟨by rw [(hI 0).duration]; rfl, fun k => ?_⟩
  have hd := (hI (k + 1)).duration
  rw [if_neg (by omega)] at hd
  refine ⟨fun ht => by rw [hd, ht]; rfl, fun ht => ?_, fun ht => by rw [hd, ht]; rfl⟩
  rcases ht with ht | ht <;> rw [hd, ht] <;> rfl

/-- Marks of the stances: the initial stance is the only FIRST one. A stance is LAST exactly if it is the first
terminal double support which is entered from a transitional support; the terminal stances after it are marked
INTERMEDIATE again. -/
theorem C22_marks {c : Stance} {p : FSMParams} {f : FSM} {s : ℕ → FSM} (h : FSM.finalize c p = .ok f)
    (hp : Proper p) (hs : Run f s) :
    (∀ k, (s k).cur.subtype = .first ↔ k = 0) ∧
    ∀ k, (s (k + 1)).cur.subtype = .last ↔ ((s k).cur.type = .tds ∧ (s (k + 1)).cur.type = .ds) := by
  obtain ⟨side, h1, h2, -⟩ := finalize_inv h hp
  obtain ⟨hr, hI⟩ := states_run h1 h2
  rw [run_unique hs hr]
  refine ⟨fun k => ?_, fun k => ?_⟩
  · rw [(hI k).sub]
    unfold walkSub
    split
    · simp [*]
    · split
      · simp [*]
      · split <;> simp [*]
  · rw [(hI (k + 1)).sub, (hI k).type, (hI (k + 1)).type]
    have hne : k + 1 ≠ 0 := by omega
    by_cases hz : p.firstStance = .ds ∧ p.numSteps = 0
    · simp only [walkSub, walkType, if_pos hz, if_neg hne]
      constructor
      · intro h3; cases h3
      · rintro ⟨h3, -⟩
        split at h3
        · rw [hz.1] at h3; cases h3
        · cases h3
    · have hz' : p.numSteps ≠ 0 ∨ p.firstStance ≠ .ds := by
        by_cases hn : p.numSteps = 0
        · exact Or.inr fun hd => hz ⟨hd, hn⟩
        · exact Or.inl hn
      have hside := h1.side hz'
      have hnt : ∀ j, sideAt side j ≠ .tds ∧ sideAt side j ≠ .ds := fun j => by
        rcases sideAt_single hside j with h3 | h3 <;> rw [h3] <;> decide
      simp only [walkSub, walkType, if_neg hz, if_neg hne]
      constructor
      · intro h3
        split at h3
        · rename_i h4
          rw [if_neg (by omega), if_neg (by omega), if_pos (by omega), if_pos (by omega)]
          exact ⟨rfl, rfl⟩
        · cases h3
      · rintro ⟨h3, h4⟩
        by_cases h5 : 2 * p.numSteps + 2 ≤ k + 1
        · by_cases h6 : 2 * p.numSteps + 2 ≤ k
          · rw [if_neg (by omega), if_pos h6] at h3
            cases h3
          · rw [if_pos (by omega)]
        · rw [if_neg h5] at h4
          split at h4
          · cases h4
          · exact absurd h4 (hnt _).2

/-- Parameters with a double support first, an undefined first side and steps to do. -/
def undefinedSide : FSMParams := { FSMParams.default with firstSsType := .undefined }

/-- Against C22: these parameters are accepted, `num_steps` is set to zero by the machine, but too late: it leaves the
double support and fails with the second transition. -/
theorem C22_undefined_refuted :
    ∃ f g, FSM.construct undefinedSide = .ok f ∧ f.params.numSteps = 0 ∧ f.shiftStance = .ok g ∧
      g.cur.type = .tds ∧ g.shiftStance = .error .thrown :=
  ⟨_, _, rfl, rfl, rfl, rfl, rfl⟩

/-- Exactly these parameters are accepted: any number of steps but one; a single support first, or a double support
first with a left, right or undefined side. -/
theorem C22_accepted (c : Stance) (p : FSMParams) :
    (∃ f, FSM.finalize c p = .ok f) ↔
      p.numSteps ≠ 1 ∧ (IsSingle p.firstStance ∨
        (p.firstStance = .ds ∧ (IsSingle p.firstSsType ∨ p.firstSsType = .undefined))) := by
  have hne : (∃ f, FSM.finalize c p = .ok f) ↔ p.numSteps ≠ 1 ∧ ∃ b, FSM.beforeFirst p = .ok b := by
    unfold FSM.finalize
    by_cases hn : p.numSteps ≠ 1
    · rw [assertThat_true hn]
      constructor
      · rintro ⟨f, hf⟩
        rw [ok_bind, bind_eq_ok] at hf
        obtain ⟨b, hb, -⟩ := hf
        exact ⟨hn, b, hb⟩
      · rintro ⟨-, b, hb⟩
        rw [ok_bind, hb]
        exact ⟨_, rfl⟩
    · rw [assertThat_false hn]
      constructor
      · rintro ⟨f, hf⟩
        cases hf
      · rintro ⟨h1, -⟩
        exact absurd h1 hn
  rw [hne]
  refine and_congr_right fun _ => ?_
  unfold FSM.beforeFirst FSM.beforeDS IsSingle
  cases p.firstStance <;> simp
  cases p.firstSsType <;> simp

/-- The next stance is announced correctly. -/
theorem C22_getNextStance {f : FSM} {s : ℕ → FSM} (hs : Run f s) (k : ℕ) :
    (s k).getNextStance = .ok (s (k + 1)).cur := by
  unfold FSM.getNextStance
  rw [hs.2 k]
  rfl

/-! ## C23: the number of single supports is the requested number of steps -/

/-- C23. From an initial double support exactly `num_steps` single supports are visited in the whole walk; from an
initial single support exactly `num_steps` in addition to the initial one. All of them come before the terminal
double support: the count is reached after finitely many stances and the walk stays in double support then. -/
theorem C23_number_of_steps_partial {c : Stance} {p : FSMParams} {f : FSM} {s : ℕ → FSM}
    (h : FSM.finalize c p = .ok f) (hp : Proper p) (hs : Run f s) :
    ∃ N, (∀ k, N ≤ k → (s k).cur.type = .ds) ∧
      ∀ M, N ≤ M → singles (fun k => (s k).cur.type) M =
        p.numSteps + if IsSingle p.firstStance then 1 else 0 := by
  obtain ⟨side, h1, h2, -⟩ := finalize_inv h hp
  obtain ⟨hr, hI⟩ := states_run h1 h2
  rw [run_unique hs hr]
  have hw : (fun k => (states f k).cur.type) = walkType p.firstStance side p.numSteps := funext fun k => (hI k).type
  refine ⟨2 * p.numSteps + 2, fun k hk => (walkInv_terminal (hI k) hk).1, fun M hM => ?_⟩
  obtain ⟨m, rfl⟩ : ∃ m, M = m + 1 := ⟨M - 1, by omega⟩
  rw [hw, walkType_singles h1]
  have : min (m / 2) p.numSteps = p.numSteps := by omega
  rw [this]

/-- The steps which are left are counted exactly: visited and left ones add up to the requested number, after any
number of transitions before the terminal support. -/
theorem C23_steps_left {c : Stance} {p : FSMParams} {f : FSM} {s : ℕ → FSM} (h : FSM.finalize c p = .ok f)
    (hp : Proper p) (hs : Run f s) (k : ℕ) :
    singles (fun k => (s k).cur.type) (k + 1) + (s k).left = p.numSteps + if IsSingle p.firstStance then 1 else 0 := by
  obtain ⟨side, h1, h2, -⟩ := finalize_inv h hp
  obtain ⟨hr, hI⟩ := states_run h1 h2
  rw [run_unique hs hr]
  have hw : (fun k => (states f k).cur.type) = walkType p.firstStance side p.numSteps := funext fun k => (hI k).type
  rw [hw, walkType_singles h1, (hI k).left]
  omega

/-- Seven steps with the default parameters: number 15 is the last transitional support. -/
example : ∃ f, FSM.construct FSMParams.default = .ok f ∧ Proper FSMParams.default ∧ IsSingle (states f 14).cur.type ∧
    (states f 15).cur.type = .tds ∧ (states f 16).cur.type = .ds :=
  ⟨_, rfl, fun _ h => (by cases h), by decide, by decide, by decide⟩

/-! ## C24: the time shift is additive and conserves time -/

/-- C24. A shift by `a` followed by a shift by `b` has the same outcome as one shift by `a + b`; the second shift
returns if and only if the single one does. -/
theorem C24_additive {f g : FSM} {a b : ℕ} {r : Res FSM} (h : Returns f a (.ok g)) :
    Returns g b r ↔ Returns f (a + b) r :=
  returns_add h

/-- C24. A failed shift remains a failure when it is longer. -/
theorem C24_additive_error {f : FSM} {a b : ℕ} {e : Fault} (h : Returns f a (.error e)) :
    Returns f (a + b) (.error e) :=
  returns_add_error h

/-- C24. A call has at most one outcome. -/
theorem C24_deterministic {f : FSM} {a : ℕ} {r r' : Res FSM} (h : Returns f a r) (h' : Returns f a r') : r = r' :=
  returns_unique h h'

/-- C24. In all reachable states the time spent in the stance does not exceed its duration. -/
theorem C24_time_in_range {c : Stance} {p : FSMParams} {f : FSM} (h : StanceReachable c p f) :
    f.time ≤ f.cur.duration :=
  reachable_time h

/-- C24. Conservation of time: after a shift by `a` the machine is in stance number `k` counted from the current one,
and the durations of the completed stances plus the time spent in the new stance are the time spent in the old stance
plus `a`. The new stance is not over unless it was just entered. -/
theorem C24_conservation {c : Stance} {p : FSMParams} {f g : FSM} {a : ℕ} (hr : StanceReachable c p f)
    (h : Returns f a (.ok g)) :
    ∃ s k, RunTo f s k ∧ g.cur = (s k).cur ∧ g.left = (s k).left ∧
      f.time + a = (∑ i ∈ Finset.range k, (s i).cur.duration) + g.time ∧
      (0 < a → g.time < g.cur.duration ∨ g.time = 0) := by
  obtain ⟨s, k, h1, h2, h3, -, h4, h5⟩ := returns_conserve (reachable_time hr) h
  exact ⟨s, k, h1, h2, h3, h4, h5⟩

/-- Result of a history of shifts. -/
inductive Shifts : FSM → List ℕ → FSM → Prop
  | nil (f : FSM) : Shifts f [] f
  | cons {f g k : FSM} {a : ℕ} {l : List ℕ} : Returns f a (.ok g) → Shifts g l k → Shifts f (a :: l) k

/-- C24. Any history of shifts is equivalent to one shift by the total time. -/
theorem C24_history {f g : FSM} {l : List ℕ} (h : Shifts f l g) : Returns f l.sum (.ok g) := by
  induction h with
  | nil f => exact returns_zero.mpr rfl
  | cons h1 _ ih =>
    rw [List.sum_cons]
    exact (returns_add h1).mp ih

/-- C24. If the terminal stance has a positive duration, shifts by any time return without failure in all reachable
states. -/
theorem C24_returns_partial {c : Stance} {p : FSMParams} {f : FSM} (h : StanceReachable c p f) (hp : Proper p)
    (hl : 0 < p.lastMs) (t : ℕ) : ∃ g, Returns f t (.ok g) := by
  obtain ⟨side, k, h1, h2⟩ := reachable_inv hp h
  exact walk_returns h1 h2 hl t

/-- Against C24: if the terminal stance has zero duration, then from every reachable state there is a bound such that
a shift returns exactly if it does not exceed the bound: longer shifts never return. -/
theorem C24_returns_refuted {c : Stance} {p : FSMParams} {f : FSM} (h : StanceReachable c p f) (hp : Proper p)
    (hl : p.lastMs = 0) : ∃ A, ∀ t, (∃ r, Returns f t r) ↔ t ≤ A := by
  obtain ⟨side, k, h1, h2⟩ := reachable_inv hp h
  exact walk_returns_zero h1 h2 hl

/-- Default parameters: 1000 ms later the machine is in the first single support since 600 ms. -/
example : ∃ f g, FSM.construct FSMParams.default = .ok f ∧ Returns f 1000 (.ok g) ∧ g.cur.type = .rss ∧ g.time = 600 ∧
    g.left = 6 :=
  ⟨_, _, rfl, ⟨5, rfl⟩, rfl, rfl, rfl⟩

/-- A terminal stance of zero duration is accepted. -/
example : ∃ f, FSM.construct { FSMParams.default with lastMs := 0 } = .ok f ∧
    StanceReachable {} { FSMParams.default with lastMs := 0 } f ∧ Proper { FSMParams.default with lastMs := 0 } :=
  ⟨_, rfl, .init rfl, fun _ h => (by cases h)⟩

/-! ## C25: the preview covers the requested duration -/

/-- C25. In all reachable states a preview over a positive duration returns, and lists consecutive stances of the walk,
each with the time which remains in it: either the durations add up to the requested one, or the walk ends before, and
then the list contains all stances before the terminal one. (`previewStances` is a `const` method: it has no effect on
the machine.) Missing: zero durations, `C25_zero_refuted`; and the list does not begin with the current stance if this is
the terminal one and ends before the preview does, `C25_terminal_refuted`. -/
theorem C25_preview_partial {c : Stance} {p : FSMParams} {f : FSM} (h : StanceReachable c p f) (hp : Proper p) {d : ℕ}
    (hd : 0 < d) : ∃ l, PreviewReturns f d (.ok l) ∧ (CompletePreview f d l ∨ EndedPreview f d l) := by
  obtain ⟨side, k, h1, h2⟩ := reachable_inv hp h
  exact preview_ok h1 h2 (reachable_time h) hd

/-- C25. The durations of a complete preview add up to the requested one, those of an incomplete one to less. -/
theorem C25_sum {f : FSM} {d : ℕ} {l : List Stance} :
    (CompletePreview f d l → (l.map (·.duration)).sum = d) ∧ (EndedPreview f d l → (l.map (·.duration)).sum < d) := by
  have hs : ∀ (s : ℕ → FSM) m, (((List.range m).map (fun i => shown (s i) (remaining (s i)))).map (·.duration)).sum =
      ∑ i ∈ Finset.range m, remaining (s i) := by
    intro s m
    induction m with
    | zero => rfl
    | succ m ih =>
      rw [List.range_succ, List.map_append, List.map_append, List.sum_append, ih, Finset.sum_range_succ]
      simp [shown]
  constructor
  · rintro ⟨s, m, x, extra, -, rfl, h3, -, -, -, h6, h7⟩
    have he : (extra.map (·.duration)).sum = 0 := by
      by_cases ht : (s m).cur.type = .tds
      · obtain ⟨g, -, rfl⟩ := h7 ht
        rfl
      · rw [h6 ht]; rfl
    rw [List.map_append, List.sum_append, List.map_append, List.sum_append, hs, he]
    simpa [shown] using h3
  · rintro ⟨s, m, -, rfl, -, h4, -⟩
    rw [hs]
    omega

/-- C25. The preview begins with the current stance and what remains of it, unless that is the terminal stance. -/
theorem C25_begins_partial {f : FSM} {d : ℕ} {l : List Stance} (h : CompletePreview f d l ∨ EndedPreview f d l)
    (hT : ¬ Terminal f) : l.head? = some (shown f (min (remaining f) d)) := by
  rcases h with ⟨s, m, x, extra, h1, rfl, h3, h4, h5, -⟩ | ⟨s, m, h1, rfl, h3, h4, -⟩
  · cases m with
    | zero =>
      simp only [Finset.range_zero, Finset.sum_empty, Nat.zero_add] at h3
      rw [h1.1] at h5
      have : min (remaining f) d = x := by omega
      rw [this]
      simp [h1.1]
    | succ m =>
      rw [List.range_succ_eq_map]
      have : remaining f ≤ ∑ i ∈ Finset.range (m + 1), remaining (s i) := by
        rw [Finset.sum_range_succ', h1.1]; omega
      have : min (remaining f) d = remaining f := by omega
      rw [this]
      simp [h1.1]
  · cases m with
    | zero => rw [h1.1] at h3; exact absurd h3 hT
    | succ m =>
      rw [List.range_succ_eq_map]
      have : remaining f ≤ ∑ i ∈ Finset.range (m + 1), remaining (s i) := by
        rw [Finset.sum_range_succ', h1.1]; omega
      have : min (remaining f) d = remaining f := by omega
      rw [this]
      simp [h1.1]

/-- Against C25: a preview over zero time reads the last element of an empty vector. -/
theorem C25_zero_refuted (f : FSM) : PreviewReturns f 0 (.error .ub) := ⟨0, rfl⟩

/-- Against C25: if the current stance is the terminal one and ends before the preview does, the preview is empty. -/
theorem C25_terminal_refuted {f : FSM} {d : ℕ} (hT : Terminal f) (hd : remaining f < d) :
    PreviewReturns f d (.ok []) := by
  refine ⟨1, ?_⟩
  obtain ⟨d, rfl⟩ : ∃ k, d = k + 1 := ⟨d - 1, by omega⟩
  unfold FSM.previewStances FSM.previewLoop
  have h1 : ¬ f.time + (d + 1) ≤ f.cur.duration := by unfold remaining at hd; omega
  rw [if_neg h1, if_pos ⟨hT.2, hT.1⟩]
  rfl

/-- A preview over one second from the beginning: double support, transitional support, first single support. -/
example : ∃ f, FSM.construct FSMParams.default = .ok f ∧ StanceReachable {} FSMParams.default f ∧
    PreviewReturns f 1000 (.ok [⟨.ds, .lss, .undefined, .first, 300, 300⟩, ⟨.tds, .lss, .ds, .intermediate, 100, 100⟩,
      ⟨.rss, .lss, .ds, .intermediate, 600, 700⟩]) :=
  ⟨_, rfl, .init rfl, 5, rfl⟩

/-- A preview which ends with a transitional support: the next stance is added. -/
example : ∃ f, FSM.construct FSMParams.default = .ok f ∧
    PreviewReturns f 350 (.ok [⟨.ds, .lss, .undefined, .first, 300, 300⟩, ⟨.tds, .lss, .ds, .intermediate, 50, 100⟩,
      ⟨.rss, .lss, .ds, .intermediate, 0, 0⟩]) :=
  ⟨_, rfl, 5, rfl⟩

end Humoto
