import Verif.Lemmas.WpgPreview
import Verif.Props.Stance
import Verif.Props.WpgModel

/-!
# C51, C74: the preview horizon of the walking pattern generator
-/

namespace Humoto.Wpg

open Humoto.Spec Humoto.Spec.Wpg

/-- The states of the horizon belong to the stances. -/
def Entries (nan : ℝ) (m : Model) (w : WalkParameters) (l : List Stance) (ws : List WalkState) : Prop :=
  ∀ i s, l[i]? = some s → ∃ x, ws[i]? = some x ∧ IsEntry nan m.params w (typeAt l (i + 1)) (thetasAt w l (thetas0 m) i) s x

theorem entries_map {nan : ℝ} {m : Model} {w : WalkParameters} {l : List Stance} {ws : List WalkState} (h : Entries nan m w l ws)
    (hl : ws.length = l.length) : ws.map (·.stance) = l := by
  apply List.ext_getElem?
  intro i
  rw [List.getElem?_map]
  cases hi : l[i]? with
  | none =>
    rw [List.getElem?_eq_none (by rw [hl]; exact List.getElem?_eq_none_iff.1 hi)]
    rfl
  | some s =>
    obtain ⟨x, hx, hE⟩ := h i s hi
    rw [hx, Option.map_some, hE.stance]

theorem seconds_eq (t : ℕ) : 1000 * seconds t = t := by
  unfold seconds
  ring

theorem followsWalk_of {N T Ttds : ℕ} {height : ℝ} {l : List Stance} {ws : List WalkState} {y : FormState}
    (hF : Filled N T Ttds height ws y) (hN : N ≤ y.index) (hws : ws.map (·.stance) = l) (hne : l ≠ []) :
    FollowsWalk N T Ttds height l ⟨y.steps, y.intervals, ws⟩ := by
  have hget : ∀ (i : ℕ) (s : WalkState), ws[i]? = some s → l[i]? = some s.stance := by
    intro i s hs
    rw [← hws, List.getElem?_map, hs]
    rfl
  obtain ⟨s0, hs0⟩ : ∃ s, ws[0]? = some s := by
    match ws, hws with
    | [], h => exact absurd h.symm hne
    | s :: _, _ => exact ⟨s, rfl⟩
  have hl0 := hget 0 s0 hs0
  have hfs : firstSupport l = if s0.stance.type = .tds then 1 else 0 := by
    match l, hl0 with
    | a :: _, h =>
      simp at h
      simp [firstSupport, h]
  have hfd : firstDuration T l =
      if s0.stance.type = .tds then s0.stance.duration else if s0.stance.duration % T = 0 then T else s0.stance.duration % T := by
    match l, hl0 with
    | a :: _, h =>
      simp at h
      simp [firstDuration, h]
  exact {
    size := hF.size
    stances := hws
    supports := fun i hi => by
      obtain ⟨s, hs, ht⟩ := hF.state i hi (by omega)
      exact ⟨s.stance, hget _ s hs, ht⟩
    first := by rw [hfs]; exact hF.first s0 hs0
    next := fun i hi => hF.next i hi (by omega)
    sorted := hF.sorted
    range := fun k hk => ⟨(hF.bounds k hk).1, (hF.bounds k hk).2.1⟩
    steps := fun j k hk => by
      have := hF.steps_eq s0 hs0 j k hk
      rw [this, supply_eq, List.map_take, hws, hfs]
      congr 2
      split <;> rfl
    allSteps := fun j hj => by
      show j < y.steps.length
      by_contra hc
      have hidx := hF.index_eq
      have hcount := hF.count s0 hs0
      have hw : y.walk ≤ 2 * j + firstSupport l + 1 := by
        rw [hfs, hcount]
        split <;> omega
      have hge : supply T (ws.take y.walk) ≤ supply T (ws.take (2 * j + firstSupport l + 1)) := by
        obtain ⟨s1, tl, hws1⟩ : ∃ s1 tl, ws = s1 :: tl := by
          match ws, hs0 with
          | a :: b, _ => exact ⟨a, b, rfl⟩
        have hs1 : s1 = s0 := by rw [hws1] at hs0; simpa using hs0
        obtain ⟨e, he⟩ : ∃ e, 2 * j + firstSupport l + 1 = y.walk + e :=
          ⟨2 * j + firstSupport l + 1 - y.walk, by omega⟩
        rw [he, List.take_add]
        by_cases hlen : y.walk ≤ ws.length
        · obtain ⟨t, ht⟩ : ∃ t, ws.take y.walk = s1 :: t := by
            obtain ⟨a, ha⟩ : ∃ a, y.walk = a + 1 := ⟨y.walk - 1, by have := hF.walk_pos; omega⟩
            rw [hws1, ha]
            exact ⟨_, rfl⟩
          rw [ht, supply_append]
          · omega
          · rw [← ht, List.length_take, Nat.min_eq_left hlen, hcount, hs1]
            split <;> omega
        · rw [List.drop_eq_nil_of_le (by omega)]
          simp
      rw [supply_eq T (ws.take (2 * j + _ + 1)), List.map_take, hws] at hge
      omega
    firstTime := by rw [hfd]; exact hF.current s0 hs0
    nextTimes := fun i hi h0 => hF.later i hi (by omega) h0
    seconds := fun i hi => by
      show 1000 * (y.intervals.e i).T = _
      rw [(hF.data i hi (by omega)).1, seconds_eq]
    height := fun i hi => ⟨(hF.data i hi (by omega)).2.1, (hF.data i hi (by omega)).2.2.1⟩
    velocity := fun i hi => (hF.data i hi (by omega)).2.2.2 }

/-- Outcome for a complete preview. -/
theorem formWith_complete {p : FSMParams} {side : StanceType} {n k : ℕ} {f : FSM} (hp : WalkOk p side n)
    (h : WalkInv p side n k f) {q : MPCParameters} {l : List Stance}
    (hl : CompletePreview f (q.preview_horizon_length * q.sampling_time_ms) l) (hr : ¬ Reentered f) (hf : f.time < f.cur.duration)
    (hN : q.preview_horizon_length < 2 ^ 63) (nan : ℝ) (junk : ℕ → Interval) (old : Horizon) (m : Model) (w : WalkParameters) :
    (q.preview_horizon_length ≤ capacity q.sampling_time_ms l →
      ∃ H, formWith nan junk old q m w l = .ok (true, H) ∧ Entries nan m w l H.walk_states ∧
        FollowsWalk q.preview_horizon_length q.sampling_time_ms q.tds_sampling_time_ms m.getCoMHeight l H ∧
        (Aligned q.sampling_time_ms q.tds_sampling_time_ms H.walk_states → ∀ k ∈ H.variable_steps,
          ∑ i ∈ Finset.range k, (H.intervals.e i).T_ms = durationOf H.walk_states ((H.intervals.e k).state_index - 1))) ∧
    (¬ q.preview_horizon_length ≤ capacity q.sampling_time_ms l → formWith nan junk old q m w l = .error .thrown) := by
  have hsum := (C25_sum (f := f)).1 hl
  obtain ⟨hacc, ⟨sl, hsl, -⟩, -⟩ := complete_accepted hp h hl hr
  obtain ⟨-, -, -, -, -, -, -, hfirst, -⟩ := complete_shows hp h hl
  -- both parameters are positive
  have hd : 0 < q.preview_horizon_length * q.sampling_time_ms := by
    obtain ⟨s, m, x, extra, -, -, h3, h4, -⟩ := hl
    omega
  have hN0 : 0 < q.preview_horizon_length := Nat.pos_of_mul_pos_right hd
  have hT0 : 0 < q.sampling_time_ms := Nat.pos_of_mul_pos_left hd
  have hne : l ≠ [] := by
    rintro rfl
    simp at hsl
  rcases previewStates_total nan m w l with ⟨ws, hw, hlen, hE⟩ | ⟨-, i, s, hs, hb⟩
  swap
  · exact absurd (hacc i s hs).1 hb
  have hmap := entries_map hE hlen
  have hwne : ws.isEmpty = false := by
    cases ws with
    | nil => simp at hlen; exact absurd (List.eq_nil_of_length_eq_zero hlen.symm) hne
    | cons => rfl
  have hget : ∀ (i : ℕ) (s : WalkState), ws[i]? = some s → l[i]? = some s.stance := by
    intro i s hs
    rw [← hmap, List.getElem?_map, hs]
    rfl
  obtain ⟨s0, hs0⟩ : ∃ s, ws[0]? = some s := by
    cases ws with
    | nil => simp at hwne
    | cons s _ => exact ⟨s, rfl⟩
  have hb : ∀ s ∈ ws, q.preview_horizon_length + 1 + s.stance.duration / q.sampling_time_ms < 2 ^ 64 := by
    intro s hs
    refine div_lt_bound hT0 ?_ hN
    rw [← hsum, ← hmap, List.map_map]
    exact List.single_le_sum (by simp) _ (List.mem_map.2 ⟨s, hs, rfl⟩)
  have hd0 : 0 < s0.stance.duration := by
    rw [hfirst _ (hget 0 s0 hs0)]
    unfold remaining
    omega
  have halt : Alternating ws := alternating_of_parity (k := k) fun i s hs => (hacc i s.stance (hget i s hs)).2
  have htot := formLoop_total (N := q.preview_horizon_length) (T := q.sampling_time_ms) (Ttds := q.tds_sampling_time_ms)
    (height := m.getCoMHeight) (v0 := resize junk old.intervals q.preview_horizon_length) hT0 hN0 rfl hb hs0 hd0 halt
  rw [supply_eq, hmap] at htot
  have hform : formWith nan junk old q m w l = (do
      let y ← formLoop q.preview_horizon_length q.sampling_time_ms q.tds_sampling_time_ms m.getCoMHeight ws
        ⟨resize junk old.intervals q.preview_horizon_length, [], 0, 0⟩
      pure (true, ⟨y.steps, y.intervals, ws⟩)) := by
    unfold formWith
    rw [hw, ok_bind, hwne]
    rfl
  rw [hform]
  constructor
  · intro hc
    obtain ⟨y, hy, hF, hidx⟩ := htot.1 hc
    rw [hy, ok_bind]
    exact ⟨_, rfl, hE, followsWalk_of hF hidx hmap hne, hF.starts⟩
  · intro hc
    rw [htot.2 hc]
    rfl

/-- Outcomes of forming the horizon, for every reachable state of the stance machine. -/
theorem form_outcomes {c : Stance} {p : FSMParams} {f : FSM} (h : StanceReachable c p f) (hp : Proper p)
    (hf : f.time < f.cur.duration) {q : MPCParameters} (hN : q.preview_horizon_length < 2 ^ 63)
    (hd : 0 < q.preview_horizon_length * q.sampling_time_ms) (nan : ℝ) (junk : ℕ → Interval) (old : Horizon) (m : Model)
    (w : WalkParameters) :
    ∃ l, PreviewReturns f (q.preview_horizon_length * q.sampling_time_ms) (.ok l) ∧
      ((CompletePreview f (q.preview_horizon_length * q.sampling_time_ms) l ∧
          (Reentered f → formWith nan junk old q m w l = .error .thrown) ∧
          (¬ Reentered f → ¬ q.preview_horizon_length ≤ capacity q.sampling_time_ms l →
            formWith nan junk old q m w l = .error .thrown) ∧
          (¬ Reentered f → q.preview_horizon_length ≤ capacity q.sampling_time_ms l →
            ∃ H, formWith nan junk old q m w l = .ok (true, H) ∧ Entries nan m w l H.walk_states ∧
              FollowsWalk q.preview_horizon_length q.sampling_time_ms q.tds_sampling_time_ms m.getCoMHeight l H ∧
              (Aligned q.sampling_time_ms q.tds_sampling_time_ms H.walk_states → ∀ k ∈ H.variable_steps,
                ∑ i ∈ Finset.range k, (H.intervals.e i).T_ms = durationOf H.walk_states ((H.intervals.e k).state_index - 1)))) ∨
        (EndedPreview f (q.preview_horizon_length * q.sampling_time_ms) l ∧
          (Terminal f → formWith nan junk old q m w l = .ok (false, { old with walk_states := [] })) ∧
          (¬ Terminal f → formWith nan junk old q m w l = .error .thrown))) := by
  obtain ⟨side, k, h1, h2⟩ := reachable_inv hp h
  obtain ⟨l, hl, hlc⟩ := preview_ok h1 h2 (reachable_time h) hd
  refine ⟨l, hl, ?_⟩
  have herr : (∃ i s, l[i]? = some s ∧ ¬ EntryOk l i s) → formWith nan junk old q m w l = .error .thrown := by
    rintro ⟨i, s, hs, hb⟩
    unfold formWith
    rw [previewStates_error hs hb]
    rfl
  rcases hlc with hc | he
  · left
    refine ⟨hc, fun hr => herr (reentered_refused hc hr), fun hr hcap => ?_, fun hr hcap => ?_⟩
    · exact (formWith_complete h1 h2 hc hr hf hN nan junk old m w).2 hcap
    · exact (formWith_complete h1 h2 hc hr hf hN nan junk old m w).1 hcap
  · right
    refine ⟨he, fun hT => ?_, fun hT => herr (ended_refused h1 h2 he hT)⟩
    have := (ended_shows h1 h2 he).2.2.2.2.2 hT
    subst this
    rfl

/-- Without a horizon in time, there is nothing to preview. -/
theorem form_zero {nan : ℝ} {junk : ℕ → Interval} {old : Horizon} {q : MPCParameters} {m : Model} {f : FSM} {w : WalkParameters}
    {r : Res (Bool × Horizon)} (hd : q.preview_horizon_length * q.sampling_time_ms = 0) (h : FormReturns nan junk old q m f w r) :
    r = .error .ub := by
  obtain ⟨fuel, h⟩ := h
  unfold form FSM.previewStances at h
  rw [hd] at h
  cases fuel <;>
  · have := Option.some.inj h
    exact this.symm

/-! ## C51 -/

/-- C51. When forming the horizon succeeds, all intervals are assigned to supports in the order of the previewed walk, the
stances cover the horizon, and the durations are those of the parameters. -/
theorem C51_horizon {c : Stance} {p : FSMParams} {f : FSM} (h : StanceReachable c p f) (hp : Proper p)
    (hf : f.time < f.cur.duration) {q : MPCParameters} (hN : q.preview_horizon_length < 2 ^ 63) {nan : ℝ} {junk : ℕ → Interval}
    {old H : Horizon} {m : Model} {w : WalkParameters} (hr : FormReturns nan junk old q m f w (.ok (true, H))) :
    ∃ l, PreviewReturns f (q.preview_horizon_length * q.sampling_time_ms) (.ok l) ∧
      CompletePreview f (q.preview_horizon_length * q.sampling_time_ms) l ∧
      FollowsWalk q.preview_horizon_length q.sampling_time_ms q.tds_sampling_time_ms m.getCoMHeight l H := by
  by_cases hd : 0 < q.preview_horizon_length * q.sampling_time_ms
  · obtain ⟨l, hl, hcase⟩ := form_outcomes h hp hf hN hd nan junk old m w
    have he := (form_of_preview hl _).1 hr
    refine ⟨l, hl, ?_⟩
    rcases hcase with ⟨hc, ha, hb, hcc⟩ | ⟨-, ha, hb⟩
    · by_cases hre : Reentered f
      · rw [ha hre] at he; cases he
      · by_cases hcap : q.preview_horizon_length ≤ capacity q.sampling_time_ms l
        · obtain ⟨H', hH, -, hF, -⟩ := hcc hre hcap
          rw [hH] at he
          cases he
          exact ⟨hc, hF⟩
        · rw [hb hre hcap] at he; cases he
    · by_cases hT : Terminal f
      · rw [ha hT] at he; cases he
      · rw [hb hT] at he; cases he
  · have := form_zero (by omega) hr
    cases this

/-- C51. All durations are positive when the sampling time of transitions is. -/
theorem C51_positive {c : Stance} {p : FSMParams} {f : FSM} (h : StanceReachable c p f) (hp : Proper p)
    (hf : f.time < f.cur.duration) {q : MPCParameters} (hN : q.preview_horizon_length < 2 ^ 63) (hq : 0 < q.tds_sampling_time_ms)
    {nan : ℝ} {junk : ℕ → Interval} {old H : Horizon} {m : Model} {w : WalkParameters}
    (hr : FormReturns nan junk old q m f w (.ok (true, H))) :
    ∀ i < q.preview_horizon_length, 0 < (H.intervals.e i).T_ms ∧ 0 < (H.intervals.e i).T := by
  obtain ⟨l, hl, hc, hF⟩ := C51_horizon h hp hf hN hr
  have hd : 0 < q.preview_horizon_length * q.sampling_time_ms := by
    obtain ⟨s, m, x, extra, -, -, h3, h4, -⟩ := hc
    omega
  have hT0 : 0 < q.sampling_time_ms := Nat.pos_of_mul_pos_left hd
  have hms : ∀ i < q.preview_horizon_length, 0 < (H.intervals.e i).T_ms := by
    intro i hi
    by_cases h0 : i = 0
    · subst h0
      rw [hF.firstTime]
      have hb := C25_begins_partial (Or.inl hc)
      obtain ⟨side, k, h1, h2⟩ := reachable_inv hp h
      obtain ⟨-, m', -, -, -, -, -, hfirst, -⟩ := complete_shows h1 h2 hc
      match l, hfirst with
      | [], _ =>
        have := (C25_sum (f := f)).1 hc
        simp at this
        omega
      | s :: rest, hfirst =>
        have := hfirst s rfl
        unfold remaining at this
        unfold firstDuration
        simp only
        split
        · omega
        · split <;> omega
    · rw [hF.nextTimes i hi (by omega)]
      split <;> omega
  intro i hi
  refine ⟨hms i hi, ?_⟩
  have := hF.seconds i hi
  have h1 : (0 : ℝ) < ((H.intervals.e i).T_ms : ℝ) := by exact_mod_cast hms i hi
  linarith

/-- C51, for walks whose stances fit the sampling times: each step begins when the previewed transition begins, i.e. after the
stances which precede it. -/
theorem C51_starts_partial {c : Stance} {p : FSMParams} {f : FSM} (h : StanceReachable c p f) (hp : Proper p)
    (hf : f.time < f.cur.duration) {q : MPCParameters} (hN : q.preview_horizon_length < 2 ^ 63)
    (hss : q.sampling_time_ms ∣ p.ssMs) (htds : q.tds_sampling_time_ms = p.tdsMs) {nan : ℝ} {junk : ℕ → Interval}
    {old H : Horizon} {m : Model} {w : WalkParameters} (hr : FormReturns nan junk old q m f w (.ok (true, H))) :
    ∃ l, PreviewReturns f (q.preview_horizon_length * q.sampling_time_ms) (.ok l) ∧
      ∀ k ∈ H.variable_steps, ∃ s, l[(H.intervals.e k).state_index - 1]? = some s ∧ s.type = .tds ∧
        ∑ i ∈ Finset.range k, (H.intervals.e i).T_ms = ((l.take ((H.intervals.e k).state_index - 1)).map (·.duration)).sum := by
  obtain ⟨l, hl, hc, hF⟩ := C51_horizon h hp hf hN hr
  refine ⟨l, hl, fun k hk => ?_⟩
  have hd : 0 < q.preview_horizon_length * q.sampling_time_ms := by
    obtain ⟨s, m, x, extra, -, -, h3, h4, -⟩ := hc
    omega
  obtain ⟨side, n, h1, h2⟩ := reachable_inv hp h
  obtain ⟨l', hl', hcase⟩ := form_outcomes h hp hf hN hd nan junk old m w
  have hll := preview_unique hl hl'
  cases hll
  have he := (form_of_preview hl' _).1 hr
  rcases hcase with ⟨-, ha, hb, hcc⟩ | ⟨-, ha, hb⟩
  · have hre : ¬ Reentered f := fun hre => by rw [ha hre] at he; cases he
    have hcap : q.preview_horizon_length ≤ capacity q.sampling_time_ms l := by
      by_contra hcap
      rw [hb hre hcap] at he
      cases he
    obtain ⟨H', hH, -, -, hst⟩ := hcc hre hcap
    rw [hH] at he
    cases he
    obtain ⟨hacc, -, hdurs, -⟩ := complete_accepted h1 h2 hc hre
    have hget : ∀ (i : ℕ) (s : WalkState), H.walk_states[i]? = some s → l[i]? = some s.stance := by
      intro i s hs
      rw [← hF.stances, List.getElem?_map, hs]
      rfl
    have hlen : H.walk_states.length = l.length := by rw [← hF.stances, List.length_map]
    have hal : Aligned q.sampling_time_ms q.tds_sampling_time_ms H.walk_states := by
      intro j s hj hs
      obtain ⟨d1, d2⟩ := hdurs j s.stance (hget j s hs) hj
      rw [hlen]
      exact ⟨fun e1 e2 => by rw [d1 e1 e2, htds], fun e1 e2 => by rw [d2 e1 e2]; exact hss⟩
    have hsum := hst hal k hk
    have hk0 := hF.range k hk
    obtain ⟨s, hs, hty⟩ := hF.supports k hk0.2
    -- the index of a step is at least two
    have hidx : 2 ≤ (H.intervals.e k).state_index := by
      have := hF.next (k - 1) (by omega)
      rw [show k - 1 + 1 = k by omega, if_pos hk] at this
      omega
    obtain ⟨t, ht⟩ : ∃ t, l[(H.intervals.e k).state_index - 1]? = some t :=
      ⟨_, List.getElem?_eq_getElem (by have := (List.getElem?_eq_some_iff.1 hs).1; omega)⟩
    refine ⟨t, ht, ?_, ?_⟩
    · have a1 := (hacc _ s hs).2
      have a2 := (hacc _ t ht).2
      rw [a2]
      have : ¬ (n + (H.intervals.e k).state_index) % 2 = 1 := fun e => hty (a1.2 e)
      omega
    · rw [hsum, ← hF.stances]
      unfold durationOf
      rw [← List.map_take, List.map_map]
      rfl
  · by_cases hT : Terminal f
    · rw [ha hT] at he; cases he
    · rw [hb hT] at he; cases he

/-- C51. The horizon is formed exactly when the stances cover it, the machine has not gone past the end of the walk, and the
stances provide enough intervals. When the walk is over it is reported, in all other cases an exception is thrown. -/
theorem C51_outcome {c : Stance} {p : FSMParams} {f : FSM} (h : StanceReachable c p f) (hp : Proper p)
    (hf : f.time < f.cur.duration) {q : MPCParameters} (hN : q.preview_horizon_length < 2 ^ 63)
    (hd : 0 < q.preview_horizon_length * q.sampling_time_ms) (nan : ℝ) (junk : ℕ → Interval) (old : Horizon) (m : Model)
    (w : WalkParameters) :
    ∃ l, PreviewReturns f (q.preview_horizon_length * q.sampling_time_ms) (.ok l) ∧
      ((∃ H, FormReturns nan junk old q m f w (.ok (true, H))) ↔
        CompletePreview f (q.preview_horizon_length * q.sampling_time_ms) l ∧ ¬ Reentered f ∧
        q.preview_horizon_length ≤ capacity q.sampling_time_ms l) ∧
      ((∃ H, FormReturns nan junk old q m f w (.ok (false, H))) ↔
        EndedPreview f (q.preview_horizon_length * q.sampling_time_ms) l ∧ Terminal f) ∧
      ((¬ ∃ b H, FormReturns nan junk old q m f w (.ok (b, H))) → FormReturns nan junk old q m f w (.error .thrown)) := by
  obtain ⟨l, hl, hcase⟩ := form_outcomes h hp hf hN hd nan junk old m w
  have hsum := @C25_sum f (q.preview_horizon_length * q.sampling_time_ms) l
  refine ⟨l, hl, ?_⟩
  simp only [form_of_preview hl]
  rcases hcase with ⟨hc, ha, hb, hcc⟩ | ⟨hE, ha, hb⟩
  · have hnE : ¬ EndedPreview f (q.preview_horizon_length * q.sampling_time_ms) l := fun hE => by
      have := hsum.1 hc
      have := hsum.2 hE
      omega
    by_cases hre : Reentered f
    · rw [ha hre]
      exact ⟨⟨(by rintro ⟨H, e⟩; cases e), fun e => absurd hre e.2.1⟩,
        ⟨(by rintro ⟨H, e⟩; cases e), fun e => absurd e.1 hnE⟩, fun _ => rfl⟩
    · by_cases hcap : q.preview_horizon_length ≤ capacity q.sampling_time_ms l
      · obtain ⟨H', hH, -⟩ := hcc hre hcap
        rw [hH]
        exact ⟨⟨fun _ => ⟨hc, hre, hcap⟩, fun _ => ⟨H', rfl⟩⟩, ⟨(by rintro ⟨H, e⟩; cases e), fun e => absurd e.1 hnE⟩,
          fun e => absurd ⟨true, H', rfl⟩ e⟩
      · rw [hb hre hcap]
        exact ⟨⟨(by rintro ⟨H, e⟩; cases e), fun e => absurd e.2.2 hcap⟩,
          ⟨(by rintro ⟨H, e⟩; cases e), fun e => absurd e.1 hnE⟩, fun _ => rfl⟩
  · have hnc : ¬ CompletePreview f (q.preview_horizon_length * q.sampling_time_ms) l := fun hc => by
      have := hsum.1 hc
      have := hsum.2 hE
      omega
    by_cases hT : Terminal f
    · rw [ha hT]
      exact ⟨⟨(by rintro ⟨H, e⟩; cases e), fun e => absurd e.1 hnc⟩, ⟨fun _ => ⟨hE, hT⟩, fun _ => ⟨_, rfl⟩⟩,
        fun e => absurd ⟨false, _, rfl⟩ e⟩
    · rw [hb hT]
      exact ⟨⟨(by rintro ⟨H, e⟩; cases e), fun e => absurd e.1 hnc⟩, ⟨(by rintro ⟨H, e⟩; cases e), fun e => absurd e.2 hT⟩,
        fun _ => rfl⟩

/-- C51. If single supports consist of complete sampling times and transitions are not longer than a sampling time, the horizon is
formed whenever the walk covers it. -/
theorem C51_success_partial {c : Stance} {p : FSMParams} {f : FSM} (h : StanceReachable c p f) (hp : Proper p)
    (hf : f.time < f.cur.duration) {q : MPCParameters} (hN : q.preview_horizon_length < 2 ^ 63)
    (hss : q.sampling_time_ms ∣ p.ssMs) (htds : p.tdsMs ≤ q.sampling_time_ms) (hre : ¬ Reentered f) {l : List Stance}
    (hl : PreviewReturns f (q.preview_horizon_length * q.sampling_time_ms) (.ok l))
    (hc : CompletePreview f (q.preview_horizon_length * q.sampling_time_ms) l) (nan : ℝ) (junk : ℕ → Interval) (old : Horizon)
    (m : Model) (w : WalkParameters) : ∃ H, FormReturns nan junk old q m f w (.ok (true, H)) := by
  have hd : 0 < q.preview_horizon_length * q.sampling_time_ms := by
    obtain ⟨s, m, x, extra, -, -, h3, h4, -⟩ := hc
    omega
  obtain ⟨l', hl', ho, -⟩ := C51_outcome h hp hf hN hd nan junk old m w
  cases preview_unique hl hl'
  refine ho.2 ⟨hc, hre, ?_⟩
  obtain ⟨side, k, h1, h2⟩ := reachable_inv hp h
  obtain ⟨hacc, hlast, hdurs, htd, -⟩ := complete_accepted h1 h2 hc hre
  refine capacity_bound (k := k) (Nat.pos_of_mul_pos_left hd) (fun i s hs => (hacc i s hs).2) hlast ?_ ?_ ((C25_sum (f := f)).1 hc)
  · exact fun i s hs ht => (htd i s hs ht).trans htds
  · intro i s hs hi ht hi'
    rw [(hdurs i s hs hi).2 ht hi']
    exact hss

/-- A walk which begins on the left foot and ends with a double support of half a second. -/
def shortWalk : FSMParams := ⟨.lss, .undefined, .ds, 700, 100, 300, 500, 0⟩

/-- The preview is complete iff its durations add up. -/
theorem complete_of_sum {c : Stance} {p : FSMParams} {f : FSM} (h : StanceReachable c p f) (hp : Proper p) {d : ℕ} (hd : 0 < d)
    {l : List Stance} (hl : PreviewReturns f d (.ok l)) :
    ((l.map (·.duration)).sum = d → CompletePreview f d l) ∧ ((l.map (·.duration)).sum ≠ d → EndedPreview f d l) := by
  obtain ⟨l', hl', hc⟩ := C25_preview_partial h hp hd
  cases preview_unique hl hl'
  rcases hc with hc | hc
  · exact ⟨fun _ => hc, fun e => absurd ((C25_sum (f := f)).1 hc) e⟩
  · have := (C25_sum (f := f)).2 hc
    exact ⟨fun e => by omega, fun _ => hc⟩

theorem default_proper : Proper FSMParams.default := fun _ h => absurd h (by decide)

theorem short_proper : Proper shortWalk := fun h => absurd h (by decide)

/-- Outcome at the beginning of a walk, when the preview is known. -/
theorem outcome_at {p : FSMParams} {f : FSM} {N T sub Ttds : ℕ} {q : MPCParameters} {l : List Stance} (hf : FSM.construct p = .ok f)
    (hq : MPCParameters.make N T sub Ttds = .ok q) (hp : Proper p) (ht : f.time < f.cur.duration) (hN : N < 2 ^ 63)
    (hd : 0 < N * T) {fuel : ℕ} (hl : FSM.previewStances fuel f (N * T) = some (.ok l)) (hr : f.cur.subtype ≠ .intermediate)
    (nan : ℝ) (junk : ℕ → Interval) (old : Horizon) (m : Model) (w : WalkParameters) :
    ((l.map (·.duration)).sum = N * T → N ≤ capacity T l →
      ∃ H, FormReturns nan junk old q m f w (.ok (true, H)) ∧ FollowsWalk N T Ttds m.getCoMHeight l H) ∧
    ((l.map (·.duration)).sum = N * T → ¬ N ≤ capacity T l → FormReturns nan junk old q m f w (.error .thrown)) ∧
    ((l.map (·.duration)).sum ≠ N * T → ¬ (f.cur.type = .ds ∧ f.left = 0) → FormReturns nan junk old q m f w (.error .thrown)) := by
  obtain ⟨e1, e2, -, e3, -⟩ := C55_derived hq
  have hreach : StanceReachable {} p f := .init hf
  subst e1 e2 e3
  have hl' : PreviewReturns f _ (.ok l) := ⟨fuel, hl⟩
  obtain ⟨l', hl'', h1, h2, h3⟩ := C51_outcome hreach hp ht hN hd nan junk old m w
  cases preview_unique hl' hl''
  obtain ⟨c1, c2⟩ := complete_of_sum hreach hp hd hl'
  have hre : ¬ Reentered f := fun e => hr e.2
  refine ⟨fun hs hc => ?_, fun hs hc => ?_, fun hs hc => ?_⟩
  · obtain ⟨H, hH⟩ := h1.2 ⟨c1 hs, hre, hc⟩
    obtain ⟨l', hl'', -, hF⟩ := C51_horizon hreach hp ht hN hH
    cases preview_unique hl' hl''
    exact ⟨H, hH, hF⟩
  · refine h3 ?_
    rintro ⟨b, H, hH⟩
    cases b with
    | true => exact hc (h1.1 ⟨H, hH⟩).2.2
    | false =>
      have := (C25_sum (f := f)).2 (h2.1 ⟨H, hH⟩).1
      omega
  · refine h3 ?_
    rintro ⟨b, H, hH⟩
    cases b with
    | true =>
      exact hs ((C25_sum (f := f)).1 (h1.1 ⟨H, hH⟩).1)
    | false => exact hc (h2.1 ⟨H, hH⟩).2

/-- The default walk and the default parameters meet the conditions of the theorems. -/
example (nan : ℝ) (junk : ℕ → Interval) (old : Horizon) (m : Model) (w : WalkParameters) :
    ∃ f q H l, FSM.construct FSMParams.default = .ok f ∧ MPCParameters.make 16 100 100 100 = .ok q ∧
      FormReturns nan junk old q m f w (.ok (true, H)) ∧ FollowsWalk 16 100 100 m.getCoMHeight l H ∧
      l.map (·.type) = [.ds, .tds, .rss, .tds, .lss] ∧ 2 ≤ H.variable_steps.length := by
  obtain ⟨H, h1, h2⟩ := (outcome_at (p := FSMParams.default) (N := 16) (T := 100) (sub := 100) (Ttds := 100) (fuel := 10) rfl rfl
    default_proper (by decide) (by decide) (by decide) rfl (by decide) nan junk old m w).1 (by decide) (by decide)
  exact ⟨_, _, H, _, rfl, rfl, h1, h2, rfl, h2.allSteps 1 (by decide)⟩

/-- Against C51: if the horizon reaches beyond the end of the walk while the robot is still walking, forming the horizon throws
instead of reporting the end of the walk. -/
theorem C51_end_refuted (nan : ℝ) (junk : ℕ → Interval) (old : Horizon) (m : Model) (w : WalkParameters) :
    ∃ f q, FSM.construct shortWalk = .ok f ∧ MPCParameters.make 16 100 100 100 = .ok q ∧ ¬ Terminal f ∧
      FormReturns nan junk old q m f w (.error .thrown) :=
  ⟨_, _, rfl, rfl, (by rintro ⟨h, -⟩; cases h), (outcome_at (p := shortWalk) (N := 16) (T := 100) (sub := 100) (Ttds := 100)
    (fuel := 10) rfl rfl short_proper (by decide) (by decide) (by decide) rfl (by decide) nan junk old m w).2.2 (by decide)
    (by decide)⟩

/-- Against C51: in general. -/
theorem C51_end_throws {c : Stance} {p : FSMParams} {f : FSM} (h : StanceReachable c p f) (hp : Proper p)
    (hf : f.time < f.cur.duration) {q : MPCParameters} (hN : q.preview_horizon_length < 2 ^ 63)
    (hd : 0 < q.preview_horizon_length * q.sampling_time_ms) {l : List Stance}
    (hl : EndedPreview f (q.preview_horizon_length * q.sampling_time_ms) l) (hT : ¬ Terminal f)
    (hr : PreviewReturns f (q.preview_horizon_length * q.sampling_time_ms) (.ok l)) (nan : ℝ) (junk : ℕ → Interval)
    (old : Horizon) (m : Model) (w : WalkParameters) : FormReturns nan junk old q m f w (.error .thrown) := by
  obtain ⟨l', hl', h1, h2, h3⟩ := C51_outcome h hp hf hN hd nan junk old m w
  cases preview_unique hr hl'
  refine h3 ?_
  rintro ⟨b, H, hH⟩
  cases b with
  | true =>
    have a := (C25_sum (f := f)).1 (h1.1 ⟨H, hH⟩).1
    have b := (C25_sum (f := f)).2 hl
    omega
  | false => exact hT (h2.1 ⟨H, hH⟩).2

/-- Against C51: transitions longer than a sampling time take only one interval, so that the stances do not provide enough
intervals for the horizon, and forming it throws. -/
theorem C51_transitions_refuted (nan : ℝ) (junk : ℕ → Interval) (old : Horizon) (m : Model) (w : WalkParameters) :
    ∃ f q, FSM.construct { FSMParams.default with tdsMs := 200 } = .ok f ∧ MPCParameters.make 16 100 100 100 = .ok q ∧
      FormReturns nan junk old q m f w (.error .thrown) :=
  ⟨_, _, rfl, rfl, (outcome_at (p := { FSMParams.default with tdsMs := 200 }) (N := 16) (T := 100) (sub := 100) (Ttds := 100)
    (fuel := 10) rfl rfl (fun _ h => absurd h (by decide)) (by decide) (by decide) (by decide) rfl (by decide) nan junk old m
    w).2.1 (by decide) (by decide)⟩

/-- Against C51: a zero sampling time of transitions is accepted, the intervals in which steps begin have no duration. -/
theorem C51_duration_refuted (nan : ℝ) (junk : ℕ → Interval) (old : Horizon) (m : Model) (w : WalkParameters) :
    ∃ f q H, FSM.construct FSMParams.default = .ok f ∧ MPCParameters.make 16 100 100 0 = .ok q ∧
      FormReturns nan junk old q m f w (.ok (true, H)) ∧ (H.intervals.e 3).T = 0 := by
  obtain ⟨H, h1, h2⟩ := (outcome_at (p := FSMParams.default) (N := 16) (T := 100) (sub := 100) (Ttds := 0) (fuel := 10) rfl rfl
    default_proper (by decide) (by decide) (by decide) rfl (by decide) nan junk old m w).1 (by decide) (by decide)
  refine ⟨_, _, H, rfl, rfl, h1, ?_⟩
  have h0 := h2.allSteps 0 (by decide)
  have h3 : 3 ∈ H.variable_steps := by
    have := h2.steps 0 _ (List.getElem?_eq_getElem h0)
    have e : H.variable_steps[0] = 3 := this
    exact e ▸ List.getElem_mem h0
  have h4 := h2.seconds 3 (by decide)
  rw [h2.nextTimes 3 (by decide) (by decide), if_pos h3] at h4
  norm_num at h4
  exact h4

/-- Against C51: without intervals or without a sampling time the behaviour is undefined. -/
theorem C51_zero_refuted (nan : ℝ) (junk : ℕ → Interval) (old : Horizon) (m : Model) (f : FSM) (w : WalkParameters)
    (q : MPCParameters) (hq : q.preview_horizon_length = 0 ∨ q.sampling_time_ms = 0) :
    FormReturns nan junk old q m f w (.error .ub) := by
  refine ⟨0, ?_⟩
  have hd : q.preview_horizon_length * q.sampling_time_ms = 0 := by
    rcases hq with e | e <;> rw [e] <;> simp
  unfold form
  rw [hd]
  rfl

/-- Such parameters are accepted. -/
example : (∃ q, MPCParameters.make 0 100 100 100 = .ok q ∧ q.preview_horizon_length = 0) ∧
    ∃ q, MPCParameters.make 16 0 100 100 = .ok q ∧ q.sampling_time_ms = 0 := ⟨⟨_, rfl, rfl⟩, ⟨_, rfl, rfl⟩⟩

/-- Against C51: when the terminal double support is over, the machine enters it again, and forming the horizon throws. -/
theorem C51_reentered_refuted {c : Stance} {p : FSMParams} {f : FSM} (h : StanceReachable c p f) (hp : Proper p)
    (hf : f.time < f.cur.duration) {q : MPCParameters} (hN : q.preview_horizon_length < 2 ^ 63)
    (hd : 0 < q.preview_horizon_length * q.sampling_time_ms) {l : List Stance}
    (hl : CompletePreview f (q.preview_horizon_length * q.sampling_time_ms) l) (hT : Reentered f)
    (hr : PreviewReturns f (q.preview_horizon_length * q.sampling_time_ms) (.ok l)) (nan : ℝ) (junk : ℕ → Interval)
    (old : Horizon) (m : Model) (w : WalkParameters) : FormReturns nan junk old q m f w (.error .thrown) := by
  obtain ⟨l', hl', h1, h2, h3⟩ := C51_outcome h hp hf hN hd nan junk old m w
  cases preview_unique hr hl'
  refine h3 ?_
  rintro ⟨b, H, hH⟩
  cases b with
  | true => exact (h1.1 ⟨H, hH⟩).2.1 hT
  | false =>
    have a := (C25_sum (f := f)).1 hl
    have b := (C25_sum (f := f)).2 (h2.1 ⟨H, hH⟩).1
    omega

/-- Such a state is reached in the default walk, when the terminal double support, which lasts 2900 ms, is over. -/
example : ∃ f g l, FSM.construct { FSMParams.default with numSteps := 0 } = .ok f ∧ Returns f 300 (.ok g) ∧ Reentered g ∧
    g.time < g.cur.duration ∧ PreviewReturns g (16 * 100) (.ok l) ∧ (l.map (·.duration)).sum = 1600 :=
  ⟨_, _, _, rfl, ⟨5, rfl⟩, ⟨rfl, rfl⟩, by decide, ⟨5, rfl⟩, rfl⟩

/-- The preview over 1600 ms at the beginning of the default walk. -/
def defaultPreview : List Stance :=
  [⟨.ds, .lss, .undefined, .first, 300, 300⟩, ⟨.tds, .lss, .ds, .intermediate, 100, 100⟩,
    ⟨.rss, .lss, .ds, .intermediate, 700, 700⟩, ⟨.tds, .rss, .rss, .intermediate, 100, 100⟩,
    ⟨.lss, .rss, .rss, .intermediate, 400, 700⟩]

theorem default_formed (Ttds sub : ℕ) {q : MPCParameters} (hq : MPCParameters.make 16 100 sub Ttds = .ok q) (nan : ℝ)
    (junk : ℕ → Interval) (old : Horizon) (m : Model) (w : WalkParameters) :
    ∃ f H, FSM.construct FSMParams.default = .ok f ∧ PreviewReturns f 1600 (.ok defaultPreview) ∧
      FormReturns nan junk old q m f w (.ok (true, H)) ∧ FollowsWalk 16 100 Ttds m.getCoMHeight defaultPreview H := by
  obtain ⟨H, h1, h2⟩ := (outcome_at (p := FSMParams.default) (N := 16) (T := 100) (sub := sub) (Ttds := Ttds) (fuel := 10)
    (l := defaultPreview) rfl hq default_proper (by decide) (by decide) (by decide) rfl (by decide) nan junk old m w).1
    (by decide) (by decide)
  exact ⟨_, H, rfl, ⟨10, rfl⟩, h1, h2⟩

/-- Against C51: if the sampling time of transitions is not their duration, the steps do not begin with the previewed
transitions: here the second step begins after 1200 ms, the previewed stances before it last 1100 ms. -/
theorem C51_starts_refuted (nan : ℝ) (junk : ℕ → Interval) (old : Horizon) (m : Model) (w : WalkParameters) :
    ∃ f q H l k, FSM.construct FSMParams.default = .ok f ∧ MPCParameters.make 16 100 100 200 = .ok q ∧
      FormReturns nan junk old q m f w (.ok (true, H)) ∧ PreviewReturns f 1600 (.ok l) ∧ k ∈ H.variable_steps ∧
      ∑ i ∈ Finset.range k, (H.intervals.e i).T_ms = 1200 ∧
      ((l.take ((H.intervals.e k).state_index - 1)).map (·.duration)).sum = 1100 := by
  obtain ⟨q, hq⟩ : ∃ q, MPCParameters.make 16 100 100 200 = .ok q := ⟨_, rfl⟩
  obtain ⟨f, H, hf, hl, h1, h2⟩ := default_formed 200 100 hq nan junk old m w
  have h0 := h2.allSteps 1 (by decide)
  have e0 : H.variable_steps[0] = 3 := h2.steps 0 _ (List.getElem?_eq_getElem (by omega))
  have e1 : H.variable_steps[1] = 11 := h2.steps 1 _ (List.getElem?_eq_getElem h0)
  have hmem : ∀ i < 11, (i ∈ H.variable_steps ↔ i = 3) := by
    intro i hi
    constructor
    · intro hm
      obtain ⟨j, hj, rfl⟩ := List.getElem_of_mem hm
      match j, hj, hi with
      | 0, _, _ => exact e0
      | 1, _, hi => omega
      | j + 2, hj, hi =>
        have := (List.pairwise_iff_getElem.1 h2.sorted) 1 (j + 2) (by omega) hj (by omega)
        omega
    · rintro rfl
      exact e0 ▸ List.getElem_mem (by omega)
  have h11 : 11 ∈ H.variable_steps := e1 ▸ List.getElem_mem h0
  refine ⟨f, q, H, defaultPreview, 11, hf, hq, h1, hl, h11, ?_, ?_⟩
  · have ht : ∀ i < 11, (H.intervals.e i).T_ms = if i = 3 then 200 else 100 := by
      intro i hi
      by_cases hz : i = 0
      · subst hz
        rw [h2.firstTime]
        rfl
      · rw [h2.nextTimes i (by omega) (by omega)]
        simp only [hmem i hi]
    rw [Finset.sum_congr rfl fun i hi => ht i (Finset.mem_range.1 hi)]
    rfl
  · have hidx : ∀ i ≤ 10, (H.intervals.e i).state_index = if 3 ≤ i then 2 else 0 := by
      intro i hi
      induction i with
      | zero => rw [h2.first]; rfl
      | succ i ih =>
        rw [h2.next i (by omega), ih (by omega)]
        simp only [hmem (i + 1) (by omega)]
        split <;> split <;> split <;> omega
    have hx : (H.intervals.e 11).state_index = 4 := by
      rw [h2.next 10 (by omega), hidx 10 (le_refl _), if_pos h11]
      rfl
    rw [hx]
    rfl

/-! ## C74: orientations, velocities and bounds -/

/-- What is known about the states of a horizon which is formed. -/
theorem formed_entries {c : Stance} {p : FSMParams} {f : FSM} (h : StanceReachable c p f) (hp : Proper p)
    (hf : f.time < f.cur.duration) {q : MPCParameters} (hN : q.preview_horizon_length < 2 ^ 63) {nan : ℝ} {junk : ℕ → Interval}
    {old H : Horizon} {m : Model} {w : WalkParameters} (hr : FormReturns nan junk old q m f w (.ok (true, H))) :
    ∃ l side k, WalkOk p side p.numSteps ∧ Shows p side p.numSteps k l ∧ Entries nan m w l H.walk_states ∧
      H.walk_states.map (·.stance) = l ∧ (∀ i s, l[i]? = some s → EntryOk l i s ∧ (s.type = .tds ↔ (k + i) % 2 = 1)) ∧
      (∀ i < l.length, k + i ≤ 2 * p.numSteps + 2 ∧ (NoSteps p p.numSteps → k + i = 0)) := by
  obtain ⟨l, hl, hc, hF⟩ := C51_horizon h hp hf hN hr
  have hd : 0 < q.preview_horizon_length * q.sampling_time_ms := by
    obtain ⟨s, m, x, extra, -, -, h3, h4, -⟩ := hc
    omega
  obtain ⟨side, k, h1, h2⟩ := reachable_inv hp h
  obtain ⟨l', hl', hcase⟩ := form_outcomes h hp hf hN hd nan junk old m w
  cases preview_unique hl hl'
  have he := (form_of_preview hl' _).1 hr
  rcases hcase with ⟨-, ha, hb, hcc⟩ | ⟨-, ha, hb⟩
  · have hre : ¬ Reentered f := fun hre => by rw [ha hre] at he; cases he
    have hcap : q.preview_horizon_length ≤ capacity q.sampling_time_ms l := by
      by_contra hcap
      rw [hb hre hcap] at he
      cases he
    obtain ⟨H', hH, hE, -⟩ := hcc hre hcap
    rw [hH] at he
    cases he
    obtain ⟨hacc, -, -, -, hpos⟩ := complete_accepted h1 h2 hc hre
    exact ⟨l, side, k, h1, (complete_shows h1 h2 hc).1, hE, hF.stances, hacc, hpos⟩
  · by_cases hT : Terminal f
    · rw [ha hT] at he; cases he
    · rw [hb hT] at he; cases he

theorem thetasAt_step {w : WalkParameters} {l : List Stance} {th : Thetas} {i : ℕ} {s : Stance} (hs : l[i]? = some s) :
    thetasAt w l th (i + 1) = (switchOut w (typeAt l (i + 1)) s (thetasAt w l th i)).1 := by
  simp only [thetasAt, hs]

theorem switchOut_keeps {w : WalkParameters} {next : StanceType} {s : Stance} {th : Thetas} (h : s.type ≠ .tds) :
    (switchOut w next s th).1 = th := by
  unfold switchOut
  cases ht : s.type with
  | tds => exact absurd ht h
  | ds => simp only; split <;> rfl
  | _ => rfl

/-- C74. Each previewed support has the orientation which follows from the one before it. -/
theorem C74_turns {c : Stance} {p : FSMParams} {f : FSM} (h : StanceReachable c p f) (hp : Proper p)
    (hf : f.time < f.cur.duration) {q : MPCParameters} (hN : q.preview_horizon_length < 2 ^ 63) {nan : ℝ} {junk : ℕ → Interval}
    {old H : Horizon} {m : Model} {w : WalkParameters} (hr : FormReturns nan junk old q m f w (.ok (true, H))) {j : ℕ}
    {a t b : WalkState} (ha : H.walk_states[j]? = some a) (ht : H.walk_states[j + 1]? = some t)
    (hb : H.walk_states[j + 2]? = some b) (hty : a.stance.type ≠ .tds) : t.stance.type = .tds ∧ Turns m w a t b := by
  obtain ⟨l, side, k, hw, hS, hE, hmap, hacc, hpos⟩ := formed_entries h hp hf hN hr
  have hget : ∀ (i : ℕ) (s : WalkState), H.walk_states[i]? = some s → l[i]? = some s.stance := by
    intro i s hs
    rw [← hmap, List.getElem?_map, hs]
    rfl
  have la := hget j a ha
  have lt := hget _ t ht
  have lb := hget _ b hb
  obtain ⟨a', ha', ea⟩ := hE j _ la
  obtain ⟨t', ht', et⟩ := hE _ _ lt
  obtain ⟨b', hb', eb⟩ := hE _ _ lb
  rw [ha] at ha'; cases ha'
  rw [ht] at ht'; cases ht'
  rw [hb] at hb'; cases hb'
  have pa := (hacc _ _ la).2
  have pt := (hacc _ _ lt).2
  have pb := (hacc _ _ lb).2
  have hpar : (k + j) % 2 = 0 := by
    by_contra hne
    exact hty (pa.2 (by omega))
  have htt : t.stance.type = .tds := pt.2 (by omega)
  have hbt : b.stance.type ≠ .tds := fun e => by
    have := pb.1 e
    omega
  refine ⟨htt, ?_⟩
  -- the stance before the transition
  have hprev : t.stance.prevNonTds = a.stance.type := by
    rw [(hS _ _ lt).2.2, ← Nat.add_assoc]
    show (if walkType p.firstStance side p.numSteps (k + j) = .tds then _ else _) = _
    rw [← (hS _ _ la).1, if_neg hty]
  -- angles
  have t1 : thetasAt w l (thetas0 m) (j + 1) = thetasAt w l (thetas0 m) j := by
    rw [thetasAt_step la, switchOut_keeps hty]
  have t2 : thetasAt w l (thetas0 m) (j + 2) = (previewTransition w b.stance.type a.stance.type (thetasAt w l (thetas0 m) j)).1 := by
    rw [thetasAt_step lt, t1, typeAt_eq lb]
    unfold switchOut
    rw [htt, hprev]
  have eθ := ea.theta
  have tθ := et.theta
  have bθ := eb.theta
  have hsw : ∀ n s th, s.type = .tds → switchOut w n s th = previewTransition w n s.prevNonTds th := by
    intro n s th e
    unfold switchOut
    rw [e]
  rw [hsw _ _ _ htt, hprev, typeAt_eq lb, t1] at tθ
  rw [t2] at bθ
  generalize hth : thetasAt w l (thetas0 m) j = th at *
  have hlss : ∀ n s (th : Thetas), s.type = .lss → (switchOut w n s th).2.2 = th.lss := by
    intro n s th e; unfold switchOut; rw [e]
  have hrss : ∀ n s (th : Thetas), s.type = .rss → (switchOut w n s th).2.2 = th.rss := by
    intro n s th e; unfold switchOut; rw [e]
  have hds : ∀ n s (th : Thetas), s.type = .ds → (switchOut w n s th).2.2 = th.ds := by
    intro n s th e; unfold switchOut; rw [e]; simp only; split <;> rfl
  -- two single supports are on different sides
  have hL := walkType_legal hw
  have halt : IsSingle a.stance.type → IsSingle b.stance.type → b.stance.type = opposite a.stance.type := by
    rw [(hS _ _ la).1, (hS _ _ lb).1, ← Nat.add_assoc]
    exact hL.alternates (k + j)
  -- a double support before other ones is the first one
  have hfirst : a.stance.type = .ds → th = thetas0 m := by
    intro e
    have hj : j = 0 := by
      by_contra hne
      have h2 := hpos (j + 2) (List.getElem?_eq_some_iff.1 lb).1
      have hz : ¬ NoSteps p p.numSteps := fun hz => by
        have := h2.2 hz
        omega
      have e' := e
      rw [(hS _ _ la).1, walkType_even hz (by omega) hpar (by omega)] at e'
      exact (single_ne (sideAt_single (hw.side (not_noSteps hz)) _)).2.1 e'
    rw [← hth, hj]
    rfl
  exact {
    singleToSingle := fun e1 e2 => by
      have e3 := halt e1 e2
      rcases e1 with e | e
      · rw [e] at e3
        rw [tθ, bθ, eθ, hrss _ _ _ e3, hlss _ _ _ e, e, e3]
        simp [previewTransition, opposite]
      · rw [e] at e3
        rw [tθ, bθ, eθ, hlss _ _ _ e3, hrss _ _ _ e, e, e3]
        simp [previewTransition, opposite]
    singleToDouble := fun e1 e2 => by
      rcases e1 with e | e
      · rw [tθ, bθ, eθ, hds _ _ _ e2, hlss _ _ _ e, e, e2]
        simp [previewTransition]
      · rw [tθ, bθ, eθ, hds _ _ _ e2, hrss _ _ _ e, e, e2]
        simp [previewTransition]
    doubleToLeft := fun e1 e2 => by
      rw [tθ, bθ, eθ, hlss _ _ _ e2, hds _ _ _ e1, e1, e2, hfirst e1]
      simp [previewTransition, thetas0]
    doubleToRight := fun e1 e2 => by
      rw [tθ, bθ, eθ, hrss _ _ _ e2, hds _ _ _ e1, e1, e2, hfirst e1]
      simp [previewTransition, thetas0] }

/-- C74. The current support has the orientation of the supporting feet; a transition which is going on leads to the orientation
which follows from the support before it. -/
theorem C74_current {c : Stance} {p : FSMParams} {f : FSM} (h : StanceReachable c p f) (hp : Proper p)
    (hf : f.time < f.cur.duration) {q : MPCParameters} (hN : q.preview_horizon_length < 2 ^ 63) {nan : ℝ} {junk : ℕ → Interval}
    {old H : Horizon} {m : Model} {w : WalkParameters} (hr : FormReturns nan junk old q m f w (.ok (true, H))) {a : WalkState}
    (ha : H.walk_states[0]? = some a) :
    Current m a ∧ (a.stance.type = .tds → ∃ b, H.walk_states[1]? = some b ∧ Lands m w a.stance.prevNonTds a b) := by
  obtain ⟨l, side, k, hw, hS, hE, hmap, hacc, hpos⟩ := formed_entries h hp hf hN hr
  have hget : ∀ (i : ℕ) (s : WalkState), H.walk_states[i]? = some s → l[i]? = some s.stance := by
    intro i s hs
    rw [← hmap, List.getElem?_map, hs]
    rfl
  have la := hget 0 a ha
  obtain ⟨a', ha', ea⟩ := hE 0 _ la
  rw [ha] at ha'; cases ha'
  have eθ := ea.theta
  have hlss : ∀ n s (th : Thetas), s.type = .lss → (switchOut w n s th).2.2 = th.lss := by
    intro n s th e; unfold switchOut; rw [e]
  have hrss : ∀ n s (th : Thetas), s.type = .rss → (switchOut w n s th).2.2 = th.rss := by
    intro n s th e; unfold switchOut; rw [e]
  have hds : ∀ n s (th : Thetas), s.type = .ds → (switchOut w n s th).2.2 = th.ds := by
    intro n s th e; unfold switchOut; rw [e]; simp only; split <;> rfl
  refine ⟨⟨fun e => ?_, fun e => ?_, fun e => ?_⟩, fun e => ?_⟩
  · rw [eθ, hlss _ _ _ e]; rfl
  · rw [eθ, hrss _ _ _ e]; rfl
  · rw [eθ, hds _ _ _ e]
    show 2 * ((m.state.feet.left.rpy 2 + m.state.feet.right.rpy 2) / 2) = _
    ring
  · have hlen := (hacc 0 _ la).1.2.2.1 e
    obtain ⟨sb, lb⟩ : ∃ s, l[1]? = some s := ⟨_, List.getElem?_eq_getElem hlen⟩
    obtain ⟨b, hb, eb⟩ := hE 1 _ lb
    refine ⟨b, hb, ?_⟩
    have hbs := eb.stance
    have t1 : thetasAt w l (thetas0 m) 1 = (previewTransition w sb.type a.stance.prevNonTds (thetas0 m)).1 := by
      rw [thetasAt_step la, typeAt_eq lb]
      unfold switchOut
      rw [e]
      rfl
    have bθ := eb.theta
    rw [t1] at bθ
    have hsw : ∀ n s th, s.type = .tds → switchOut w n s th = previewTransition w n s.prevNonTds th := by
      intro n s th e
      unfold switchOut
      rw [e]
    rw [hsw _ _ _ e, typeAt_eq lb] at eθ
    have e0 : thetasAt w l (thetas0 m) 0 = thetas0 m := rfl
    rw [e0] at eθ
    rw [← hbs] at eθ bθ
    exact {
      leftToRight := fun e1 e2 => by
        rw [eθ, bθ, hrss _ _ _ e2, e1, e2]
        simp [previewTransition, thetas0]
      rightToLeft := fun e1 e2 => by
        rw [eθ, bθ, hlss _ _ _ e2, e1, e2]
        simp [previewTransition, thetas0]
      leftToDouble := fun e1 e2 => by
        rw [eθ, bθ, hds _ _ _ e2, e1, e2]
        simp [previewTransition, thetas0]
      rightToDouble := fun e1 e2 => by
        rw [eθ, bθ, hds _ _ _ e2, e1, e2]
        simp [previewTransition, thetas0]
      doubleToLeft := fun e1 e2 => by
        rw [bθ, hlss _ _ _ e2, e1, e2]
        simp [previewTransition, thetas0]
      doubleToRight := fun e1 e2 => by
        rw [bθ, hrss _ _ _ e2, e1, e2]
        simp [previewTransition, thetas0] }

/-- C74. Reference velocities: the one of the stance turned by its orientation. -/
theorem C74_velocities {c : Stance} {p : FSMParams} {f : FSM} (h : StanceReachable c p f) (hp : Proper p)
    (hf : f.time < f.cur.duration) {q : MPCParameters} (hN : q.preview_horizon_length < 2 ^ 63) {nan : ℝ} {junk : ℕ → Interval}
    {old H : Horizon} {m : Model} {w : WalkParameters} (hr : FormReturns nan junk old q m f w (.ok (true, H))) {j : ℕ}
    {a : WalkState} (ha : H.walk_states[j]? = some a) :
    a.cvel_ref = referenceVelocity w a.stance (H.walk_states[j + 1]?.map (·.stance)) ∧ IsTurned a.theta a.cvel_ref a.R_cvel_ref := by
  obtain ⟨l, side, k, hw, hS, hE, hmap, hacc, hpos⟩ := formed_entries h hp hf hN hr
  have hget : ∀ (i : ℕ) (s : WalkState), H.walk_states[i]? = some s → l[i]? = some s.stance := by
    intro i s hs
    rw [← hmap, List.getElem?_map, hs]
    rfl
  have la := hget j a ha
  obtain ⟨a', ha', ea⟩ := hE j _ la
  rw [ha] at ha'; cases ha'
  constructor
  · rw [ea.cvel_ref]
    have hn : H.walk_states[j + 1]?.map (·.stance) = l[j + 1]? := by rw [← hmap, List.getElem?_map]
    rw [hn]
    unfold switchOut referenceVelocity
    cases e : a.stance.type with
    | undefined => exact absurd e (hacc _ _ la).1.1
    | lss => rfl
    | rss => rfl
    | ds => simp only; split <;> rfl
    | tds =>
      obtain ⟨sb, lb⟩ : ∃ s, l[j + 1]? = some s := ⟨_, List.getElem?_eq_getElem ((hacc _ _ la).1.2.2.1 e)⟩
      simp only
      rw [typeAt_eq lb, lb]
      simp only [Option.map_some, Option.some.injEq]
      -- the previous stance
      have hpr : sb.type = .ds → a.stance.prevNonTds = .lss ∨ a.stance.prevNonTds = .rss := by
        intro e'
        have hb := hpos (j + 1) (List.getElem?_eq_some_iff.1 lb).1
        have hz : ¬ NoSteps p p.numSteps := fun hz => by have := hb.2 hz; omega
        have pa := (hacc _ _ la).2.1 e
        -- the terminal double support
        have hsb : k + (j + 1) = 2 * p.numSteps + 2 := by
          by_contra hne
          rw [(hS _ _ lb).1, walkType_even hz (by omega) (by omega) (by omega)] at e'
          exact (single_ne (sideAt_single (hw.side (not_noSteps hz)) _)).2.1 e'
        have hE' := (hacc _ _ lb).1.2.2.2 (by rw [e']; decide)
        have h1 : sb.subtype ≠ .first := by
          rw [(hS _ _ lb).2.1]
          unfold walkSub
          rw [if_neg (by omega), if_neg (show ¬ (p.firstStance = .ds ∧ p.numSteps = 0) from hz), if_pos hsb]
          decide
        have h2 := (hE'.resolve_left h1).2.2 e'
        have h3 : sb.prevNonTds = a.stance.prevNonTds := by
          rw [(hS _ _ lb).2.2, (hS _ _ la).2.2, ← Nat.add_assoc]
          show (if walkType p.firstStance side p.numSteps (k + j) = .tds then _ else _) = _
          rw [← (hS _ _ la).1, if_pos e]
        rw [← h3]
        exact h2
      cases e' : sb.type with
      | ds => rcases hpr e' with e1 | e1 <;> simp [previewTransition, e1]
      | _ => simp only [previewTransition, reduceCtorEq, false_and, if_false] <;> first | rfl | (split <;> rfl)
  · rw [ea.R_cvel_ref, ea.rotation]
    unfold IsTurned rotation2
    simp [Matrix.mulVec, dotProduct, Fin.sum_univ_two]
    ring

/-- C74. Bounds on positions of the feet and of the centre of pressure. -/
theorem C74_bounds {c : Stance} {p : FSMParams} {f : FSM} (h : StanceReachable c p f) (hp : Proper p)
    (hf : f.time < f.cur.duration) {q : MPCParameters} (hN : q.preview_horizon_length < 2 ^ 63) {nan : ℝ} {junk : ℕ → Interval}
    {old H : Horizon} {m : Model} {w : WalkParameters} (hr : FormReturns nan junk old q m f w (.ok (true, H))) {j : ℕ}
    {a : WalkState} (ha : H.walk_states[j]? = some a) (ht : a.stance.type ≠ .tds) : HasBounds m.params a.stance a := by
  obtain ⟨l, side, k, hw, hS, hE, hmap, hacc, hpos⟩ := formed_entries h hp hf hN hr
  have la : l[j]? = some a.stance := by rw [← hmap, List.getElem?_map, ha]; rfl
  obtain ⟨a', ha', ea⟩ := hE j _ la
  rw [ha] at ha'; cases ha'
  have hfd := ea.fd ht
  have hlater : a.stance.subtype ≠ .first →
      footBounds m.params a.stance = m.params.getFootBounds (landingFoot a.stance) (boundsKind a.stance) := fun hs =>
    footBounds_later hs (by
      have := (hacc _ _ la).1.1
      cases e : a.stance.type <;> simp_all) (((hacc _ _ la).1.2.2.2 ht).resolve_left hs)
  exact {
    cop := ea.cop ht
    notMoved := fun e => by
      rw [footBounds_first e] at hfd
      exact (Except.ok.inj hfd).symm
    leftAfterDouble := fun e1 e2 e3 => by rw [← hfd, hlater e1]; simp [landingFoot, boundsKind, e2, e3]
    leftAfterSingle := fun e1 e2 e3 => by rw [← hfd, hlater e1]; simp [landingFoot, boundsKind, e2, e3]
    rightAfterDouble := fun e1 e2 e3 => by rw [← hfd, hlater e1]; simp [landingFoot, boundsKind, e2, e3]
    rightAfterSingle := fun e1 e2 e3 => by rw [← hfd, hlater e1]; simp [landingFoot, boundsKind, e2, e3]
    closesRight := fun e1 e2 e3 => by rw [← hfd, hlater e1]; simp [landingFoot, boundsKind, e2, e3]
    closesLeft := fun e1 e2 e3 => by rw [← hfd, hlater e1]; simp [landingFoot, boundsKind, e2, e3] }

/-- The hypotheses are met by the default walk, whose preview contains the initial double support and two steps: supports at
positions 0, 2 and 4 are separated by transitions. -/
example (nan : ℝ) (junk : ℕ → Interval) (old : Horizon) (m : Model) (w : WalkParameters) :
    ∃ f q H, StanceReachable {} FSMParams.default f ∧ Proper FSMParams.default ∧ f.time < f.cur.duration ∧
      q.preview_horizon_length < 2 ^ 63 ∧ FormReturns nan junk old q m f w (.ok (true, H)) ∧ ∃ a b c d e, H.walk_states[0]? = some a ∧
      H.walk_states[1]? = some b ∧ H.walk_states[2]? = some c ∧ H.walk_states[3]? = some d ∧ H.walk_states[4]? = some e ∧
      a.stance.type = .ds ∧ IsSingle c.stance.type ∧ IsSingle e.stance.type := by
  obtain ⟨q, hq⟩ : ∃ q, MPCParameters.make 16 100 100 100 = .ok q := ⟨_, rfl⟩
  obtain ⟨f, H, hf, hl, h1, h2⟩ := default_formed 100 100 hq nan junk old m w
  have hst : ∀ (i : ℕ) (s : Stance), defaultPreview[i]? = some s → ∃ x, H.walk_states[i]? = some x ∧ x.stance = s := by
    intro i s hs
    rw [← h2.stances, List.getElem?_map] at hs
    exact Option.map_eq_some_iff.1 hs
  obtain ⟨a, ha, ea⟩ := hst 0 _ rfl
  obtain ⟨b, hb, -⟩ := hst 1 _ rfl
  obtain ⟨c, hc, ec⟩ := hst 2 _ rfl
  obtain ⟨d, hd, -⟩ := hst 3 _ rfl
  obtain ⟨e, he, ee⟩ := hst 4 _ rfl
  refine ⟨f, q, H, .init hf, default_proper, ?_, ?_, h1, a, b, c, d, e, ha, hb, hc, hd, he, ?_, ?_, ?_⟩
  · cases hf; decide
  · cases hq; decide
  · rw [ea]
  · rw [ec]; unfold IsSingle; decide
  · rw [ee]; unfold IsSingle; decide

end Humoto.Wpg
