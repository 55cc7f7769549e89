import Verif.Spec.Wpg
import Verif.Lemmas.StanceTime
import Mathlib.Tactic.Linarith
import Mathlib.Tactic.Ring

/-!
# C53 and C55: parameters and the model of the walking pattern generator
-/

namespace Humoto.Wpg

open Humoto.Spec Humoto.Spec.Wpg

/-! ## C55: parameters of the controller -/

/-- C55. With a positive subsampling time the parameters are accepted iff it divides both sampling times. -/
theorem C55_accepted (len sampling tds : ℕ) {subsampling : ℕ} (h : 0 < subsampling) :
    (∃ p, MPCParameters.make len sampling subsampling tds = .ok p) ↔ subsampling ∣ sampling ∧ subsampling ∣ tds := by
  unfold MPCParameters.make MPCParameters.modulo
  rw [require_true (show subsampling ≠ 0 by omega)]
  by_cases h1 : subsampling ∣ sampling
  · by_cases h2 : subsampling ∣ tds
    · refine ⟨fun _ => ⟨h1, h2⟩, fun _ => ?_⟩
      show ∃ p, (do assertThat (sampling % subsampling = 0); assertThat (tds % subsampling = 0); pure _ : Res MPCParameters) = .ok p
      rw [assertThat_true (Nat.mod_eq_zero_of_dvd h1), assertThat_true (Nat.mod_eq_zero_of_dvd h2)]
      exact ⟨_, rfl⟩
    · constructor
      · rintro ⟨p, hp⟩
        exfalso
        have hp : (do assertThat (sampling % subsampling = 0); assertThat (tds % subsampling = 0); pure _ : Res MPCParameters) =
          .ok p := hp
        rw [assertThat_false (fun e => h2 (Nat.dvd_of_mod_eq_zero e))] at hp
        rw [assertThat_true (Nat.mod_eq_zero_of_dvd h1)] at hp
        exact nomatch hp
      · exact fun h => absurd h.2 h2
  · constructor
    · rintro ⟨p, hp⟩
      exfalso
      have hp : (do assertThat (sampling % subsampling = 0); assertThat (tds % subsampling = 0); pure _ : Res MPCParameters) =
        .ok p := hp
      rw [assertThat_false (fun e => h1 (Nat.dvd_of_mod_eq_zero e))] at hp
      exact nomatch hp
    · exact fun h => absurd h.1 h1

/-- C55. Otherwise there is an exception. -/
theorem C55_rejected (len sampling tds : ℕ) {subsampling : ℕ} (h : 0 < subsampling)
    (hd : ¬ (subsampling ∣ sampling ∧ subsampling ∣ tds)) :
    MPCParameters.make len sampling subsampling tds = .error .thrown := by
  unfold MPCParameters.make MPCParameters.modulo
  rw [require_true (show subsampling ≠ 0 by omega)]
  show (do assertThat (sampling % subsampling = 0); assertThat (tds % subsampling = 0); pure _ : Res MPCParameters) = _
  by_cases h1 : subsampling ∣ sampling
  · rw [assertThat_true (Nat.mod_eq_zero_of_dvd h1), assertThat_false (fun e => hd ⟨h1, Nat.dvd_of_mod_eq_zero e⟩)]
    rfl
  · rw [assertThat_false (fun e => h1 (Nat.dvd_of_mod_eq_zero e))]
    rfl

/-- C55. Accepted parameters are the given ones; the numbers of subsamples fill the samples exactly; times in seconds are the
times in milliseconds. -/
theorem C55_derived {len sampling subsampling tds : ℕ} {p : MPCParameters}
    (h : MPCParameters.make len sampling subsampling tds = .ok p) :
    p.preview_horizon_length = len ∧ p.sampling_time_ms = sampling ∧ p.subsampling_time_ms = subsampling ∧
    p.tds_sampling_time_ms = tds ∧
    p.subsamples_num * subsampling = sampling ∧ p.tds_subsamples_num * subsampling = tds ∧
    1000 * p.sampling_time = sampling ∧ 1000 * p.getSubsamplingTime = subsampling ∧ 1000 * p.tds_sampling_time = tds := by
  have hs : 0 < subsampling := by
    by_contra hs
    have : subsampling = 0 := by omega
    subst this
    exact nomatch h
  obtain ⟨h1, h2⟩ := (C55_accepted len sampling tds hs).1 ⟨p, h⟩
  unfold MPCParameters.make MPCParameters.modulo at h
  rw [require_true (show subsampling ≠ 0 by omega)] at h
  have h : (do assertThat (sampling % subsampling = 0); assertThat (tds % subsampling = 0); pure _ : Res MPCParameters) =
    .ok p := h
  rw [assertThat_true (Nat.mod_eq_zero_of_dvd h1), assertThat_true (Nat.mod_eq_zero_of_dvd h2)] at h
  rw [← Except.ok.inj h]
  refine ⟨rfl, rfl, rfl, rfl, Nat.div_mul_cancel h1, Nat.div_mul_cancel h2, ?_, ?_, ?_⟩ <;>
    simp only [seconds, MPCParameters.getSubsamplingTime] <;> ring

/-- Against C55: a zero subsampling time is not rejected, the program divides by zero. -/
theorem C55_zero_refuted (len sampling tds : ℕ) : MPCParameters.make len sampling 0 tds = .error .ub := rfl

/-- The default parameters, and different sampling times. -/
example : (∃ p, MPCParameters.make 16 100 100 100 = .ok p) ∧ (∃ p, MPCParameters.make 16 100 20 40 = .ok p) ∧
    MPCParameters.make 16 100 30 90 = .error .thrown ∧ MPCParameters.make 16 90 30 100 = .error .thrown :=
  ⟨(C55_accepted 16 100 100 (by decide)).2 (by decide), (C55_accepted 16 100 40 (by decide)).2 (by decide),
    C55_rejected 16 100 90 (by decide) (by decide), C55_rejected 16 90 100 (by decide) (by decide)⟩

/-! ## C53: updates of the model -/

theorem determineSupportPosition_ok {s : ModelState} (h : IsSupport (standing s.stance_type s.next_stance_type)) :
    ∃ c, determineSupportPosition s = .ok c ∧
      IsSupportPosition s.feet.left.position s.feet.right.position (standing s.stance_type s.next_stance_type) c := by
  unfold standing at *
  have key : ∀ t, IsSupport t → ∃ c : Fin 2 → ℝ, (match t with
      | .lss => Except.ok (head2 s.feet.left.position)
      | .rss => .ok (head2 s.feet.right.position)
      | .ds => .ok (meanPosition s.feet)
      | _ => .error .thrown : Res (Fin 2 → ℝ)) = .ok c ∧
      IsSupportPosition s.feet.left.position s.feet.right.position t c := by
    intro t ht
    rcases ht with rfl | rfl | rfl
    · exact ⟨_, rfl, fun _ => ⟨rfl, rfl⟩, nofun, nofun⟩
    · exact ⟨_, rfl, nofun, fun _ => ⟨rfl, rfl⟩, nofun⟩
    · refine ⟨_, rfl, nofun, nofun, fun _ => ⟨?_, ?_⟩⟩ <;>
        simp [meanPosition, head2] <;> ring
  unfold determineSupportPosition
  cases ht : s.stance_type <;> rw [ht] at h <;> simp only [reduceCtorEq, if_false, if_true] at h ⊢
  · exact absurd h (by decide)
  · exact key .ds (by decide)
  · exact key .lss (by decide)
  · exact key .rss (by decide)
  · obtain ⟨c, hc, hs⟩ := key _ h
    refine ⟨c, ?_, hs⟩
    rw [← hc]
    cases s.next_stance_type <;> rfl

theorem determineSupportPosition_thrown {s : ModelState} (h : ¬ IsSupport (standing s.stance_type s.next_stance_type)) :
    determineSupportPosition s = .error .thrown := by
  unfold standing at *
  unfold determineSupportPosition
  cases ht : s.stance_type <;> rw [ht] at h <;> simp only [reduceCtorEq, if_false, if_true] at h ⊢
  · exact absurd (by decide) h
  · exact absurd (by decide) h
  · exact absurd (by decide) h
  · revert h
    cases s.next_stance_type <;> intro h <;> first | rfl | exact absurd (by decide) h

/-- The states which are accepted after a given stance. -/
def Acceptable (prev type next : StanceType) : Prop :=
  type ≠ .undefined ∧ (type = .tds → IsSupport prev ∧ IsSupport next)

theorem updateFeet_ok {prev next : StanceType} {old : Feet} {s : ModelState} (h : Acceptable prev s.stance_type next) :
    ∃ f, Model.updateFeet prev old s = .ok f ∧ FeetUpdated prev s.stance_type old s.feet f := by
  unfold Model.updateFeet
  obtain ⟨h1, h2⟩ := h
  cases ht : s.stance_type <;> rw [ht] at h1 h2
  · exact absurd rfl h1
  · exact ⟨_, rfl, fun _ => rfl, fun _ => rfl, by simp, by simp⟩
  · exact ⟨_, rfl, fun _ => rfl, by simp, by simp, fun _ => rfl⟩
  · exact ⟨_, rfl, by simp, fun _ => rfl, fun _ => rfl, by simp⟩
  · rcases (h2 rfl).1 with rfl | rfl | rfl
    · exact ⟨_, rfl, by simp, fun _ => rfl, fun _ => rfl, by simp⟩
    · exact ⟨_, rfl, fun _ => rfl, by simp, by simp, fun _ => rfl⟩
    · exact ⟨_, rfl, by simp, by simp, fun _ => rfl, fun _ => rfl⟩

/-- C53. An update is accepted iff the stance is known and a transition has a stance before it and after it; otherwise there is an
exception. -/
theorem C53_accepted (m : Model) (s : ModelState) :
    ((∃ m', m.updateState s = .ok m') ↔ Acceptable m.state.stance_type s.stance_type s.next_stance_type) ∧
    (¬ Acceptable m.state.stance_type s.stance_type s.next_stance_type → m.updateState s = .error .thrown) := by
  by_cases h : Acceptable m.state.stance_type s.stance_type s.next_stance_type
  · refine ⟨⟨fun _ => h, fun _ => ?_⟩, fun hn => absurd h hn⟩
    obtain ⟨f, hf, -⟩ := updateFeet_ok (old := m.state.feet) h
    have hst : IsSupport (standing s.stance_type s.next_stance_type) := by
      unfold standing
      split
      · next ht => exact (h.2 ht).2
      · next ht =>
        have := h.1
        revert ht this
        cases s.stance_type <;> simp [IsSupport]
    obtain ⟨c, hc, -⟩ := determineSupportPosition_ok (s := ⟨s.com_state, f, s.stance_type, s.next_stance_type⟩) hst
    refine ⟨⟨m.params, ⟨s.com_state, f, s.stance_type, s.next_stance_type⟩, c⟩, ?_⟩
    unfold Model.updateState
    rw [hf]
    show (do let c ← determineSupportPosition _; pure _ : Res Model) = _
    rw [hc]
    rfl
  · have hthrown : m.updateState s = .error .thrown := by
      unfold Model.updateState
      by_cases h1 : s.stance_type = .undefined
      · unfold Model.updateFeet
        rw [h1]
        rfl
      · have ht : s.stance_type = .tds := by
          by_contra ht
          exact h ⟨h1, fun e => absurd e ht⟩
        by_cases h2 : IsSupport m.state.stance_type
        · have h3 : ¬ IsSupport s.next_stance_type := fun h3 => h ⟨h1, fun _ => ⟨h2, h3⟩⟩
          have hu : ∃ f, Model.updateFeet m.state.stance_type m.state.feet s = .ok f := by
            obtain ⟨f, hf, -⟩ := updateFeet_ok (old := m.state.feet) (next := .ds) (s := s) ⟨h1, fun _ => ⟨h2, by decide⟩⟩
            exact ⟨f, hf⟩
          obtain ⟨f, hf⟩ := hu
          rw [hf]
          show (do let c ← determineSupportPosition _; pure _ : Res Model) = _
          rw [determineSupportPosition_thrown (by
            show ¬ IsSupport (standing s.stance_type s.next_stance_type)
            rw [ht]; exact h3)]
          rfl
        · unfold Model.updateFeet
          rw [ht]
          revert h2
          cases m.state.stance_type <;> intro h2 <;> first | rfl | exact absurd (by decide) h2
    exact ⟨⟨fun ⟨m', hm⟩ => (by rw [hthrown] at hm; exact nomatch hm), fun hc => absurd hc h⟩, fun _ => hthrown⟩

/-- C53. The position of the support is the one which is determined by the feet; the stance and the state of the CoM are the given
ones; the feet which support the robot and which land are taken from the given state, others are kept. -/
theorem C53_result {m m' : Model} {s : ModelState} (h : m.updateState s = .ok m') :
    IsSupportPosition m'.state.feet.left.position m'.state.feet.right.position (standing s.stance_type s.next_stance_type)
      m'.current_support_position ∧
    m'.state.stance_type = s.stance_type ∧ m'.state.next_stance_type = s.next_stance_type ∧
    m'.state.com_state = s.com_state ∧ m'.params = m.params ∧
    FeetUpdated m.state.stance_type s.stance_type m.state.feet s.feet m'.state.feet := by
  have ha := (C53_accepted m s).1.1 ⟨m', h⟩
  obtain ⟨f, hf, hF⟩ := updateFeet_ok (old := m.state.feet) ha
  unfold Model.updateState at h
  rw [hf] at h
  have h : (do let c ← determineSupportPosition ⟨s.com_state, f, s.stance_type, s.next_stance_type⟩; pure _ : Res Model) =
    .ok m' := h
  by_cases hst : IsSupport (standing s.stance_type s.next_stance_type)
  · obtain ⟨c, hc, hs⟩ := determineSupportPosition_ok (s := ⟨s.com_state, f, s.stance_type, s.next_stance_type⟩) hst
    rw [hc] at h
    rw [← Except.ok.inj h]
    exact ⟨hs, rfl, rfl, rfl, rfl, hF⟩
  · rw [determineSupportPosition_thrown (s := ⟨s.com_state, f, s.stance_type, s.next_stance_type⟩) hst] at h
    exact nomatch h

/-- C53. A new model has the feet on the ground around its support position. -/
theorem C53_initial (nan : ℝ) (p : FootParameters ℝ) (height : ℝ) :
    ∃ m, Model.make nan p height = .ok m ∧ m.state.stance_type = .ds ∧ m.current_support_position = 0 ∧
      IsSupportPosition m.state.feet.left.position m.state.feet.right.position .ds m.current_support_position ∧
      m.getCoMHeight = height ∧ m.state.feet.left.position 1 - m.state.feet.right.position 1 = p.feetDistDefault := by
  refine ⟨_, rfl, rfl, ?_, ⟨nofun, nofun, fun _ => ⟨?_, ?_⟩⟩, rfl, ?_⟩
  · funext i
    fin_cases i <;> simp [meanPosition, head2, transform2, FootParameters.leftFoot, FootParameters.rightFoot, rotation2,
      Matrix.mulVec, dotProduct]
  all_goals
    simp [meanPosition, head2, transform2, FootParameters.leftFoot, FootParameters.rightFoot, rotation2,
      Matrix.mulVec, dotProduct]

/-- Updates along a walk. The machine passes through the states `g`, each one reached from the one before by a shift of time; the
model is updated with states which describe them. -/
structure WalkUpdates (g : ℕ → FSM) (t : ℕ → ℕ) (s : ℕ → ModelState) : Prop where
  shifts : ∀ i, Returns (g i) (t i) (.ok (g (i + 1)))
  describes : ∀ i, Describes (s i) (g i)

theorem reachable_all {c : Stance} {p : FSMParams} {g : ℕ → FSM} {t : ℕ → ℕ} (h0 : StanceReachable c p (g 0))
    (h : ∀ i, Returns (g i) (t i) (.ok (g (i + 1)))) (i : ℕ) : StanceReachable c p (g i) := by
  induction i with
  | zero => exact h0
  | succ i ih => exact .shiftTime ih (h i)

/-- In reachable states the stance is known, and a transition is followed by a support. -/
theorem reachable_types {c : Stance} {p : FSMParams} {f : FSM} (hp : Proper p) (h : StanceReachable c p f) :
    f.cur.type ≠ .undefined ∧
    (f.cur.type = .tds → ∀ n, f.getNextStance = .ok n → IsSupport n.type) := by
  obtain ⟨side, k, h1, h2⟩ := reachable_inv hp h
  have hl := walkType_legal h1
  refine ⟨by rw [h2.type]; exact hl.defined k, fun ht n hn => ?_⟩
  obtain ⟨g, hg, hI, -⟩ := walk_step h1 h2
  unfold FSM.getNextStance at hn
  rw [hg] at hn
  rw [← Except.ok.inj hn]
  rw [h2.type] at ht
  have := hl.afterTransition k ht
  rw [← hI.type] at this
  rcases this with (h | h) | h
  · exact Or.inl h
  · exact Or.inr (Or.inl h)
  · exact Or.inr (Or.inr h)

/-- The models which result from updates, as long as they succeed. -/
noncomputable def models (m : Model) (s : ℕ → ModelState) : ℕ → Model
  | 0 => m
  | i + 1 =>
    match (models m s i).updateState (s (i + 1)) with
    | .ok m' => m'
    | .error _ => models m s i

/-- C53, part. Updates with successive stances of any walk never throw and yield the support position which is determined by the
feet, provided that no transition is updated twice in a row. The full claim without this condition is false, see
`C53_transition_refuted`. -/
theorem C53_walk_partial {c : Stance} {p : FSMParams} {g : ℕ → FSM} {t : ℕ → ℕ} {s : ℕ → ModelState} {m : Model} (hp : Proper p)
    (h0 : StanceReachable c p (g 0)) (hw : WalkUpdates g t s) (hm : m.state.stance_type = (g 0).cur.type)
    (hr : ∀ i, ¬ ((g i).cur.type = .tds ∧ (g (i + 1)).cur.type = .tds)) :
    ∃ ms : ℕ → Model, ms 0 = m ∧ ∀ i, (ms i).updateState (s (i + 1)) = .ok (ms (i + 1)) ∧
      IsSupportPosition (ms (i + 1)).state.feet.left.position (ms (i + 1)).state.feet.right.position
        (standing (s (i + 1)).stance_type (s (i + 1)).next_stance_type) (ms (i + 1)).current_support_position := by
  have hR := reachable_all h0 hw.shifts
  have hst : ∀ i, (models m s i).state.stance_type = (g i).cur.type ∧
      (models m s i).updateState (s (i + 1)) = .ok (models m s (i + 1)) := by
    have key : ∀ i, (models m s i).state.stance_type = (g i).cur.type →
        (models m s i).updateState (s (i + 1)) = .ok (models m s (i + 1)) := by
      intro i hi
      obtain ⟨hd, n, hn, hd'⟩ := hw.describes (i + 1)
      have ht := reachable_types hp (hR (i + 1))
      have ht' := reachable_types hp (hR i)
      obtain ⟨m', hm'⟩ := (C53_accepted (models m s i) (s (i + 1))).1.2 (by
        refine ⟨by rw [hd]; exact ht.1, fun e => ⟨?_, ?_⟩⟩
        · rw [hi]
          have h1 := ht'.1
          have h2 : (g i).cur.type ≠ .tds := fun e' => hr i ⟨e', by rw [← hd]; exact e⟩
          revert h1 h2
          cases (g i).cur.type <;> simp [IsSupport]
        · rw [hd']
          exact ht.2 (by rw [← hd]; exact e) n hn)
      have e : models m s (i + 1) = m' := by
        show (match (models m s i).updateState (s (i + 1)) with | .ok m' => m' | .error _ => models m s i) = m'
        rw [hm']
      rw [e]
      exact hm'
    intro i
    induction i with
    | zero => exact ⟨hm, key 0 hm⟩
    | succ i ih =>
      have := (C53_result ih.2).2.1
      rw [(hw.describes (i + 1)).1] at this
      exact ⟨this, key (i + 1) this⟩
  exact ⟨models m s, rfl, fun i => ⟨(hst i).2, (C53_result (hst i).2).1⟩⟩

/-- A terminal double support is followed only by itself. -/
theorem run_ds {p : FSMParams} {side : StanceType} {n k m : ℕ} {f : FSM} {s : ℕ → FSM} (hp : WalkOk p side n)
    (h : WalkInv p side n k f) (hr : RunTo f s m) (ht : f.cur.type = .tds) {i : ℕ} (hi : 1 ≤ i) (him : i ≤ m)
    (hd : (s 1).cur.type = .ds) : (s i).cur.type = .ds := by
  obtain ⟨N, hN, hN'⟩ := (walkType_legal hp).terminal
  have h1 := (runTo_inv hp h hr (show 1 ≤ m by omega)).type
  rw [hd] at h1
  have : N ≤ k + 1 := by
    by_contra hc
    exact hN' (k + 1) (by omega) (by omega) h1.symm
  rw [(runTo_inv hp h hr him).type]
  exact hN _ (by omega)

/-- C53. No transition is updated twice in a row if the time between updates is neither shorter than a transition nor longer than a
single support. -/
theorem C53_interval {c : Stance} {p : FSMParams} {f g : FSM} {t : ℕ} (hp : Proper p) (h : StanceReachable c p f)
    (hs : Returns f t (.ok g)) (h0 : 0 < p.tdsMs) (h1 : p.tdsMs ≤ t) (h2 : t ≤ p.ssMs)
    (hin : f.time < f.cur.duration ∨ f.time = 0) :
    ¬ (f.cur.type = .tds ∧ g.cur.type = .tds) := by
  rintro ⟨hf, hg⟩
  obtain ⟨side, n, hw, hI⟩ := reachable_inv hp h
  have hn : n ≠ 0 := by
    rintro rfl
    have := hI.type
    rw [hf] at this
    rcases hw.first with e | e | e <;> simp [walkType, e] at this
  have hdur : f.cur.duration = p.tdsMs := by rw [hI.duration, if_neg hn, hf]; rfl
  obtain ⟨s, k, hr, e1, -, -, e3, e4⟩ := returns_conserve (reachable_time h) hs
  have e4 := e4 (by omega)
  match k, hr, e1, e3 with
  | 0, hr, e1, e3 =>
    rw [hr.1] at e1
    rw [e1] at e4
    simp only [Finset.range_zero, Finset.sum_empty] at e3
    omega
  | 1, hr, e1, e3 =>
    have ht := runTo_inv hw hI hr (le_refl 1)
    have := (walkType_legal hw).afterTransition n (by rw [← hI.type]; exact hf)
    rw [← ht.type, ← e1, hg] at this
    rcases this with (h | h) | h <;> exact nomatch h
  | k + 2, hr, e1, e3 =>
    have ht := runTo_inv hw hI hr (show 1 ≤ k + 2 by omega)
    have hl := (walkType_legal hw).afterTransition n (by rw [← hI.type]; exact hf)
    rw [← ht.type] at hl
    rcases hl with hl | hl
    · have hd1 : (s 1).cur.duration = p.ssMs := by
        rw [ht.duration, if_neg (by omega)]
        rcases hl with hl | hl <;> rw [hl] <;> rfl
      have hsum : (s 0).cur.duration + (s 1).cur.duration ≤ ∑ i ∈ Finset.range (k + 2), (s i).cur.duration := by
        have h2 : ∑ i ∈ Finset.range 2, (s i).cur.duration ≤ ∑ i ∈ Finset.range (k + 2), (s i).cur.duration :=
          Finset.sum_le_sum_of_subset (fun x hx => by simp only [Finset.mem_range] at *; omega)
        simpa [Finset.sum_range_succ] using h2
      rw [hr.1, hd1, hdur] at hsum
      rcases hin with hin | hin
      · omega
      · omega
    · have := run_ds hw hI hr hf (show 1 ≤ k + 2 by omega) (le_refl _) hl
      rw [← e1, hg] at this
      exact nomatch this

/-- C53, part. As `C53_walk_partial`: updates at intervals which are neither shorter than a transition nor longer than a single
support, starting from the beginning of a stance. -/
theorem C53_sampled_partial {c : Stance} {p : FSMParams} {g : ℕ → FSM} {t : ℕ → ℕ} {s : ℕ → ModelState} {m : Model}
    (hp : Proper p) (h0 : StanceReachable c p (g 0)) (ht0 : (g 0).time = 0) (hw : WalkUpdates g t s)
    (hm : m.state.stance_type = (g 0).cur.type) (htds : 0 < p.tdsMs) (h1 : ∀ i, p.tdsMs ≤ t i) (h2 : ∀ i, t i ≤ p.ssMs) :
    ∃ ms : ℕ → Model, ms 0 = m ∧ ∀ i, (ms i).updateState (s (i + 1)) = .ok (ms (i + 1)) ∧
      IsSupportPosition (ms (i + 1)).state.feet.left.position (ms (i + 1)).state.feet.right.position
        (standing (s (i + 1)).stance_type (s (i + 1)).next_stance_type) (ms (i + 1)).current_support_position := by
  have hR := reachable_all h0 hw.shifts
  refine C53_walk_partial hp h0 hw hm fun i => C53_interval hp (hR i) (hw.shifts i) htds (h1 i) (h2 i) ?_
  cases i with
  | zero => exact Or.inr ht0
  | succ i =>
    obtain ⟨-, -, -, -, -, -, -, h⟩ := returns_conserve (reachable_time (hR i)) (hw.shifts i)
    exact h (Nat.lt_of_lt_of_le htds (h1 i))

/-- Against C53: an update within a transition which was already updated throws, whatever the feet are. -/
theorem C53_transition_refuted (m : Model) (s : ModelState) (hm : m.state.stance_type = .tds) (hs : s.stance_type = .tds) :
    m.updateState s = .error .thrown :=
  (C53_accepted m s).2 fun h => by
    have := (h.2 hs).1
    rw [hm] at this
    exact absurd this (by decide)

/-- This happens in the default walk if the model is updated each 50 ms: the transition, which lasts 100 ms, is seen twice. -/
theorem C53_default_refuted :
    ∃ f g g', FSM.construct FSMParams.default = .ok f ∧ Returns f 300 (.ok g) ∧ Returns g 50 (.ok g') ∧
      g.cur.type = .tds ∧ g'.cur.type = .tds ∧
      ∀ (m : Model) (s : ModelState), m.state.stance_type = g.cur.type → Describes s g' → m.updateState s = .error .thrown :=
  ⟨_, _, _, rfl, ⟨5, rfl⟩, ⟨5, rfl⟩, rfl, rfl, fun m s hm hs => C53_transition_refuted m s hm hs.1⟩

/-- The default walk, updated each 100 ms, meets the conditions of `C53_sampled_partial`. -/
example : ∃ f, FSM.construct FSMParams.default = .ok f ∧ f.time = 0 ∧ Proper FSMParams.default ∧
    0 < FSMParams.default.tdsMs ∧ FSMParams.default.tdsMs ≤ 100 ∧ 100 ≤ FSMParams.default.ssMs :=
  ⟨_, rfl, rfl, fun _ h => absurd h (by decide), by decide, by decide, by decide⟩

/-- Such walks exist, together with the states which describe them. -/
example (com : PointMassState ℝ) (feet : Feet) : ∃ f g t s, FSM.construct FSMParams.default = .ok f ∧ g 0 = f ∧
    WalkUpdates g t s ∧ (∀ i, t i = 100) := by
  have hf : ∃ f, FSM.construct FSMParams.default = .ok f := ⟨_, rfl⟩
  obtain ⟨f, hf⟩ := hf
  have hp : Proper FSMParams.default := fun _ h => absurd h (by decide)
  have hr : StanceReachable {} FSMParams.default f := .init hf
  have step : ∀ x : {f : FSM // StanceReachable {} FSMParams.default f}, ∃ y : {f : FSM // StanceReachable {} FSMParams.default f},
      Returns x.1 100 (.ok y.1) := by
    intro x
    obtain ⟨side, k, h1, h2⟩ := reachable_inv hp x.2
    obtain ⟨g, hg⟩ := walk_returns h1 h2 (by decide) 100
    exact ⟨⟨g, .shiftTime x.2 hg⟩, hg⟩
  choose nxt hnxt using step
  have next : ∀ x : FSM, StanceReachable {} FSMParams.default x → ∃ n, x.getNextStance = .ok n := by
    intro x hx
    obtain ⟨side, k, h1, h2⟩ := reachable_inv hp hx
    obtain ⟨g, hg, -⟩ := walk_step h1 h2
    exact ⟨g.cur, by unfold FSM.getNextStance; rw [hg]; rfl⟩
  let it : ℕ → {f : FSM // StanceReachable {} FSMParams.default f} := fun i => nxt^[i] ⟨f, hr⟩
  choose nx hnx using next
  refine ⟨f, fun i => (it i).1, fun _ => 100, fun i => ⟨com, feet, (it i).1.cur.type, (nx _ (it i).2).type⟩, hf, rfl,
    ⟨fun i => ?_, fun i => ⟨rfl, _, hnx _ (it i).2, rfl⟩⟩, fun _ => rfl⟩
  have := hnxt (it i)
  show Returns (it i).1 100 (.ok (it (i + 1)).1)
  rw [show it (i + 1) = nxt (it i) from Function.iterate_succ_apply' nxt i ⟨f, hr⟩]
  exact this

end Humoto.Wpg
