import Verif.Spec.WpgHotstart
import Verif.Lemmas.WpgUnique

/-!
# The control problem does not depend on memory which is not initialised
-/

namespace Humoto.Wpg

open Spec Spec.Wpg

/-- Two states of the loop of `form` which differ in memory only. -/
structure SameForm (N : ℕ) (y y' : FormState) : Prop where
  sizes : y.intervals.n = N ∧ y'.intervals.n = N
  steps : y'.steps = y.steps
  index : y'.index = y.index
  walk : y'.walk = y.walk
  intervals : ∀ i < y.index, i < N → y'.intervals.e i = y.intervals.e i

theorem set_ok {v w : Vec Interval} {i : ℕ} {x : Interval} (h : v.set i x = .ok w) : i < v.n ∧ w = ⟨v.n, Function.update v.e i x⟩ := by
  unfold Vec.set at h
  split at h
  · rename_i hi
    exact ⟨hi, (Except.ok.inj h).symm⟩
  · cases h

theorem formGroup_same {N T : ℕ} {y y' r r' : FormState} {x : Interval} {left : ℕ} (h : SameForm N y y')
    (e : formGroup N T y x left = .ok r) (e' : formGroup N T y' x left = .ok r') : SameForm N r r' := by
  unfold formGroup at e e'
  simp only [bind_eq_ok] at e e'
  obtain ⟨v, hv, w, hw, e⟩ := e
  obtain ⟨v', hv', w', hw', e'⟩ := e'
  obtain ⟨h1, rfl⟩ := set_ok hv
  obtain ⟨h1', rfl⟩ := set_ok hv'
  obtain ⟨s1, s2⟩ := h.sizes
  rw [h.index] at hw'
  obtain ⟨w1, f1, f2, f3, f4⟩ := fill_ok ⟨y.intervals.n, Function.update y.intervals.e y.index x⟩ (y.index + 1)
    (min N (wrap (y.index + 1 + left))) { x with T_ms := T, T := seconds T } (by simp only; omega)
  obtain ⟨w2, g1, g2, g3, g4⟩ := fill_ok ⟨y'.intervals.n, Function.update y'.intervals.e y.index x⟩ (y.index + 1)
    (min N (wrap (y.index + 1 + left))) { x with T_ms := T, T := seconds T } (by simp only; omega)
  cases hw.symm.trans f1
  cases hw'.symm.trans g1
  cases e
  cases e'
  refine ⟨⟨f2.trans s1, g2.trans s2⟩, h.steps, ?_, ?_, ?_⟩
  · simp only [h.index]
  · simp only [h.walk]
  · intro i hi hN
    simp only at hi ⊢
    by_cases hc : y.index + 1 ≤ i
    · rw [f3 i hc (by omega), g3 i hc (by omega)]
    · rw [f4 i (by omega), g4 i (by omega)]
      show Function.update _ _ _ _ = Function.update _ _ _ _
      by_cases hy : i = y.index
      · subst hy
        simp
      · rw [Function.update_of_ne hy, Function.update_of_ne hy, h.intervals i (by omega) hN]

theorem formLoop_same {N T Ttds : ℕ} {height : ℝ} : ∀ (n : ℕ) (rest : List WalkState), rest.length ≤ n → ∀ {y y' r r' : FormState},
    SameForm N y y' → formLoop N T Ttds height rest y = .ok r → formLoop N T Ttds height rest y' = .ok r' →
    SameForm N r r' ∧ N ≤ r.index := by
  intro n
  induction n with
  | zero =>
    intro rest hn y y' r r' h e e'
    obtain rfl : rest = [] := List.length_eq_zero_iff.1 (by omega)
    unfold formLoop at e e'
    rw [h.index] at e'
    split at e
    · cases e
    · rename_i hc
      rw [if_neg hc] at e'
      cases e
      cases e'
      exact ⟨h, by omega⟩
  | succ n ih =>
    intro rest hn y y' r r' h e e'
    unfold formLoop at e e'
    rw [h.index, h.walk] at e'
    by_cases hc : y.index < N
    swap
    · rw [if_neg hc] at e e'
      cases e
      cases e'
      exact ⟨h, by omega⟩
    rw [if_pos hc] at e e'
    match rest, hn with
    | [], _ => cases e
    | s :: rest, hn =>
      simp only at e e'
      by_cases hw : y.walk = 0
      · rw [if_pos hw] at e e'
        by_cases ht : s.stance.type = .tds
        · rw [if_pos ht] at e e'
          match rest, hn with
          | [], _ => cases e
          | s' :: rest, hn =>
            simp only [bind_eq_ok] at e e'
            obtain ⟨left, hl, y1, hy1, e⟩ := e
            obtain ⟨left', hl', y1', hy1', e'⟩ := e'
            cases hl.symm.trans hl'
            refine ih rest (by simp only [List.length_cons] at hn; omega) (formGroup_same ?_ hy1 hy1') e e'
            exact ⟨h.sizes, h.steps, rfl, rfl, h.intervals⟩
        · rw [if_neg ht] at e e'
          simp only [bind_eq_ok] at e e'
          obtain ⟨left, hl, y1, hy1, e⟩ := e
          obtain ⟨left', hl', y1', hy1', e'⟩ := e'
          cases hl.symm.trans hl'
          exact ih rest (by simp only [List.length_cons] at hn; omega) (formGroup_same h hy1 hy1') e e'
      · rw [if_neg hw] at e e'
        simp only [bind_eq_ok] at e e'
        obtain ⟨-, -, e⟩ := e
        obtain ⟨-, -, e'⟩ := e'
        match rest, hn with
        | [], _ => cases e
        | s' :: rest, hn =>
          simp only [bind_eq_ok] at e e'
          obtain ⟨left, hl, y1, hy1, e⟩ := e
          obtain ⟨left', hl', y1', hy1', e'⟩ := e'
          cases hl.symm.trans hl'
          refine ih rest (by simp only [List.length_cons] at hn; omega) (formGroup_same ?_ hy1 hy1') e e'
          exact ⟨h.sizes, by simp only [h.steps], rfl, rfl, h.intervals⟩

theorem form_same {nan : ℝ} {junk junk' : ℕ → Interval} {old old' : Horizon} {q : MPCParameters} {m : Model} {f : FSM} {w : WalkParameters}
    {H H' : Horizon} (h : FormReturns nan junk old q m f w (.ok (true, H))) (h' : FormReturns nan junk' old' q m f w (.ok (true, H'))) :
    SameHorizon H H' := by
  obtain ⟨a, ha⟩ := h
  obtain ⟨b, hb⟩ := h'
  unfold form at ha hb
  split at ha
  · cases ha
  · cases ha
  rename_i l hl
  split at hb
  · cases hb
  · cases hb
  rename_i l' hl'
  have h1 := previewStances_mono hl (Nat.le_max_left a b)
  have h2 := previewStances_mono hl' (Nat.le_max_right a b)
  obtain rfl : l = l' := Except.ok.inj (Option.some.inj (h1.symm.trans h2))
  have ha := Option.some.inj ha
  have hb := Option.some.inj hb
  unfold formWith at ha hb
  simp only [bind_eq_ok] at ha hb
  obtain ⟨ws, hws, ha⟩ := ha
  obtain ⟨ws', hws', hb⟩ := hb
  cases hws.symm.trans hws'
  split at ha
  · cases ha
  rename_i hc
  rw [if_neg hc] at hb
  simp only [bind_eq_ok] at ha hb
  obtain ⟨y, hy, ha⟩ := ha
  obtain ⟨y', hy', hb⟩ := hb
  cases ha
  cases hb
  have h0 : SameForm q.preview_horizon_length ⟨resize junk old.intervals q.preview_horizon_length, [], 0, 0⟩
      ⟨resize junk' old'.intervals q.preview_horizon_length, [], 0, 0⟩ := ⟨⟨rfl, rfl⟩, rfl, rfl, rfl, fun i hi => by simp only at hi; omega⟩
  obtain ⟨hs, hN⟩ := formLoop_same _ _ le_rfl h0 hy hy'
  refine ⟨hs.steps, rfl, hs.sizes.2.trans hs.sizes.1.symm, fun i hi => ?_⟩
  have := hs.sizes.1
  simp only at hi
  exact hs.intervals i (by omega) (by omega)

section
variable {H H' : Horizon} {model : Model} {o : ProblemSetup} (h : SameHorizon H H')
include h

theorem _root_.Humoto.Spec.Wpg.SameHorizon.symm : SameHorizon H' H :=
  ⟨h.steps.symm, h.states.symm, h.size.symm, fun i hi => (h.intervals i (by rw [← h.size]; exact hi)).symm⟩

theorem _root_.Humoto.Spec.Wpg.SameHorizon.walkState (i : ℕ) : H'.getWalkState i = H.getWalkState i := by
  unfold Horizon.getWalkState Vec.get
  rw [h.size, h.states]
  split
  · rename_i hi
    rw [h.intervals i hi]
  · rfl

theorem _root_.Humoto.Spec.Wpg.SameHorizon.prediction {x : ℕ → ℝ} {P cop : ℕ → Fin 2 → ℝ} {X : ℕ → Fin 6 → ℝ} (hp : Prediction H model x P cop X) :
    Prediction H' model x P cop X := by
  refine ⟨⟨hp.footsteps.start, ?_⟩, ?_, hp.start, ?_⟩
  · intro j k s hk hs
    rw [h.walkState] at hs
    rw [h.steps] at hk
    rw [h.size]
    exact hp.footsteps.step j k s hk hs
  · intro i s hi hs
    rw [h.walkState] at hs
    rw [h.size] at hi
    unfold stepsBy
    rw [h.steps]
    exact hp.pressure i s hi hs
  · intro i hi
    rw [h.size] at hi
    rw [h.intervals i hi]
    exact hp.motion i hi

theorem _root_.Humoto.Spec.Wpg.SameHorizon.allowed {x : ℕ → ℝ} (hx : AllowedMotion o H model x) : AllowedMotion o H' model x := by
  refine ⟨?_, ?_, fun ht P cop X hP a => ?_⟩
  · have hs := hx.steps
    split_ifs at hs ⊢
    · intro j k s hk hw
      rw [h.walkState] at hw
      rw [h.steps] at hk
      rw [h.size]
      exact hs j k s hk hw
    · intro j k s hk hw
      rw [h.walkState] at hw
      rw [h.steps] at hk
      rw [h.size]
      exact hs j k s hk hw
  · intro i s hi hs
    rw [h.walkState] at hs
    rw [h.size] at hi
    exact hx.cop i s hi hs
  · rw [h.size]
    exact hx.terminal ht P cop X (h.symm.prediction hP) a

theorem _root_.Humoto.Spec.Wpg.SameHorizon.cost {x : ℕ → ℝ} {c : ℝ} (hc : IsCost o H model x c) : IsCost o H' model x c := by
  obtain ⟨P, cop, X, V, h1, h2, h3⟩ := hc
  refine ⟨P, cop, X, V, h.prediction h1, fun i hi a => ?_, ?_⟩
  · rw [h.size] at hi
    rw [h.intervals i hi]
    exact h2 i hi a
  · rw [h3]
    unfold walkCost
    rw [h.size]
    refine Finset.sum_congr rfl fun i hi => ?_
    rw [h.intervals i (Finset.mem_range.1 hi)]

theorem _root_.Humoto.Spec.Wpg.SameHorizon.moderate {x : ℕ → ℝ} (hx : ModerateSolution H x) : ModerateSolution H' x := by
  unfold ModerateSolution
  rw [h.size, h.steps]
  exact hx

theorem _root_.Humoto.Spec.Wpg.SameHorizon.best {x : ℕ → ℝ} (hx : BestMotion o H model 0 (ModerateSolution H) x) :
    BestMotion o H' model 0 (ModerateSolution H') x := by
  refine ⟨h.allowed hx.allowed, fun c y d hc hy hS hd => ?_⟩
  rw [h.size, h.steps]
  exact hx.least c y d (h.symm.cost hc) (h.symm.allowed hy) (h.symm.moderate hS) (h.symm.cost hd)

end

theorem fixedSegment_same {v v' : Vec ℝ} {off n : ℕ} (hn : v'.n = v.n) (he : ∀ i, off ≤ i → i < off + n → i < v.n → v'.e i = v.e i) :
    fixedSegment v' off n = fixedSegment v off n := by
  by_cases h : off + n ≤ v.n
  · rw [fixedSegment_ok h, fixedSegment_ok (by rw [hn]; exact h)]
    congr 1
    ext i
    have := i.isLt
    exact he _ (by omega) (by omega) (by omega)
  · unfold fixedSegment Kron.segment
    simp only [hn, if_neg h]

/-- The next state depends on the horizon, the first centre of pressure and the first step only. -/
theorem next_same {nan : ℝ} {c c' : Mpc} {f : FSM} {model : Model} (hH : SameHorizon c.horizon c'.horizon)
    (hp : c'.parameters = c.parameters) (h0 : 0 < c.horizon.intervals.n)
    (hz : fixedSegment c'.cop_profile 0 2 = fixedSegment c.cop_profile 0 2)
    (hs : fixedSegment c'.footpos_profile 0 2 = fixedSegment c.footpos_profile 0 2) :
    c'.initializeNextModelState nan f model = c.initializeNextModelState nan f model := by
  have e1 : c'.horizon.intervals.get 0 = c.horizon.intervals.get 0 := by
    unfold Vec.get
    rw [hH.size, hH.intervals 0 h0]
  have e2 : ∀ landing, c'.landingState model landing = c.landingState model landing := by
    intro landing
    unfold Mpc.landingState Mpc.landingPosition
    simp only [hH.steps, hH.walkState, hs]
  have e3 : c'.nextFeet nan f model = c.nextFeet nan f model := by
    unfold Mpc.nextFeet
    simp only [e2]
  unfold Mpc.initializeNextModelState
  simp only [e1, hz, hp, e3]

end Humoto.Wpg
