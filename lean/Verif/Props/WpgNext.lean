import Verif.Props.WpgMpc
import Verif.Spec.WpgNext
import Verif.Props.PepperHorizon

/-!
# C54, C76 and C77: the motion which is executed by the walking pattern generator
-/

namespace Humoto.Wpg

open Humoto.Spec Humoto.Spec.Wpg Humoto.PointMass6z
open scoped Matrix

/-! ## C54 -/

/-- Calls which change the problem. -/
inductive Call
  | update (model : Model) (f : FSM) (w : WalkParameters)
  | parse (sol : Solution ℝ)
  | setParameters (p : MPCParameters)

/-- What they are for the protocol. -/
def Call.kind : Call → CallKind
  | .update _ _ _ => .update
  | .parse _ => .parse
  | .setParameters _ => .other

/-- Effect of a call which does not fail. -/
def Call.Performs (nan : ℝ) (junkH : ℕ → Interval) (junk : ℕ → ℕ → ℕ → ℕ → ℝ) (junkI : ℕ → ℕ → ℕ) (c c' : Mpc) : Call → Prop
  | .update model f w => ∃ st, UpdateReturns nan junkH junk junkI model f w c (.ok (c', st))
  | .parse sol => c.parseSolution (junk 0 0) sol = .ok c'
  | .setParameters p => c' = c.setParameters p

/-- Effect of calls which do not fail. -/
inductive History (nan : ℝ) (junkH : ℕ → Interval) (junk : ℕ → ℕ → ℕ → ℕ → ℝ) (junkI : ℕ → ℕ → ℕ) (p : MPCParameters) :
    List Call → Mpc → Prop
  | start : History nan junkH junk junkI p [] (Mpc.make p)
  | call {calls : List Call} {c c' : Mpc} (h : History nan junkH junk junkI p calls c) (a : Call)
      (e : a.Performs nan junkH junk junkI c c') : History nan junkH junk junkI p (calls ++ [a]) c'

theorem update_flag {nan : ℝ} {junkH : ℕ → Interval} {junk : ℕ → ℕ → ℕ → ℕ → ℝ} {junkI : ℕ → ℕ → ℕ} {model : Model} {f : FSM}
    {w : WalkParameters} {c c' : Mpc} {st : Pepper.Status} (h : UpdateReturns nan junkH junk junkI model f w c (.ok (c', st))) :
    c'.solution_is_parsed = false ∧ c'.parameters = c.parameters := by
  obtain ⟨r, h1, h2⟩ := update_iff.1 h
  match r, h1, h2 with
  | .error e, _, h2 => cases h2
  | .ok (false, H), _, h2 => cases h2; exact ⟨rfl, rfl⟩
  | .ok (true, H), h1, h2 =>
    cases hm : updateMatrices junk junkI c.parameters.preview_horizon_length H model with
    | error e => rw [updateWith_formed.2 e hm] at h2; cases h2
    | ok m =>
      rw [updateWith_formed.1 m hm] at h2
      cases h2
      exact ⟨rfl, rfl⟩

theorem parse_flag {junk : ℕ → ℕ → ℝ} {c c' : Mpc} {sol : Solution ℝ} (h : c.parseSolution junk sol = .ok c') :
    c'.solution_is_parsed = true ∧ c'.parameters = c.parameters ∧ c'.horizon = c.horizon ∧ c'.matrices = c.matrices := by
  unfold Mpc.parseSolution at h
  simp only [bind_eq_ok] at h
  obtain ⟨_, -, _, -, _, -, _, -, _, -, _, -, _, -, _, -, _, -, _, -, h⟩ := h
  cases h
  exact ⟨rfl, rfl, rfl, rfl⟩

theorem history_flag {nan : ℝ} {junkH : ℕ → Interval} {junk : ℕ → ℕ → ℕ → ℕ → ℝ} {junkI : ℕ → ℕ → ℕ} {p : MPCParameters}
    {calls : List Call} {c : Mpc} (h : History nan junkH junk junkI p calls c) :
    c.solution_is_parsed = true ↔ ParsedAfter (calls.map Call.kind) := by
  induction h with
  | start =>
    constructor
    · intro h; cases h
    · rintro ⟨before, after, h, -⟩
      simp at h
  | @call calls c c' h a e ih =>
    rw [List.map_append, List.map_singleton, Pepper.parsedAfter_snoc]
    cases a with
    | update model f w =>
      obtain ⟨st, e⟩ := e
      rw [(update_flag e).1]
      simp [Call.kind]
    | parse sol =>
      rw [(parse_flag e).1]
      simp [Call.kind]
    | setParameters p =>
      cases e
      simp only [Call.kind, reduceCtorEq, false_or, true_and]
      exact ih

/-- **C54**, walking pattern generator. After any history: if no solution has been parsed since the last update then all queries
throw; otherwise the query which parses a solution itself throws. -/
theorem C54_wpg {nan : ℝ} {junkH : ℕ → Interval} {junk : ℕ → ℕ → ℕ → ℕ → ℝ} {junkI : ℕ → ℕ → ℕ} {p : MPCParameters}
    {calls : List Call} {c : Mpc} (h : History nan junkH junk junkI p calls c) :
    (¬ ParsedAfter (calls.map Call.kind) → ∀ model, (∀ f, c.getNextModelState nan f model = .error .thrown) ∧
      c.getFootLandingState model = .error .thrown ∧ ∀ ms, c.getCoMState model ms = .error .thrown) ∧
    (ParsedAfter (calls.map Call.kind) → ∀ sol f model,
      c.parseAndGetNextModelState nan (junk 0 0) sol f model = .error .thrown) := by
  rw [← history_flag h]
  constructor
  · intro hf model
    refine ⟨fun f => ?_, ?_, fun ms => ?_⟩
    · unfold Mpc.getNextModelState
      rw [assertThat_false hf]
      rfl
    · unfold Mpc.getFootLandingState
      rw [assertThat_false hf]
      rfl
    · unfold Mpc.getCoMState
      rw [assertThat_false hf]
      rfl
  · intro hf sol f model
    unfold Mpc.parseAndGetNextModelState
    rw [assertThat_false (by rw [hf]; simp)]
    rfl

/-- **C54**, walking pattern generator: both ways to parse a solution and to query the next state agree. -/
theorem C54_wpg_next {nan : ℝ} {junk : ℕ → ℕ → ℝ} {c c' : Mpc} {sol : Solution ℝ} (hpar : c.solution_is_parsed = false)
    (h : c.parseSolution junk sol = .ok c') (f : FSM) (model : Model) :
    c.parseAndGetNextModelState nan junk sol f model = (c'.getNextModelState nan f model).map fun s => (c', s) := by
  unfold Mpc.parseAndGetNextModelState Mpc.getNextModelState
  rw [assertThat_true hpar, ok_bind, h, ok_bind, assertThat_true (parse_flag h).1, ok_bind]
  cases c'.initializeNextModelState nan f model <;> rfl

/-! ## C76: the state at a given time -/

/-- The interval of the other controller with the same duration. -/
def toPepper (iv : Interval) : Pepper.Interval ℝ :=
  { cop_bounds := 0, nominal_base_velocity_bounds := 0, nominal_base_acceleration_bounds := 0, body_bounds := 0, base_vel_ref := 0,
    base_pos_ref := 0, base_height := 0, body_height := 0, base_mass := 0, body_mass := 0, T_ms := iv.T_ms, T := iv.T,
    theta := 0, rotation := 0 }

theorem findInterval_eq (v : Vec Interval) : ∀ left i ms : ℕ,
    Mpc.findInterval v left i ms =
      Pepper.intervalByOffsetMs i ((List.range left).map fun j => toPepper (v.e (i + j))) ms
  | 0, i, ms => rfl
  | left + 1, i, ms => by
    rw [List.range_succ_eq_map, List.map_cons, List.map_map]
    show (if ms > (v.e i).T_ms then _ else _) = if ms > (v.e (i + 0)).T_ms then _ else _
    rw [findInterval_eq v left (i + 1) (ms - (v.e i).T_ms), Nat.add_zero]
    have e : ((fun j => toPepper (v.e (i + j))) ∘ Nat.succ) = fun j => toPepper (v.e (i + 1 + j)) := by
      funext j
      show toPepper (v.e (i + (j + 1))) = _
      rw [show i + (j + 1) = i + 1 + j by omega]
    rw [e]
    rfl

/-- Which interval is found. -/
theorem findInterval_spec (H : Horizon) (ms : ℕ) :
    (∀ k rest, Mpc.findInterval H.intervals H.intervals.n 0 ms = .ok (k, rest) ↔ Contains (durations H) ms k rest) ∧
    (Mpc.findInterval H.intervals H.intervals.n 0 ms = .error .thrown ↔ H.intervals.n = 0 ∨ (durations H).sum < ms) := by
  rw [findInterval_eq]
  have e : (((List.range H.intervals.n).map fun j => toPepper (H.intervals.e (0 + j))).map fun iv => iv.T_ms) = durations H := by
    rw [List.map_map]
    unfold durations
    congr 1
    funext j
    show (H.intervals.e (0 + j)).T_ms = _
    rw [Nat.zero_add]
  obtain ⟨h1, h2⟩ := Pepper.C58_milliseconds ((List.range H.intervals.n).map fun j => toPepper (H.intervals.e (0 + j))) ms
  rw [e] at h1 h2
  refine ⟨h1, h2.trans ?_⟩
  rw [List.map_eq_nil_iff, List.range_eq_nil]

theorem fixedSegment_ok {v : Vec ℝ} {off n : ℕ} (h : off + n ≤ v.n) :
    fixedSegment v off n = .ok fun i => v.e (off + i) := by
  unfold fixedSegment
  rw [Pepper.segment_ok h]
  rfl

theorem hasState_evaluate (t T h : ℝ) (x : Fin 6 → ℝ) (u : Fin 2 → ℝ) :
    HasState h (fromCoMState (evaluate t T h x u)) (evaluate t T h x u) := ⟨rfl, rfl, rfl⟩

/-- Profiles of a parsed solution, together with the motion which they describe. -/
structure Parsed (model : Model) (c : Mpc) (P cop : ℕ → Fin 2 → ℝ) (X : ℕ → Fin 6 → ℝ) : Prop where
  consistent : Consistent model c
  flag : c.solution_is_parsed = true
  profiles : PredictionProfiles c.horizon model P cop X c
  motion : ∃ x, Prediction c.horizon model x P cop X

/-- A parsed solution. -/
theorem parsed_of {c : Mpc} {model : Model} (hc : Consistent model c) {sol : Solution ℝ} (hs : SolutionFor c.horizon sol)
    (junk : ℕ → ℕ → ℝ) : ∃ c' P cop X, c.parseSolution junk sol = .ok c' ∧ Prediction c.horizon model (entries sol) P cop X ∧
      Parsed model c' P cop X ∧ c'.parameters = c.parameters ∧ c'.horizon = c.horizon := by
  obtain ⟨P, cop, X, hX, -⟩ := C75_motion hc (entries sol)
  obtain ⟨c', e, h1, h2, h3, h4, h5⟩ := C75_profiles hc hs hX junk
  refine ⟨c', P, cop, X, e, hX, ⟨⟨?_, ?_, ?_, ?_, hc.height⟩, h2, ?_, ?_⟩, h3, h4⟩
  · rw [h3, h4]; exact hc.size
  · rw [h4, h5]; exact hc.matrices
  · rw [h4, h5]; exact hc.rotations
  · rw [h4]; exact hc.times
  · rw [h4]; exact h1
  · rw [h4]; exact ⟨_, hX⟩

/-- **C76.** The state at the time `ms` after the beginning of the horizon is that of the predicted motion at this time, whichever
interval the time belongs to. -/
theorem C76_state {c : Mpc} {model : Model} {P cop : ℕ → Fin 2 → ℝ} {X : ℕ → Fin 6 → ℝ} (h : Parsed model c P cop X) {ms k rest : ℕ}
    (hk : Contains (durations c.horizon) ms k rest) :
    ∃ s x, c.getCoMState model ms = .ok s ∧ HasState model.getCoMHeight x s ∧
      Moves model.getCoMHeight (c.horizon.intervals.e k).T (rest / 1000) (X k) (cop k) x := by
  obtain ⟨⟨_, hn⟩, -, -, ht, hh⟩ := h.consistent
  have hlt : k < c.horizon.intervals.n := by
    have := hk.inside
    simpa [durations] using this
  obtain ⟨t1, t2, t3⟩ := ht k hlt
  obtain ⟨x0, hX⟩ := h.motion
  obtain ⟨z1, z2, -, -⟩ := h.profiles.sizes
  have hpre : (if k = 0 then pure model.getCState else fixedSegment c.cstate_profile ((k - 1) * 6) 6 : Res (Fin 6 → ℝ)) =
      .ok (X k) := by
    split
    · rename_i e
      rw [e, hX.start]
      rfl
    · rename_i e
      obtain ⟨j, rfl⟩ : ∃ j, k = j + 1 := ⟨k - 1, by omega⟩
      rw [fixedSegment_ok (by omega)]
      congr 1
      funext l
      rw [← h.profiles.states j (by omega) l, show (j + 1 - 1) * 6 = 6 * j by omega]
  have hcop : fixedSegment c.cop_profile (k * 2) 2 = .ok (cop k) := by
    rw [fixedSegment_ok (by omega)]
    congr 1
    funext a
    rw [← h.profiles.pressure k hlt a, show k * 2 = 2 * k by omega]
  have hT : seconds (c.horizon.intervals.e k).T_ms = (c.horizon.intervals.e k).T := by
    unfold seconds
    rw [← t2]
    ring
  refine ⟨_, _, ?_, hasState_evaluate (seconds rest) (c.horizon.intervals.e k).T model.getCoMHeight (X k) (cop k), ?_⟩
  · unfold Mpc.getCoMState
    have hget : c.horizon.intervals.get k = .ok (c.horizon.intervals.e k) := by
      unfold Vec.get
      rw [if_pos hlt]
    rw [assertThat_true h.flag, ok_bind, ((findInterval_spec c.horizon ms).1 k rest).2 hk, ok_bind, hget, ok_bind]
    simp only
    rw [hpre, ok_bind, hcop, ok_bind, hT, t3]
    rfl
  · exact (moves_iff hh t1.ne' _ _ _ _).2 rfl

/-- **C76.** Beyond the horizon there is an exception. -/
theorem C76_beyond {c : Mpc} {model : Model} {P cop : ℕ → Fin 2 → ℝ} {X : ℕ → Fin 6 → ℝ} (h : Parsed model c P cop X) {ms : ℕ} :
    ((durations c.horizon).sum < ms → c.getCoMState model ms = .error .thrown) ∧
    (¬ (durations c.horizon).sum < ms → ∃ k rest, Contains (durations c.horizon) ms k rest) := by
  have hn := h.consistent.size.2
  obtain ⟨h1, h2⟩ := findInterval_spec c.horizon ms
  constructor
  · intro hs
    unfold Mpc.getCoMState
    rw [assertThat_true h.flag, ok_bind, h2.2 (Or.inr hs)]
    rfl
  · intro hs
    cases hf : Mpc.findInterval c.horizon.intervals c.horizon.intervals.n 0 ms with
    | ok r => exact ⟨r.1, r.2, (h1 r.1 r.2).1 hf⟩
    | error e =>
      exfalso
      have he : e = .thrown := by
        have : ∀ (v : Vec Interval) (left i ms : ℕ), Mpc.findInterval v left i ms = .error e → e = .thrown := by
          intro v left
          induction left with
          | zero => intro i ms h; cases h; rfl
          | succ n ih =>
            intro i ms h
            unfold Mpc.findInterval at h
            split at h
            · exact ih _ _ h
            · cases h
        exact this _ _ _ _ hf
      subst he
      rcases h2.1 hf with e | e
      · omega
      · exact hs e

/-- **C76.** At the end of an interval it is the state in the profile. -/
theorem C76_end {c : Mpc} {model : Model} {P cop : ℕ → Fin 2 → ℝ} {X : ℕ → Fin 6 → ℝ} (h : Parsed model c P cop X) {k : ℕ}
    (hk : Contains (durations c.horizon) (startOf (durations c.horizon) (k + 1)) k (c.horizon.intervals.e k).T_ms) :
    ∃ s, c.getCoMState model (startOf (durations c.horizon) (k + 1)) = .ok s ∧ HasState model.getCoMHeight (X (k + 1)) s := by
  obtain ⟨s, x, h1, h2, h3⟩ := C76_state h hk
  obtain ⟨-, -, -, ht, hh⟩ := h.consistent
  have hlt : k < c.horizon.intervals.n := by
    have := hk.inside
    simpa [durations] using this
  obtain ⟨t1, t2, -⟩ := ht k hlt
  obtain ⟨x0, hX⟩ := h.motion
  have hT : ((c.horizon.intervals.e k).T_ms : ℝ) / 1000 = (c.horizon.intervals.e k).T := by
    rw [← t2]
    ring
  rw [hT] at h3
  have e1 := (moves_iff hh t1.ne' _ _ _ _).1 h3
  have e2 := (moves_iff hh t1.ne' _ _ _ _).1 (hX.motion k hlt)
  rw [e2, ← e1]
  exact ⟨s, h1, h2⟩

/-! ## C77: the next state -/

theorem footPosition_turned (p : FootParameters ℝ) {side : LeftOrRight} (hs : side ≠ .undefined) (θ : ℝ) (pos : Fin 2 → ℝ) :
    ∃ xy, p.getFootPositionFromADS side (rotation2 θ) pos = .ok xy ∧
      IsTurned θ (beside p.feetDistDefault side) ![xy 0 - pos 0, xy 1 - pos 1] := by
  cases side with
  | undefined => exact absurd rfl hs
  | left =>
    refine ⟨_, rfl, ?_⟩
    constructor <;>
      simp [transform2, FootParameters.leftFoot, rotation2, beside, mul_comm]
  | right =>
    refine ⟨_, rfl, ?_⟩
    constructor <;>
      simp [transform2, FootParameters.rightFoot, rotation2, beside, mul_comm]

/-- What is known about the first step of a horizon. -/
structure StepKnown (H : Horizon) (s : WalkState) : Prop where
  first : FirstStep H s
  support : IsSupport s.stance.type
  rotation : s.rotation = rotation2 s.theta

theorem landingState_ok {c : Mpc} {model : Model} {P cop : ℕ → Fin 2 → ℝ} {X : ℕ → Fin 6 → ℝ}
    (h : PredictionProfiles c.horizon model P cop X c) {s : WalkState} (hs : StepKnown c.horizon s)
    (hm : IsSingle model.state.stance_type) {side other : LeftOrRight} (ho : side.invert = .ok other) {foot : RigidBodyState ℝ}
    (hf : model.getFootState other = .ok foot) :
    ∃ r, c.landingState model side = .ok r ∧ Landed model.params.feetDistDefault side foot s (P 1) r := by
  obtain ⟨⟨k, hk, hs1⟩, hsup, hrot⟩ := hs
  have hlen : 0 < c.horizon.variable_steps.length := (List.getElem?_eq_some_iff.mp hk).1
  have hseg : fixedSegment c.footpos_profile 0 2 = .ok (P 1) := by
    rw [fixedSegment_ok (by have := h.sizes.2.2.2; omega)]
    congr 1
    funext a
    rw [← h.supports 0 hlen a, Nat.mul_zero]
  have hn : nth c.horizon.variable_steps 0 = .ok k := by
    unfold nth
    rw [hk]
  have hside : side ≠ .undefined := by rintro rfl; cases ho
  obtain ⟨xy, e1, e2⟩ := footPosition_turned model.params hside s.theta (P 1)
  have hland : ∃ xy, c.landingPosition model side s = .ok xy ∧ (IsSingle s.stance.type → xy = P 1) ∧
      (s.stance.type = .ds → IsTurned s.theta (beside model.params.feetDistDefault side) ![xy 0 - P 1 0, xy 1 - P 1 1]) := by
    unfold Mpc.landingPosition
    rcases hsup with ht | ht | ht <;> rw [ht]
    · exact ⟨_, hseg, fun _ => rfl, fun e => by cases e⟩
    · exact ⟨_, hseg, fun _ => rfl, fun e => by cases e⟩
    · refine ⟨xy, ?_, fun e => ?_, fun _ => e2⟩
      · simp only
        rw [if_pos (show _ ∨ _ from hm.symm), hseg, ok_bind, hrot, e1]
      · rcases e with e | e <;> cases e
  obtain ⟨xy', e3, e4, e5⟩ := hland
  unfold Mpc.landingState
  rw [hn, ok_bind, hs1, ok_bind, ho, ok_bind, e3, ok_bind, hf, ok_bind]
  refine ⟨_, rfl, fun hi => ?_, fun hd => ?_, rfl, rfl, rfl, rfl, rfl, rfl⟩
  · rw [← e4 hi]
    exact ⟨rfl, rfl⟩
  · exact e5 hd

/-- **C77.** The landing foot which is reported during a single support. -/
theorem C77_landing {c : Mpc} {model : Model} {P cop : ℕ → Fin 2 → ℝ} {X : ℕ → Fin 6 → ℝ} (h : Parsed model c P cop X) {s : WalkState}
    (hs : StepKnown c.horizon s) :
    (model.state.stance_type = .lss → ∃ r, c.getFootLandingState model = .ok r ∧
      Landed model.params.feetDistDefault .right model.state.feet.left s (P 1) r) ∧
    (model.state.stance_type = .rss → ∃ r, c.getFootLandingState model = .ok r ∧
      Landed model.params.feetDistDefault .left model.state.feet.right s (P 1) r) ∧
    (¬ IsSingle model.state.stance_type → c.getFootLandingState model = .error .thrown) := by
  refine ⟨fun hm => ?_, fun hm => ?_, fun hm => ?_⟩
  · obtain ⟨r, h1, h2⟩ := landingState_ok h.profiles hs (Or.inl hm) (side := .right) rfl (foot := model.state.feet.left) rfl
    refine ⟨r, ?_, h2⟩
    unfold Mpc.getFootLandingState
    rw [assertThat_true h.flag, ok_bind, assertThat_true (Or.inr hm), ok_bind, hm]
    exact h1
  · obtain ⟨r, h1, h2⟩ := landingState_ok h.profiles hs (Or.inr hm) (side := .left) rfl (foot := model.state.feet.right) rfl
    refine ⟨r, ?_, h2⟩
    unfold Mpc.getFootLandingState
    rw [assertThat_true h.flag, ok_bind, assertThat_true (Or.inl hm), ok_bind, hm]
    exact h1
  · unfold Mpc.getFootLandingState
    rw [assertThat_true h.flag, ok_bind, assertThat_false (fun e => hm (show _ ∨ _ from e.symm))]
    rfl

/-- Against **C77**: when no step begins within the horizon, the query of the landing foot has undefined behaviour. -/
theorem C77_landing_refuted {c : Mpc} {model : Model} (hf : c.solution_is_parsed = true) (hs : c.horizon.variable_steps = [])
    (hm : IsSingle model.state.stance_type) : c.getFootLandingState model = .error .ub := by
  have hl : ∀ side, c.landingState model side = .error .ub := by
    intro side
    unfold Mpc.landingState
    rw [hs]
    rfl
  unfold Mpc.getFootLandingState
  rw [assertThat_true hf, ok_bind, assertThat_true (show _ ∨ _ from Or.symm hm), ok_bind]
  rcases hm with e | e <;> rw [e] <;> exact hl _

theorem nextFeet_ok (nan : ℝ) {c : Mpc} {model : Model} {P cop : ℕ → Fin 2 → ℝ} {X : ℕ → Fin 6 → ℝ}
    (h : PredictionProfiles c.horizon model P cop X c) {f : FSM} (hf : f.cur.type ≠ .undefined)
    (hd : f.cur.type = .tds → f.tdsStarted = true → IsSupport model.state.stance_type) (S : WalkState → Prop)
    (hl : Landing model.state.stance_type f → ∃ s, S s ∧ StepKnown c.horizon s) :
    ∃ r, c.nextFeet nan f model = .ok r ∧
      NextFeet model f (fun side foot r => ∃ s, S s ∧ Landed model.params.feetDistDefault side foot s (P 1) r) r := by
  unfold Mpc.nextFeet
  have hds : ∀ {t : StanceType}, f.cur.type = t → t ≠ .tds → ¬ Landing model.state.stance_type f := fun h1 h2 h3 =>
    h2 (h1.symm.trans h3.1)
  have hne : ∀ {t t' : StanceType}, f.cur.type = t → t ≠ t' → ¬ f.cur.type = t' := fun h1 h2 h3 => h2 (h1.symm.trans h3)
  cases ht : f.cur.type with
  | undefined => exact absurd ht hf
  | lss =>
    have hn := hds ht (by decide)
    exact ⟨_, rfl, fun _ => rfl, fun e => absurd e (hne ht (by decide)),
      fun e => e.elim (fun e => absurd e (hne ht (by decide))) fun e => absurd e.1 (hne ht (by decide)),
      fun e => absurd e hn, fun e => absurd e hn⟩
  | rss =>
    have hn := hds ht (by decide)
    exact ⟨_, rfl, fun e => absurd e (hne ht (by decide)), fun _ => rfl,
      fun e => e.elim (fun e => absurd e (hne ht (by decide))) fun e => absurd e.1 (hne ht (by decide)),
      fun e => absurd e hn, fun e => absurd e hn⟩
  | ds =>
    have hn := hds ht (by decide)
    exact ⟨_, rfl, fun e => absurd e (hne ht (by decide)), fun e => absurd e (hne ht (by decide)), fun _ => rfl,
      fun e => absurd e hn, fun e => absurd e hn⟩
  | tds =>
    have hL := hne ht (show StanceType.tds ≠ .lss by decide)
    have hR := hne ht (show StanceType.tds ≠ .rss by decide)
    have hD := hne ht (show StanceType.tds ≠ .ds by decide)
    simp only
    by_cases hb : f.tdsStarted = true
    · have hsup := hd ht hb
      by_cases hmd : model.state.stance_type = .ds
      · rw [if_neg (fun e => e.2 hmd)]
        have hn : ¬ Landing model.state.stance_type f := by
          rintro ⟨-, -, e⟩
          rw [hmd] at e
          rcases e with e | e <;> cases e
        exact ⟨_, rfl, fun e => absurd e hL, fun e => absurd e hR, fun _ => rfl, fun e => absurd e hn, fun e => absurd e hn⟩
      · have hsi : IsSingle model.state.stance_type := by
          rcases hsup with e | e | e
          · exact Or.inl e
          · exact Or.inr e
          · exact absurd e hmd
        have hland : Landing model.state.stance_type f := ⟨ht, hb, hsi⟩
        obtain ⟨s, hS, hk⟩ := hl hland
        rw [if_pos ⟨hb, hmd⟩]
        rcases hsi with e | e
        · obtain ⟨r, h1, h2⟩ := landingState_ok h hk (Or.inl e) (side := .right) rfl (foot := model.state.feet.left) rfl
          have e1 : Mpc.landingFoot model.state.stance_type = .ok .right := by rw [e]; rfl
          rw [e1, ok_bind, show LeftOrRight.right.invert = .ok .left from rfl, ok_bind, h1, ok_bind]
          exact ⟨_, rfl, fun e => absurd e hL, fun e => absurd e hR,
            fun e => e.elim (fun e => absurd e hD) fun e => absurd hland e.2,
            fun _ _ => ⟨rfl, s, hS, h2⟩, fun _ e' => absurd (e.symm.trans e') (by decide)⟩
        · obtain ⟨r, h1, h2⟩ := landingState_ok h hk (Or.inr e) (side := .left) rfl (foot := model.state.feet.right) rfl
          have e1 : Mpc.landingFoot model.state.stance_type = .ok .left := by rw [e]; rfl
          rw [e1, ok_bind, show LeftOrRight.left.invert = .ok .right from rfl, ok_bind, h1, ok_bind]
          exact ⟨_, rfl, fun e => absurd e hL, fun e => absurd e hR,
            fun e => e.elim (fun e => absurd e hD) fun e => absurd hland e.2,
            fun _ e' => absurd (e.symm.trans e') (by decide), fun _ _ => ⟨rfl, s, hS, h2⟩⟩
    · rw [if_neg (fun e => hb e.1)]
      have hn : ¬ Landing model.state.stance_type f := fun e => hb e.2.1
      exact ⟨_, rfl, fun e => absurd e hL, fun e => absurd e hR, fun _ => rfl, fun e => absurd e hn, fun e => absurd e hn⟩

/-- **C77.** The next state: the centre of mass moves with the controls of the first interval for the subsampling time, the stances
are those of the machine, and the feet stand where they are unless one of them lands. -/
theorem C77_next (nan : ℝ) {c : Mpc} {model : Model} {P cop : ℕ → Fin 2 → ℝ} {X : ℕ → Fin 6 → ℝ} (h : Parsed model c P cop X) {f : FSM}
    {n : Stance} (hf : f.cur.type ≠ .undefined) (hn : f.getNextStance = .ok n)
    (hd : f.cur.type = .tds → f.tdsStarted = true → IsSupport model.state.stance_type)
    (hl : Landing model.state.stance_type f → ∃ s, StepKnown c.horizon s) :
    ∃ s x, c.getNextModelState nan f model = .ok s ∧ HasState model.getCoMHeight x s.com_state ∧
      Moves model.getCoMHeight (c.horizon.intervals.e 0).T c.parameters.subsampling_time (X 0) (cop 0) x ∧ Describes s f ∧
      NextFeet model f (fun side foot r => ∃ s, FirstStep c.horizon s ∧ Landed model.params.feetDistDefault side foot s (P 1) r)
        s.feet := by
  obtain ⟨⟨_, hN⟩, -, -, ht, hh⟩ := h.consistent
  obtain ⟨t1, t2, t3⟩ := ht 0 hN
  obtain ⟨x0, hX⟩ := h.motion
  obtain ⟨z1, z2, -, -⟩ := h.profiles.sizes
  have hcop : fixedSegment c.cop_profile 0 2 = .ok (cop 0) := by
    rw [fixedSegment_ok (by omega)]
    congr 1
    funext a
    rw [← h.profiles.pressure 0 hN a, Nat.mul_zero]
  have hget : c.horizon.intervals.get 0 = .ok (c.horizon.intervals.e 0) := by
    unfold Vec.get
    rw [if_pos hN]
  obtain ⟨r, e1, e2⟩ := nextFeet_ok nan h.profiles hf hd (FirstStep c.horizon) fun e => by
    obtain ⟨s, hs⟩ := hl e
    exact ⟨s, hs.first, hs⟩
  refine ⟨⟨evaluate c.parameters.subsampling_time (c.horizon.intervals.e 0).T model.getCoMHeight (X 0) (cop 0), r, f.cur.type,
    n.type⟩, _, ?_, hasState_evaluate c.parameters.subsampling_time (c.horizon.intervals.e 0).T model.getCoMHeight (X 0) (cop 0),
    (moves_iff hh t1.ne' _ _ _ _).2 rfl, ⟨rfl, n, hn, rfl⟩, e2⟩
  unfold Mpc.getNextModelState Mpc.initializeNextModelState
  rw [assertThat_true h.flag, ok_bind, hget, ok_bind, hcop, ok_bind]
  simp only
  rw [hn, ok_bind, e1, ok_bind, hX.start, t3]
  rfl

end Humoto.Wpg
