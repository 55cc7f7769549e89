import Verif.Props.WpgNext

/-!
# C76, C77 and C78 for walks: states which are reached by the walking pattern generator
-/

namespace Humoto.Wpg

open Humoto.Spec Humoto.Spec.Wpg Humoto.PointMass6z
open scoped Matrix

/-- The first step of a horizon which has been formed. -/
theorem step_known {c : Stance} {p : FSMParams} {f : FSM} (h : StanceReachable c p f) (hp : Proper p)
    (hf : f.time < f.cur.duration) {q : MPCParameters} (hN : q.preview_horizon_length < 2 ^ 63) {nan : ℝ} {junk : ℕ → Interval}
    {old H : Horizon} {m : Model} {w : WalkParameters} (hr : FormReturns nan junk old q m f w (.ok (true, H)))
    (hs : H.variable_steps ≠ []) : ∃ s, StepKnown H s := by
  obtain ⟨l, -, -, hW, hF⟩ := formed_of h hp hf hN hr
  obtain ⟨l2, side, k, hw, hS, hE, hmap, hacc, hpos⟩ := formed_entries h hp hf hN hr
  have el : l2 = l := hmap.symm.trans hW.stances
  subst el
  obtain ⟨k, hk⟩ : ∃ k, H.variable_steps[0]? = some k := ⟨_, List.getElem?_eq_getElem (List.length_pos_iff.2 hs)⟩
  have hkN := (hW.range k (List.mem_of_getElem? hk)).2
  obtain ⟨s, hs1, hs2⟩ := hW.supports k hkN
  obtain ⟨x, hx, hrot⟩ := hF.states _ s hs1
  have hst : x.stance = s := by
    have := hmap ▸ hs1
    rw [List.getElem?_map, hx] at this
    exact Option.some.inj this
  refine ⟨x, ⟨k, hk, (Horizon.getWalkState_ok (by rw [hW.size]; exact hkN)).2 hx⟩, ?_, hrot⟩
  rw [hst]
  have := (hacc _ s hs1).1.1
  revert hs2 this
  cases s.type <;> simp [IsSupport]

/-- The state of the walk in an interval. -/
theorem follows_state {N T Ttds : ℕ} {height : ℝ} {l : List Stance} {H : Horizon} (h : FollowsWalk N T Ttds height l H) {i : ℕ}
    (hi : i < N) : ∃ s, H.getWalkState i = .ok s := by
  obtain ⟨s, hs, -⟩ := h.supports i hi
  rw [← h.stances, List.getElem?_map] at hs
  obtain ⟨x, hx, -⟩ := Option.map_eq_some_iff.1 hs
  exact ⟨x, (Horizon.getWalkState_ok (by rw [h.size]; exact hi)).2 hx⟩

/-- A solution for a given horizon. -/
def solutionOf (H : Horizon) (x : List ℝ) : Solution ℝ :=
  ⟨solutionStructure H.intervals.n H.variable_steps.length, x, .ok⟩

theorem solutionOf_for {H : Horizon} {x : List ℝ} (h : x.length = 2 * H.intervals.n + 2 * H.variable_steps.length) :
    SolutionFor H (solutionOf H x) := ⟨rfl, h⟩

/-- The controller after an update in a state which is reached after the time `t`, when the preview is known. -/
theorem consistent_at {p : FSMParams} {f g : FSM} {t N T sub Ttds : ℕ} {q : MPCParameters} {l : List Stance}
    (hf : FSM.construct p = .ok f) (hg : Returns f t (.ok g)) (hq : MPCParameters.make N T sub Ttds = .ok q) (hp : Proper p)
    (ht : g.time < g.cur.duration) (hN : N < 2 ^ 63) (hd : 0 < N * T) (hl : PreviewReturns g (N * T) (.ok l)) (hr : ¬ Reentered g)
    (hsum : (l.map (·.duration)).sum = N * T) (hcap : N ≤ capacity T l) (hlast : ReachesLast N T l) (hT : 0 < Ttds) (nan : ℝ)
    (junkH : ℕ → Interval) (junk : ℕ → ℕ → ℕ → ℕ → ℝ) (junkI : ℕ → ℕ → ℕ) (w : WalkParameters) {model : Model}
    (hh : 0 < model.getCoMHeight) :
    ∃ mpc, UpdateReturns nan junkH junk junkI model g w (Mpc.make q) (.ok (mpc, .ok)) ∧ Consistent model mpc ∧ mpc.parameters = q ∧
      FollowsWalk N T Ttds model.getCoMHeight l mpc.horizon ∧ (mpc.horizon.variable_steps ≠ [] → ∃ s, StepKnown mpc.horizon s) := by
  obtain ⟨e1, e2, -, e3, -⟩ := C55_derived hq
  obtain ⟨-, h2, -⟩ := update_at hf hg hq hp ht hN hd hl hr hsum hcap nan junkH junk junkI model w
  obtain ⟨mpc, hu⟩ := h2 hlast
  have hreach : StanceReachable {} p g := .shiftTime (.init hf) hg
  have hpar : (Mpc.make q).parameters = q := rfl
  obtain ⟨h3, h4, -, l', hl', hF⟩ := C75_matrices hreach hp ht (by rw [hpar, e1]; exact hN) (by rw [hpar, e3]; exact hT) hh hu
  rw [hpar, e1, e2] at hl'
  cases preview_unique hl hl'
  rw [hpar, e1, e2, e3] at hF
  refine ⟨mpc, hu, h3, h4, hF, fun hs => ?_⟩
  obtain ⟨H, m, k1, k2, k3⟩ := update_ok hu
  subst k3
  exact step_known hreach hp ht (by rw [hpar, e1]; exact hN) k1 hs

/-- The parameters of a foot. -/
noncomputable def feet20 : FootParameters ℝ := ⟨1 / 5, 19 / 100, 3 / 10, 1 / 5, 1 / 5, 1 / 10⟩

/-- A robot which stands. -/
noncomputable def standing20 (nan : ℝ) (t : StanceType) : Model :=
  ⟨feet20, ⟨⟨![0, 0, 1], 0, 0⟩, ⟨⟨![0, 1 / 10, 0], 0, 0, 0, fun _ => nan, fun _ => nan⟩,
    ⟨![0, -1 / 10, 0], 0, 0, 0, fun _ => nan, fun _ => nan⟩⟩, t, .undefined⟩, ![0, 0]⟩

theorem standing20_height (nan : ℝ) (t : StanceType) : 0 < (standing20 nan t).getCoMHeight := one_pos

/-- The default walk 400 ms after its beginning, in a single support: a state to which the theorems C76 and C77 apply. -/
theorem walk_at_400 (nan : ℝ) (junkH : ℕ → Interval) (junk : ℕ → ℕ → ℕ → ℕ → ℝ) (junkI : ℕ → ℕ → ℕ) (w : WalkParameters) :
    ∃ f g q mpc, FSM.construct FSMParams.default = .ok f ∧ Returns f 400 (.ok g) ∧ MPCParameters.make 16 100 100 100 = .ok q ∧
      UpdateReturns nan junkH junk junkI (standing20 nan .rss) g w (Mpc.make q) (.ok (mpc, .ok)) ∧
      Consistent (standing20 nan .rss) mpc ∧ mpc.parameters = q ∧ mpc.horizon.variable_steps.length = 2 ∧
      mpc.horizon.intervals.n = 16 ∧ (∃ s, StepKnown mpc.horizon s) ∧ ∀ i < 16, (mpc.horizon.intervals.e i).T_ms = 100 := by
  obtain ⟨mpc, h1, h2, h3, h4, h5⟩ := consistent_at (p := FSMParams.default) (t := 400) (N := 16) (T := 100) (sub := 100) (Ttds := 100)
    (l := [⟨.rss, .lss, .ds, .intermediate, 700, 700⟩,
      ⟨.tds, .rss, .rss, .intermediate, 100, 100⟩, ⟨.lss, .rss, .rss, .intermediate, 700, 700⟩,
      ⟨.tds, .lss, .lss, .intermediate, 100, 100⟩, ⟨.rss, .lss, .lss, .intermediate, 0, 0⟩]) rfl ⟨10, rfl⟩ rfl default_proper
    (by decide) (by decide) (by decide) ⟨10, rfl⟩ (by rintro ⟨h, -⟩; cases h) rfl (by decide) (show _ < _ by decide) (by decide) nan
    junkH junk junkI w (standing20_height nan .rss)
  have hlen : mpc.horizon.variable_steps.length = 2 := by
    have a := h4.allSteps 1 (by decide)
    by_contra hne
    have b := h4.steps 2 _ (List.getElem?_eq_getElem (by omega))
    have c := (h4.range _ (List.getElem_mem (n := 2) (by omega))).2
    rw [b] at c
    revert c
    decide
  refine ⟨_, _, _, mpc, rfl, ⟨10, rfl⟩, rfl, h1, h2, h3, hlen, h4.size, h5 (by rw [← List.length_pos_iff]; omega), fun i hi => ?_⟩
  by_cases h0 : i = 0
  · subst h0
    rw [h4.firstTime]
    rfl
  · rw [h4.nextTimes i hi (by omega)]
    split <;> rfl

/-- The state in the middle of the second interval. -/
example (nan : ℝ) (junkH : ℕ → Interval) (junk : ℕ → ℕ → ℕ → ℕ → ℝ) (junkI : ℕ → ℕ → ℕ) (w : WalkParameters) :
    ∃ mpc sol mpc' s, Consistent (standing20 nan .rss) mpc ∧ SolutionFor mpc.horizon sol ∧
      mpc.parseSolution (junk 0 0) sol = .ok mpc' ∧ Contains (durations mpc'.horizon) 150 1 50 ∧
      mpc'.getCoMState (standing20 nan .rss) 150 = .ok s := by
  obtain ⟨-, -, -, mpc, -, -, -, -, h2, -, h3, h4, -, h6⟩ := walk_at_400 nan junkH junk junkI w
  have hs := solutionOf_for (H := mpc.horizon) (x := List.replicate 36 0) (by rw [h3, h4]; rfl)
  obtain ⟨c', P, cop, X, e1, -, e2, -, e3⟩ := parsed_of h2 hs (junk 0 0)
  have hd : durations c'.horizon = List.replicate 16 100 := by
    unfold durations
    rw [e3, h4, List.eq_replicate_iff]
    refine ⟨by simp, fun b hb => ?_⟩
    obtain ⟨i, hi, rfl⟩ := List.mem_map.1 hb
    exact h6 i (List.mem_range.1 hi)
  have hc : Contains (durations c'.horizon) 150 1 50 := by
    rw [hd]
    constructor <;> decide
  obtain ⟨s, -, h, -⟩ := C76_state e2 hc
  exact ⟨mpc, _, c', s, h2, hs, e1, hc, h⟩

/-- The default walk after one more control cycle: the next state. -/
example (nan : ℝ) (junkH : ℕ → Interval) (junk : ℕ → ℕ → ℕ → ℕ → ℝ) (junkI : ℕ → ℕ → ℕ) (w : WalkParameters) :
    ∃ (mpc : Mpc) (sol : Solution ℝ) (mpc' : Mpc) (f g : FSM) (s : ModelState) (r : RigidBodyState ℝ),
      SolutionFor mpc.horizon sol ∧ mpc.parseSolution (junk 0 0) sol = .ok mpc' ∧
      FSM.construct FSMParams.default = .ok f ∧ Returns f 1100 (.ok g) ∧ Landing .rss g ∧
      mpc'.getNextModelState nan g (standing20 nan .rss) = .ok s ∧ s.feet.right = (standing20 nan .rss).state.feet.right ∧
      mpc'.getFootLandingState (standing20 nan .rss) = .ok r := by
  obtain ⟨-, -, -, mpc, -, -, -, -, h2, -, h3, h4, ⟨x, hx⟩, h6⟩ := walk_at_400 nan junkH junk junkI w
  have hs := solutionOf_for (H := mpc.horizon) (x := List.replicate 36 0) (by rw [h3, h4]; rfl)
  obtain ⟨c', P, cop, X, e1, -, e2, -, e3⟩ := parsed_of h2 hs (junk 0 0)
  rw [← e3] at hx
  obtain ⟨f, g, n, hf, hg, hL, hn⟩ : ∃ f g n, FSM.construct FSMParams.default = .ok f ∧ Returns f 1100 (.ok g) ∧ Landing .rss g ∧
      g.getNextStance = .ok n := ⟨_, _, _, rfl, ⟨10, rfl⟩, ⟨rfl, rfl, Or.inr rfl⟩, rfl⟩
  obtain ⟨s, -, k1, -, -, -, k2⟩ := C77_next nan e2 (by rw [hL.1]; decide) hn (fun _ _ => Or.inr (Or.inl rfl)) fun _ => ⟨x, hx⟩
  obtain ⟨r, k3, -⟩ := (C77_landing e2 hx).2.1 rfl
  exact ⟨mpc, _, c', f, g, s, r, hs, e1, hf, hg, hL, k1, (k2.leftLands hL rfl).1, k3⟩

/-- **C77.** As long as the subsampling time is not longer than the first interval, the next state of the centre of mass is the state
which is predicted for this time. -/
theorem C77_agrees_partial {nan : ℝ} {c : Mpc} {model : Model} {P cop : ℕ → Fin 2 → ℝ} {X : ℕ → Fin 6 → ℝ} (h : Parsed model c P cop X)
    {ms : ℕ} (hms : 1000 * c.parameters.subsampling_time = ms) (hle : ms ≤ (c.horizon.intervals.e 0).T_ms) {f : FSM} {s : ModelState}
    (hs : c.getNextModelState nan f model = .ok s) : c.getCoMState model ms = .ok s.com_state := by
  obtain ⟨⟨_, hn⟩, -, -, ht, hh⟩ := h.consistent
  obtain ⟨t1, t2, t3⟩ := ht 0 hn
  have hget : c.horizon.intervals.get 0 = .ok (c.horizon.intervals.e 0) := by
    unfold Vec.get
    rw [if_pos hn]
  have hT : seconds (c.horizon.intervals.e 0).T_ms = (c.horizon.intervals.e 0).T := by
    unfold seconds
    rw [← t2]
    ring
  have hsub : seconds ms = c.parameters.getSubsamplingTime := by
    unfold seconds
    rw [← hms]
    show _ = c.parameters.subsampling_time
    ring
  obtain ⟨n, hk⟩ : ∃ n, c.horizon.intervals.n = n + 1 := ⟨c.horizon.intervals.n - 1, by omega⟩
  have hfind : Mpc.findInterval c.horizon.intervals c.horizon.intervals.n 0 ms = .ok (0, ms) := by
    rw [hk]
    unfold Mpc.findInterval
    rw [if_neg (by omega)]
  unfold Mpc.getNextModelState Mpc.initializeNextModelState at hs
  rw [assertThat_true h.flag, ok_bind, hget, ok_bind] at hs
  simp only [bind_eq_ok] at hs
  obtain ⟨z, hz, nx, -, feet, -, hs⟩ := hs
  cases hs
  unfold Mpc.getCoMState
  rw [assertThat_true h.flag, ok_bind, hfind, ok_bind, hget, ok_bind]
  simp only [if_true]
  show (do
    let control ← fixedSegment c.cop_profile (0 * 2) 2
    pure (evaluate (seconds ms) (seconds (c.horizon.intervals.e 0).T_ms) (c.horizon.intervals.e 0).com_height model.getCState control)) = _
  rw [Nat.zero_mul, hz, ok_bind, hT, hsub]
  rfl

/-- Entries of the state of a point mass. -/
def posIx (k : Fin 2) : Fin 6 := if k = 0 then 0 else 3
def accIx (k : Fin 2) : Fin 6 := if k = 0 then 2 else 5

theorem moves_zmp {h T t : ℝ} {x x' : Fin 6 → ℝ} {u : Fin 2 → ℝ} (hM : Moves h T t x u x') (k : Fin 2) {z0 : ℝ}
    (h0 : IsZmp gravity h (x (posIx k)) (x (accIx k)) z0) :
    IsZmp gravity h (x' (posIx k)) (x' (accIx k)) (z0 + t / T * (u k - z0)) := by
  obtain ⟨c, v, a, z, -, h2, h3, h4, h5⟩ := hM
  have hg : gravity ≠ 0 := by unfold gravity; norm_num
  have e0 : z k 0 = z0 := by
    have := h2 k 0
    unfold IsZmp at this h0
    have e1 : x (posIx k) = c k 0 := by rw [h4]; fin_cases k <;> rfl
    have e2 : x (accIx k) = a k 0 := by rw [h4]; fin_cases k <;> rfl
    rw [e1, e2, this] at h0
    have := mul_left_cancel₀ hg h0
    linarith
  have e1 : x' (posIx k) = c k t := by rw [h5]; fin_cases k <;> rfl
  have e2 : x' (accIx k) = a k t := by rw [h5]; fin_cases k <;> rfl
  rw [e1, e2, ← e0, ← h3 k t]
  exact h2 k t

theorem zmp_unique {h c a z z' : ℝ} (h1 : IsZmp gravity h c a z) (h2 : IsZmp gravity h c a z') : z = z' := by
  have hg : gravity ≠ 0 := by unfold gravity; norm_num
  unfold IsZmp at h1 h2
  have := mul_left_cancel₀ hg (h1.symm.trans h2)
  linarith

theorem hasState_inj {h : ℝ} {x x' : Fin 6 → ℝ} {s : PointMassState ℝ} (h1 : HasState h x s) (h2 : HasState h x' s) : x = x' := by
  have p := h1.position.symm.trans h2.position
  have v := h1.velocity.symm.trans h2.velocity
  have a := h1.acceleration.symm.trans h2.acceleration
  ext i
  fin_cases i
  · exact congrFun p 0
  · exact congrFun v 0
  · exact congrFun a 0
  · exact congrFun p 1
  · exact congrFun v 1
  · exact congrFun a 1

/-- Against **C77**: when the remaining time of a transition is shorter than the subsampling time, the motion of the first interval is
continued beyond its end, and the next state differs from the predicted one: here the ZMP is four times as far. -/
theorem C77_agrees_refuted (nan : ℝ) (junkH : ℕ → Interval) (junk : ℕ → ℕ → ℕ → ℕ → ℝ) (junkI : ℕ → ℕ → ℕ) (w : WalkParameters) :
    ∃ f g g' q mpc sol mpc' s s', FSM.construct FSMParams.default = .ok f ∧ Returns f 350 (.ok g) ∧ Returns g 100 (.ok g') ∧
      MPCParameters.make 3 100 100 100 = .ok q ∧
      UpdateReturns nan junkH junk junkI (standing20 nan .tds) g w (Mpc.make q) (.ok (mpc, .ok)) ∧ SolutionFor mpc.horizon sol ∧
      mpc.parseSolution (junk 0 0) sol = .ok mpc' ∧ mpc'.getNextModelState nan g' (standing20 nan .tds) = .ok s ∧
      mpc'.getCoMState (standing20 nan .tds) q.subsampling_time_ms = .ok s' ∧ s.com_state ≠ s' := by
  obtain ⟨f, g, g', n, hf, hg, hg', hty, hn, ht, hl, hr⟩ : ∃ f g g' n, FSM.construct FSMParams.default = .ok f ∧
      Returns f 350 (.ok g) ∧ Returns g 100 (.ok g') ∧ g'.cur.type = .rss ∧ g'.getNextStance = .ok n ∧ g.time < g.cur.duration ∧
      PreviewReturns g (3 * 100) (.ok [⟨.tds, .lss, .ds, .intermediate, 50, 100⟩, ⟨.rss, .lss, .ds, .intermediate, 250, 700⟩]) ∧
      ¬ Reentered g :=
    ⟨_, _, _, _, rfl, ⟨10, rfl⟩, ⟨10, rfl⟩, rfl, rfl, by decide, ⟨10, rfl⟩, by rintro ⟨h, -⟩; cases h⟩
  obtain ⟨q, hq⟩ : ∃ q, MPCParameters.make 3 100 100 100 = .ok q := ⟨_, rfl⟩
  obtain ⟨mpc, h1, h2, h3, h4, -⟩ := consistent_at hf hg hq default_proper ht (by decide) (by decide) hl hr rfl (by decide)
    (show _ < _ by decide) (by decide) nan junkH junk junkI w (standing20_height nan .tds)
  have hsteps : mpc.horizon.variable_steps = [] := by
    by_contra hne
    have hl := List.length_pos_iff.2 hne
    have b := h4.steps 0 _ (List.getElem?_eq_getElem hl)
    have c := (h4.range _ (List.getElem_mem (n := 0) hl)).2
    rw [b] at c
    revert c
    decide
  have hsize := h4.size
  have hs := solutionOf_for (H := mpc.horizon) (x := [1, 0, 0, 0, 0, 0]) (by rw [hsteps, hsize]; rfl)
  obtain ⟨c', P, cop, X, e1, hX, e2, e4, e3⟩ := parsed_of h2 hs (junk 0 0)
  obtain ⟨-, -, q1, -, -, -, -, q2, -⟩ := C55_derived hq
  obtain ⟨s, x, k1, k2, k3, -⟩ := C77_next nan e2 (by rw [hty]; decide) hn (fun e => absurd (hty.symm.trans e) (by decide))
    (fun e => absurd (hty.symm.trans e.1) (by decide))
  have t0 : (mpc.horizon.intervals.e 0).T_ms = 50 := h4.firstTime
  have t1 : (mpc.horizon.intervals.e 1).T_ms = 100 := by
    rw [h4.nextTimes 1 (by decide) (by decide)]
    split <;> rfl
  have t2 : (mpc.horizon.intervals.e 2).T_ms = 100 := by
    rw [h4.nextTimes 2 (by decide) (by decide)]
    split <;> rfl
  have u0 : (mpc.horizon.intervals.e 0).T = 1 / 20 := by
    have := h4.seconds 0 (by decide)
    rw [t0] at this
    push_cast at this
    linarith
  have u1 : (mpc.horizon.intervals.e 1).T = 1 / 10 := by
    have := h4.seconds 1 (by decide)
    rw [t1] at this
    push_cast at this
    linarith
  have hc : Contains (durations c'.horizon) 100 1 50 := by
    have : durations c'.horizon = [50, 100, 100] := by
      unfold durations
      rw [e3, hsize]
      show [(mpc.horizon.intervals.e 0).T_ms, (mpc.horizon.intervals.e 1).T_ms, (mpc.horizon.intervals.e 2).T_ms] = _
      rw [t0, t1, t2]
    rw [this]
    constructor <;> decide
  obtain ⟨s', x', m1, m2, m3⟩ := C76_state e2 hc
  refine ⟨f, g, g', q, mpc, _, c', s, s', hf, hg, hg', hq, h1, hs, e1, k1, by rw [q1]; exact m1, ?_⟩
  intro he
  rw [← he] at m2
  have hx := hasState_inj k2 m2
  subst hx
  rw [e3, u0, e4, h3] at k3
  rw [e3, u1] at m3
  have hsub : q.subsampling_time = 1 / 10 := by
    have : 1000 * q.subsampling_time = 100 := by exact_mod_cast q2
    linarith
  rw [hsub] at k3
  have hM := hX.motion 0 (by rw [hsize]; decide)
  rw [u0] at hM
  have hP : ∀ i < 3, P (stepsBy mpc.horizon i) = 0 := by
    intro i hi
    unfold stepsBy
    rw [hsteps]
    show P 0 = 0
    rw [hX.footsteps.start]
    show ![(0 : ℝ), 0] = 0
    ext i
    fin_cases i <;> rfl
  obtain ⟨w0, hw0⟩ := follows_state h4 (i := 0) (by decide)
  obtain ⟨w1, hw1⟩ := follows_state h4 (i := 1) (by decide)
  have c0 := hX.pressure 0 w0 (by rw [hsize]; decide) hw0
  have c1 := hX.pressure 1 w1 (by rw [hsize]; decide) hw1
  rw [hP _ (by decide), sub_zero] at c0 c1
  obtain ⟨c00, c01⟩ := c0
  obtain ⟨c10, c11⟩ := c1
  have z0 : cop 0 0 = Real.cos w0.theta := by
    rw [c00]
    simp [entries, solutionOf]
  have z1 : cop 0 1 = Real.sin w0.theta := by
    rw [c01]
    simp [entries, solutionOf]
  have y0 : cop 1 0 = 0 := by
    rw [c10]
    simp [entries, solutionOf]
  have y1 : cop 1 1 = 0 := by
    rw [c11]
    simp [entries, solutionOf]
  have hy : ∀ k, cop 1 k = 0 := fun k => by fin_cases k <;> assumption
  have hz : ∀ k, cop 0 k = 0 := by
    intro k
    have a0 : IsZmp gravity (standing20 nan .tds).getCoMHeight (X 0 (posIx k)) (X 0 (accIx k)) 0 := by
      rw [hX.start]
      unfold IsZmp
      have b1 : (standing20 nan .tds).getCState (posIx k) = 0 := by fin_cases k <;> rfl
      have b2 : (standing20 nan .tds).getCState (accIx k) = 0 := by fin_cases k <;> rfl
      rw [b1, b2]
      ring
    have a1 := moves_zmp hM k a0
    have a2 := moves_zmp k3 k a0
    have a3 := moves_zmp m3 k a1
    have := zmp_unique a2 a3
    rw [hy k] at this
    norm_num at this
    linarith
  rw [hz 0] at z0
  rw [hz 1] at z1
  have := Real.sin_sq_add_cos_sq w0.theta
  rw [← z0, ← z1] at this
  norm_num at this

/-- The query of the landing foot has undefined behaviour in the default walk, when five intervals are previewed in a single support. -/
example (nan : ℝ) (junkH : ℕ → Interval) (junk : ℕ → ℕ → ℕ → ℕ → ℝ) (junkI : ℕ → ℕ → ℕ) (w : WalkParameters) :
    ∃ f g q mpc sol mpc', FSM.construct FSMParams.default = .ok f ∧ Returns f 400 (.ok g) ∧ MPCParameters.make 5 100 100 100 = .ok q ∧
      UpdateReturns nan junkH junk junkI (standing20 nan .rss) g w (Mpc.make q) (.ok (mpc, .ok)) ∧ SolutionFor mpc.horizon sol ∧
      mpc.parseSolution (junk 0 0) sol = .ok mpc' ∧ mpc'.getFootLandingState (standing20 nan .rss) = .error .ub := by
  obtain ⟨mpc, h1, h2, h3, h4, -⟩ := consistent_at (p := FSMParams.default) (t := 400) (N := 5) (T := 100) (sub := 100) (Ttds := 100)
    (l := [⟨.rss, .lss, .ds, .intermediate, 500, 700⟩]) rfl ⟨10, rfl⟩ rfl default_proper
    (by decide) (by decide) (by decide) ⟨10, rfl⟩ (by rintro ⟨h, -⟩; cases h) rfl (by decide) (show _ < _ by decide) (by decide) nan
    junkH junk junkI w (standing20_height nan .rss)
  have hsteps : mpc.horizon.variable_steps = [] := by
    by_contra hne
    have hl := List.length_pos_iff.2 hne
    have b := h4.steps 0 _ (List.getElem?_eq_getElem hl)
    have c := (h4.range _ (List.getElem_mem (n := 0) hl)).2
    rw [b] at c
    revert c
    decide
  have hs := solutionOf_for (H := mpc.horizon) (x := List.replicate 10 0) (by rw [hsteps, h4.size]; rfl)
  obtain ⟨c', P, cop, X, e1, hX, e2, e4, e3⟩ := parsed_of h2 hs (junk 0 0)
  exact ⟨_, _, _, mpc, _, c', rfl, ⟨10, rfl⟩, rfl, h1, hs, e1, C77_landing_refuted e2.flag (by rw [e3]; exact hsteps) (Or.inr rfl)⟩

/-! ## C78: the guess of the solution -/

theorem copyData_ok {g old : Solution ℝ} {a b len : ℕ} (h1 : a + len ≤ g.x.length) (h2 : b + len ≤ old.x.length) :
    ∃ g', Mpc.copyData g old ⟨a, len⟩ ⟨b, len⟩ = .ok g' ∧ g'.structure_ = g.structure_ ∧ g'.x.length = g.x.length ∧
      ∀ i, entries g' i = if a ≤ i ∧ i < a + len then entries old (b + (i - a)) else entries g i := by
  obtain ⟨v, e, nv, hv⟩ := Pepper.getData_ok (sol := old) (off := b) (len := len) h2
  have hfit : a + v.length ≤ g.x.length := by omega
  have hc : a + len ≤ g.x.length := h1
  unfold Mpc.copyData
  rw [e, ok_bind, assertThat_true ((Location.checkLength_iff _ _).2 hc), ok_bind, require_true nv, ok_bind]
  unfold Solution.setData
  rw [assertThat_true ((Location.checkLength_iff _ _).2 hc), ok_bind]
  have ec := copyInto_ok (buf := g.x) (src := v) hfit
  rw [ec, ok_bind]
  refine ⟨_, rfl, rfl, copyInto_length ec, ?_⟩
  intro i
  have hg := copyInto_get ec i
  show List.getD _ i 0 = _
  rw [List.getD_eq_getElem?_getD, hg]
  by_cases h : a ≤ i ∧ i < a + len
  · rw [if_pos h, if_pos (by omega), ← List.getD_eq_getElem?_getD, hv _ (by omega)]
    rfl
  · rw [if_neg h, if_neg (by omega), ← List.getD_eq_getElem?_getD]
    rfl

theorem copyData_ub {g old : Solution ℝ} {a b n m : ℕ} (h1 : a + n ≤ g.x.length) (h2 : b + m ≤ old.x.length) (hnm : n ≠ m) :
    Mpc.copyData g old ⟨a, n⟩ ⟨b, m⟩ = .error .ub := by
  obtain ⟨v, e, nv, -⟩ := Pepper.getData_ok (sol := old) (off := b) (len := m) h2
  unfold Mpc.copyData
  have hc : a + n ≤ g.x.length := h1
  rw [e, ok_bind, assertThat_true ((Location.checkLength_iff _ _).2 hc), ok_bind, require_false (by show ¬ v.length = n; omega)]
  rfl

theorem location_cop (N m : ℕ) : (solutionStructure N m).location copId = ⟨0, N * 2⟩ := rfl

theorem location_footpos (N m : ℕ) : (solutionStructure N m).location footposId = ⟨N * 2, m * 2⟩ := by
  show (⟨0 + N * 2, m * 2⟩ : Location) = _
  rw [Nat.zero_add]

theorem nvars_structure (N m : ℕ) : (solutionStructure N m).nvars = 2 * N + 2 * m := by
  show 0 + N * 2 + m * 2 = _
  omega

/-- The part of the centres of pressure. -/
theorem guess_cop {c : Mpc} {N n m : ℕ} (hN : 0 < N) (guess : Solution ℝ) (hc : c.matrices.solution = solutionStructure N m)
    {old : Solution ℝ} (ho : old.structure_ = solutionStructure N n) (hx : old.x.length = 2 * N + 2 * n) :
    ∃ g : Solution ℝ, c.guessSolution guess old = Mpc.guessFootpos g old ∧ g.structure_ = solutionStructure N m ∧
      g.x.length = 2 * N + 2 * m ∧ ∀ i, entries g i = if i + 2 < 2 * N then entries old (i + 2) else 0 := by
  have hz : ∀ i, entries (guess.initializeValue (solutionStructure N m) (0 : ℝ)) i = 0 := by
    intro i
    show List.getD (List.replicate _ _) i 0 = 0
    simp [List.getD_eq_getElem?_getD, List.getElem?_replicate]
    split <;> rfl
  have hlen : (guess.initializeValue (solutionStructure N m) (0 : ℝ)).x.length = 2 * N + 2 * m := by
    show (List.replicate _ _).length = _
    rw [List.length_replicate, nvars_structure]
  have hm : Pepper.minusTwo (N * 2) = N * 2 - 2 := by unfold Pepper.minusTwo; rw [if_pos (by omega)]
  obtain ⟨g, e, s, l, h⟩ := copyData_ok (g := guess.initializeValue (solutionStructure N m) 0) (old := old) (a := 0) (b := 0 + 2)
    (len := N * 2 - 2) (by rw [hlen]; omega) (by rw [hx]; omega)
  have hl : (guess.initializeValue (solutionStructure N m) (0 : ℝ)).structure_.location copId = ⟨0, N * 2⟩ := location_cop N m
  refine ⟨g, ?_, s.trans rfl, l.trans hlen, fun i => ?_⟩
  · unfold Mpc.guessSolution
    simp only
    rw [hc, if_pos (by rw [ho, nvars_structure]; exact ⟨rfl, by omega⟩), hl, ho, location_cop, hm, e, ok_bind]
  · rw [h i]
    by_cases hi : i + 2 < 2 * N
    · rw [if_pos hi, if_pos (by omega)]
      congr 1
      omega
    · rw [if_neg hi, if_neg (by omega), hz]

/-- The part of the steps. -/
theorem guess_steps {N n m : ℕ} {g old : Solution ℝ} (ho : old.structure_ = solutionStructure N n) (hx : old.x.length = 2 * N + 2 * n)
    (hg : g.structure_ = solutionStructure N m) (hy : g.x.length = 2 * N + 2 * m) :
    (n ≤ m + 1 → m ≤ n + 1 → ∃ g', Mpc.guessFootpos g old = .ok g' ∧ g'.structure_ = g.structure_ ∧ g'.x.length = g.x.length ∧
      (∀ i < 2 * N, entries g' i = entries g i) ∧
      ∀ i < 2 * m, entries g' (2 * N + i) = if n = m + 1 then entries old (2 * N + (i + 2)) else if i < 2 * n then entries old (2 * N + i)
        else entries g (2 * N + i)) ∧
    (¬ (n ≤ m + 1 ∧ m ≤ n + 1) → Mpc.guessFootpos g old = .error .ub) := by
  have hm : ∀ k, 0 < k → Pepper.minusTwo (k * 2) = k * 2 - 2 := by intro k hk; unfold Pepper.minusTwo; rw [if_pos (by omega)]
  unfold Mpc.guessFootpos
  simp only
  rw [ho, hg, location_footpos, location_footpos]
  simp only
  rcases Nat.lt_trichotomy n m with hlt | heq | hgt
  · rw [if_neg (by omega), if_neg (by omega), hm m (by omega)]
    constructor
    · intro h1 h2
      have e : m * 2 - 2 = n * 2 := by omega
      rw [e]
      obtain ⟨g', e, s, l, h⟩ := copyData_ok (g := g) (old := old) (a := N * 2) (b := N * 2) (len := n * 2) (by omega) (by omega)
      refine ⟨g', e, s.trans hg, l, fun i hi => by rw [h i, if_neg (by omega)], fun i hi => ?_⟩
      rw [h, if_neg (by omega : ¬ n = m + 1)]
      by_cases hi : i < 2 * n
      · rw [if_pos hi, if_pos (by omega)]
        congr 1
        omega
      · rw [if_neg hi, if_neg (by omega)]
    · intro h
      exact copyData_ub (by omega) (by omega) (by omega)
  · subst heq
    rw [if_pos rfl]
    constructor
    · intro h1 h2
      obtain ⟨g', e, s, l, h⟩ := copyData_ok (g := g) (old := old) (a := N * 2) (b := N * 2) (len := n * 2) (by omega) (by omega)
      refine ⟨g', e, s.trans hg, l, fun i hi => by rw [h i, if_neg (by omega)], fun i hi => ?_⟩
      rw [h, if_neg (by omega : ¬ n = n + 1), if_pos hi, if_pos (by omega)]
      congr 1
      omega
    · intro h
      exact absurd ⟨by omega, by omega⟩ h
  · rw [if_neg (by omega), if_pos (by omega), hm n (by omega)]
    constructor
    · intro h1 h2
      have e : n * 2 - 2 = m * 2 := by omega
      rw [e]
      obtain ⟨g', e, s, l, h⟩ := copyData_ok (g := g) (old := old) (a := N * 2) (b := N * 2 + 2) (len := m * 2) (by omega) (by omega)
      refine ⟨g', e, s.trans hg, l, fun i hi => by rw [h i, if_neg (by omega)], fun i hi => ?_⟩
      rw [h, if_pos (by omega : n = m + 1), if_pos (by omega)]
      congr 1
      omega
    · intro h
      exact copyData_ub (by omega) (by omega) (by omega)

/-- **C78.** The guess made from the solution of the preceding problem with the same number of intervals, when the number of steps
differs by at most one: the centres of pressure are shifted by one interval, the steps are guessed according to their numbers. -/
theorem C78_guess_partial {c : Mpc} {H H' : Horizon} (hN : 0 < H.intervals.n)
    (hc : c.matrices.solution = solutionStructure H.intervals.n H.variable_steps.length) (guess : Solution ℝ) {old : Solution ℝ}
    (ho : SolutionFor H' old) (hsame : H'.intervals.n = H.intervals.n)
    (hsteps : H'.variable_steps.length ≤ H.variable_steps.length + 1 ∧ H.variable_steps.length ≤ H'.variable_steps.length + 1) :
    ∃ g, c.guessSolution guess old = .ok g ∧ SolutionFor H g ∧ ShiftedByOne (entries old) (entries g) H.intervals.n ∧
      GuessedSteps (fun i => entries old (2 * H.intervals.n + i)) (fun i => entries g (2 * H.intervals.n + i))
        H'.variable_steps.length H.variable_steps.length := by
  obtain ⟨ho1, ho2⟩ := ho
  rw [hsame] at ho1 ho2
  obtain ⟨g1, e1, s1, l1, h1⟩ := guess_cop hN guess hc ho1 ho2
  obtain ⟨g2, e2, s2, l2, h2, h3⟩ := (guess_steps ho1 ho2 s1 l1).1 hsteps.1 hsteps.2
  refine ⟨g2, e1.trans e2, ⟨s2.trans s1, l2.trans l1⟩, fun i hi => by rw [h2 i hi, h1 i], ?_, ?_, ?_⟩
  · intro e i hi
    show entries g2 _ = entries old _
    rw [h3 i hi, if_neg (by omega), if_pos (by omega)]
  · intro e i hi
    show entries g2 _ = entries old _
    rw [h3 i hi, if_pos e]
  · intro e i hi
    show entries g2 _ = if i < _ then entries old _ else 0
    rw [h3 i hi, if_neg (by omega)]
    split
    · rfl
    · rw [h1, if_neg (by omega)]

/-- **C78.** Without an old solution the guess is zero. -/
theorem C78_first {c : Mpc} {H : Horizon} (hc : c.matrices.solution = solutionStructure H.intervals.n H.variable_steps.length)
    (guess : Solution ℝ) {old : Solution ℝ} (ho : old.structure_ = .empty) :
    ∃ g, c.guessSolution guess old = .ok g ∧ SolutionFor H g ∧ ∀ i, entries g i = 0 := by
  refine ⟨guess.initializeValue (solutionStructure H.intervals.n H.variable_steps.length) 0, ?_, ⟨rfl, ?_⟩, ?_⟩
  · unfold Mpc.guessSolution
    simp only
    rw [hc, if_neg (by rw [ho]; simp [SolutionStructure.empty])]
    rfl
  · show (List.replicate _ _).length = _
    rw [List.length_replicate, nvars_structure]
  · intro i
    show List.getD (List.replicate _ _) i 0 = 0
    simp [List.getD_eq_getElem?_getD, List.getElem?_replicate]
    split <;> rfl

/-- Against **C78**: if the number of steps changes by more than one, or the number of intervals changes, vectors of different sizes are
assigned, which is not checked. -/
theorem C78_guess_refuted {c : Mpc} {H H' : Horizon} (hN : 0 < H.intervals.n) (hN' : 0 < H'.intervals.n)
    (hc : c.matrices.solution = solutionStructure H.intervals.n H.variable_steps.length) (guess : Solution ℝ) {old : Solution ℝ}
    (ho : SolutionFor H' old)
    (hdiff : H'.intervals.n ≠ H.intervals.n ∨ H'.variable_steps.length > H.variable_steps.length + 1 ∨
      H.variable_steps.length > H'.variable_steps.length + 1) : c.guessSolution guess old = .error .ub := by
  by_cases hsame : H'.intervals.n = H.intervals.n
  · obtain ⟨ho1, ho2⟩ := ho
    rw [hsame] at ho1 ho2
    obtain ⟨g1, e1, s1, l1, h1⟩ := guess_cop hN guess hc ho1 ho2
    exact e1.trans ((guess_steps ho1 ho2 s1 l1).2 (by omega))
  · have hm : ∀ k, 0 < k → Pepper.minusTwo (k * 2) = k * 2 - 2 := by intro k hk; unfold Pepper.minusTwo; rw [if_pos (by omega)]
    have hl : (guess.initializeValue (solutionStructure H.intervals.n H.variable_steps.length) (0 : ℝ)).structure_.location copId =
        ⟨0, H.intervals.n * 2⟩ := location_cop _ _
    have hlen : (guess.initializeValue (solutionStructure H.intervals.n H.variable_steps.length) (0 : ℝ)).x.length =
        2 * H.intervals.n + 2 * H.variable_steps.length := by
      show (List.replicate _ _).length = _
      rw [List.length_replicate, nvars_structure]
    unfold Mpc.guessSolution
    simp only
    rw [hc, if_pos (by rw [ho.structure_, nvars_structure]; exact ⟨rfl, by omega⟩), hl, ho.structure_, location_cop, hm _ hN, hm _ hN',
      copyData_ub (by rw [hlen]; simp only; omega) (by rw [ho.size]; simp only; omega) (by omega)]
    rfl

/-- Both cases occur in the default walk: 400 ms after its beginning two steps are previewed in 16 intervals, none in 5 intervals. The
guess for the former from its own solution succeeds, the one from a solution for the latter does not. -/
example (nan : ℝ) (junkH : ℕ → Interval) (junk : ℕ → ℕ → ℕ → ℕ → ℝ) (junkI : ℕ → ℕ → ℕ) (w : WalkParameters) (guess : Solution ℝ)
    (H' : Horizon) (h : H'.intervals.n = 5) (h' : H'.variable_steps = []) :
    ∃ (mpc : Mpc) (sol sol' g : Solution ℝ), SolutionFor mpc.horizon sol ∧ mpc.guessSolution guess sol = .ok g ∧
      g.x = List.replicate 30 1 ++ [0, 0, 1, 1, 1, 1] ∧ SolutionFor H' sol' ∧ mpc.guessSolution guess sol' = .error .ub := by
  obtain ⟨-, -, -, mpc, -, -, -, -, h2, -, h3, h4, -, -⟩ := walk_at_400 nan junkH junk junkI w
  have hs := solutionOf_for (H := mpc.horizon) (x := List.replicate 36 1) (by rw [h3, h4]; rfl)
  have hs' := solutionOf_for (H := H') (x := List.replicate 10 1) (by rw [h, h']; rfl)
  have hN : 0 < mpc.horizon.intervals.n := by rw [h4]; decide
  obtain ⟨g, e1, e2, e3, e4, -⟩ := C78_guess_partial hN h2.matrices.solution guess hs rfl ⟨by omega, by omega⟩
  refine ⟨mpc, _, _, g, hs, e1, ?_, hs', C78_guess_refuted hN (by rw [h]; decide) h2.matrices.solution guess hs' (Or.inl (by omega))⟩
  have hl : g.x.length = 36 := by rw [e2.size, h3, h4]
  have hone : ∀ j < 36, entries (solutionOf mpc.horizon (List.replicate 36 1)) j = 1 := by
    intro j hj
    show (List.replicate 36 1).getD j 0 = 1
    rw [List.getD_eq_getElem?_getD, List.getElem?_replicate, if_pos hj]
    rfl
  apply List.ext_getElem
  · rw [hl]
    rfl
  · intro i hi hi'
    have eg : g.x[i] = entries g i := by
      show _ = g.x.getD i 0
      rw [List.getD_eq_getElem?_getD, List.getElem?_eq_getElem hi]
      rfl
    rw [eg]
    rw [hl] at hi
    by_cases hc : i < 2 * 16
    · rw [e3 i (by rw [h4]; exact hc), h4]
      by_cases hd : i + 2 < 2 * 16
      · rw [if_pos hd, hone _ (by omega), List.getElem_append_left (by rw [List.length_replicate]; omega), List.getElem_replicate]
      · rw [if_neg hd]
        have : i = 30 ∨ i = 31 := by omega
        rcases this with rfl | rfl <;> rfl
    · have := e4 rfl (i - 2 * 16) (by rw [h3]; omega)
      rw [h4] at this
      simp only [show 2 * 16 + (i - 2 * 16) = i by omega] at this
      rw [this, hone i hi]
      have : i = 32 ∨ i = 33 ∨ i = 34 ∨ i = 35 := by omega
      rcases this with rfl | rfl | rfl | rfl <;> rfl

end Humoto.Wpg
