import Verif.Spec.WpgLoop
import Verif.Props.WpgWalk

/-!
# C79: the loop of control of the walking pattern generator
-/

namespace Humoto.Wpg

open Humoto.Spec Humoto.Spec.Wpg Humoto.PointMass6z

/-- Time of the walk after the stance number `k`. -/
def restMs (p : FSMParams) (k : ℕ) : ℕ :=
  if p.firstStance = .ds ∧ p.numSteps = 0 then 0
  else (p.numSteps - k / 2) * p.ssMs + (p.numSteps + 1 - (k + 1) / 2) * p.tdsMs + if k < 2 * p.numSteps + 2 then p.lastMs else 0

theorem restMs_start (p : FSMParams) : p.firstMs + restMs p 0 = walkMs p := by
  unfold restMs walkMs
  simp

theorem restMs_step {p : FSMParams} {side : StanceType} (hp : WalkOk p side p.numSteps) (hz : ¬ NoSteps p p.numSteps) {k : ℕ}
    (hk : k < 2 * p.numSteps + 2) :
    restMs p k = dur p (walkType p.firstStance side p.numSteps (k + 1)) + restMs p (k + 1) := by
  have hz' : ¬ (p.firstStance = .ds ∧ p.numSteps = 0) := hz
  unfold restMs
  rw [if_neg hz', if_neg hz', if_pos hk]
  by_cases he : k + 1 = 2 * p.numSteps + 2
  · rw [walkType_end (by omega), if_neg (by omega)]
    have e1 : p.numSteps - k / 2 = 0 := by omega
    have e2 : p.numSteps + 1 - (k + 1) / 2 = 0 := by omega
    have e3 : p.numSteps - (k + 1) / 2 = 0 := by omega
    have e4 : p.numSteps + 1 - (k + 1 + 1) / 2 = 0 := by omega
    rw [e1, e2, e3, e4]
    simp [dur]
  · rw [if_pos (by omega)]
    by_cases hodd : (k + 1) % 2 = 1
    · rw [walkType_odd hz hodd (by omega)]
      have e1 : k / 2 = (k + 1) / 2 := by omega
      have e2 : p.numSteps + 1 - (k + 1) / 2 = p.numSteps + 1 - (k + 1 + 1) / 2 + 1 := by omega
      rw [e1, e2]
      simp only [dur]
      ring
    · rw [walkType_even hz (by omega) (by omega) (by omega)]
      have e1 : p.numSteps - k / 2 = p.numSteps - (k + 1) / 2 + 1 := by omega
      have e2 : (k + 1) / 2 = (k + 1 + 1) / 2 := by omega
      have hd : dur p (sideAt side ((k + 1) / 2)) = p.ssMs := by
        rcases sideAt_single (hp.side (not_noSteps hz)) ((k + 1) / 2) with e | e <;> rw [e] <;> rfl
      rw [hd, e1, e2]
      ring

/-- What holds of the machine between iterations: it is in the stance number `k`. -/
structure MachineInv (p : FSMParams) (T : ℕ) (side : StanceType) (k : ℕ) (f : FSM) : Prop where
  ok : WalkOk p side p.numSteps
  reach : StanceReachable {} p f
  inv : WalkInv p side p.numSteps k f
  pos : k ≤ 2 * p.numSteps + 2 ∧ (NoSteps p p.numSteps → k = 0)
  inside : f.time < f.cur.duration
  aligned : T ∣ f.time

theorem MachineInv.durations {p : FSMParams} {N T : ℕ} (hp : LoopParameters p N T) {side : StanceType} {k : ℕ} {f : FSM}
    (h : MachineInv p T side k f) : T ∣ f.cur.duration ∧ 0 < f.cur.duration := by
  have hu : f.cur.type ≠ .undefined := by rw [h.inv.type]; exact (walkType_legal h.ok).defined k
  have hN : 0 < N * T := Nat.mul_pos (by have := hp.horizon.1; omega) hp.sampling
  rw [h.inv.duration]
  split
  · exact hp.first
  · cases ht : f.cur.type with
    | undefined => exact absurd ht hu
    | ds => exact ⟨hp.last.1, by have := hp.last.2; simp only [dur]; omega⟩
    | lss => exact hp.single
    | rss => exact hp.single
    | tds =>
      simp only [dur]
      rw [hp.transition]
      exact ⟨dvd_refl T, hp.sampling⟩

theorem MachineInv.remaining {p : FSMParams} {N T : ℕ} (hp : LoopParameters p N T) {side : StanceType} {k : ℕ} {f : FSM}
    (h : MachineInv p T side k f) : T ∣ remaining f ∧ T ≤ remaining f := by
  have h1 := Nat.dvd_sub (h.durations hp).1 h.aligned
  refine ⟨h1, Nat.le_of_dvd ?_ h1⟩
  have := h.inside
  unfold Spec.remaining
  omega

theorem MachineInv.not_reentered {p : FSMParams} {T : ℕ} {side : StanceType} {k : ℕ} {f : FSM} (h : MachineInv p T side k f) :
    ¬ Reentered f := (not_reentered_pos h.ok h.inv).2 h.pos

/-- A transition takes one sampling time. -/
theorem MachineInv.transition {p : FSMParams} {N T : ℕ} (hp : LoopParameters p N T) {side : StanceType} {k : ℕ} {f : FSM}
    (h : MachineInv p T side k f) (ht : f.cur.type = .tds) : Spec.remaining f = T := by
  have h0 : k ≠ 0 := by
    rintro rfl
    have := h.inv.type
    rw [ht] at this
    rcases h.ok.first with e | e | e <;> simp [walkType, e] at this
  have hd : f.cur.duration = T := by
    rw [h.inv.duration, if_neg h0, ht]
    exact hp.transition
  have := (h.remaining hp).2
  unfold Spec.remaining at *
  omega

/-- One sampling time later. -/
theorem machine_shift {p : FSMParams} {N T : ℕ} (hp : LoopParameters p N T) {side : StanceType} {k : ℕ} {f : FSM}
    (h : MachineInv p T side k f) (hc : ¬ (Terminal f ∧ remaining f < N * T)) :
    ∃ g k', Returns f T (.ok g) ∧ MachineInv p T side k' g ∧
      ((k' = k ∧ g = { f with tdsStarted := false, time := f.time + T } ∧ f.cur.type ≠ .tds) ∨
        (k' = k + 1 ∧ remaining f = T ∧ f.shiftStance = .ok g)) ∧ remaining g + restMs p k' + T = remaining f + restMs p k := by
  have hT := hp.sampling
  obtain ⟨hr1, hr2⟩ := h.remaining hp
  by_cases hin : f.time + T < f.cur.duration
  · have hret := (returns_inside (r := .ok { f with tdsStarted := false, time := f.time + T }) hT hin).2 rfl
    refine ⟨_, k, hret, ⟨h.ok, .shiftTime h.reach hret, walkInv_of_same h.inv rfl rfl rfl, h.pos, hin, ?_⟩, Or.inl ⟨rfl, rfl, ?_⟩, ?_⟩
    · exact dvd_add h.aligned (dvd_refl T)
    · intro ht
      have := h.transition hp ht
      unfold Spec.remaining at this
      omega
    · unfold Spec.remaining
      simp only
      omega
  · have hrem : remaining f = T := by
      have := h.inside
      unfold Spec.remaining at *
      omega
    have hnt : ¬ Terminal f := by
      intro ht
      refine hc ⟨ht, ?_⟩
      rw [hrem]
      have := hp.horizon.1
      nlinarith
    obtain ⟨hk, hz⟩ := not_terminal_pos (p := p) (side := side) (n := p.numSteps) (q := k) (by
      rw [← h.inv.type, ← h.inv.left]
      exact hnt)
    obtain ⟨g, hg, hI, -⟩ := walk_step h.ok h.inv
    have ht := (shiftStance_time hg).1
    have hret : Returns f T (.ok g) := (returns_outside hT hin).2 (Or.inr ⟨g, hg, by
      have : T - (f.cur.duration - f.time) = 0 := by unfold Spec.remaining at hrem; omega
      rw [this]
      exact returns_zero.2 rfl⟩)
    have hd : g.cur.duration = dur p (walkType p.firstStance side p.numSteps (k + 1)) := by
      rw [hI.duration, if_neg (by omega), hI.type]
    have hN : 0 < N * T := Nat.mul_pos (by have := hp.horizon.1; omega) hT
    have hpos : 0 < g.cur.duration := by
      rw [hI.duration, if_neg (by omega)]
      have hu : g.cur.type ≠ .undefined := by rw [hI.type]; exact (walkType_legal h.ok).defined _
      cases e : g.cur.type with
      | undefined => exact absurd e hu
      | ds => have := hp.last.2; simp only [dur]; omega
      | lss => exact hp.single.2
      | rss => exact hp.single.2
      | tds => simp only [dur]; rw [hp.transition]; exact hT
    refine ⟨g, k + 1, hret, ⟨h.ok, .shiftTime h.reach hret, hI, ⟨by omega, fun e => absurd e hz⟩, by rw [ht]; exact hpos,
      by rw [ht]; exact dvd_zero T⟩, Or.inr ⟨rfl, hrem, hg⟩, ?_⟩
    rw [restMs_step h.ok hz hk, ← hd, hrem]
    unfold Spec.remaining
    rw [ht]
    omega

/-- The preview is complete unless the walk ends. -/
theorem machine_preview {p : FSMParams} {N T : ℕ} (hp : LoopParameters p N T) {side : StanceType} {k : ℕ} {f : FSM}
    (h : MachineInv p T side k f) :
    ∃ l, PreviewReturns f (N * T) (.ok l) ∧ (¬ (Terminal f ∧ remaining f < N * T) → CompletePreview f (N * T) l) ∧
      (Terminal f → remaining f < N * T → EndedPreview f (N * T) l) := by
  have hN : 0 < N * T := Nat.mul_pos (by have := hp.horizon.1; omega) hp.sampling
  obtain ⟨l, hl, hc⟩ := C25_preview_partial h.reach hp.proper hN
  refine ⟨l, hl, fun hn => ?_, fun h1 h2 => ?_⟩
  · rcases hc with hc | ⟨s, m, hr, -, hT, hs, hnt⟩
    · exact hc
    · exfalso
      match m, hr, hT, hs with
      | 0, hr, hT, hs =>
        rw [hr.1] at hT hs
        simp only [Finset.range_zero, Finset.sum_empty, Nat.zero_add] at hs
        exact hn ⟨hT, hs⟩
      | m + 1, hr, hT, hs =>
        have hI := runTo_inv h.ok h.inv hr (le_refl (m + 1))
        have ht := (shiftStance_time (hr.2 m (by omega))).1
        have hd : (s (m + 1)).cur.duration = p.lastMs := by
          rw [hI.duration, if_neg (by omega), hT.1]
          rfl
        have := hp.last.2
        have e : remaining (s (m + 1)) = p.lastMs := by unfold Spec.remaining; rw [hd, ht]; omega
        omega
  · cases preview_unique hl (C25_terminal_refuted h1 h2)
    exact (complete_of_sum h.reach hp.proper hN hl).2 (by simpa using hN.ne)

/-- What holds between iterations. -/
structure LoopInv (p : FSMParams) (N T : ℕ) (q : MPCParameters) (n : ℕ) (s : LoopState) (side : StanceType) (k : ℕ) : Prop where
  machine : MachineInv p T side k s.fsm
  time : n * T + remaining s.fsm + restMs p k = walkMs p
  stance : s.model.state.stance_type = s.fsm.cur.type
  height : 0 < s.model.getCoMHeight
  parameters : s.mpc.parameters = q

/-- The walk is not over as long as it contains the next horizon. -/
theorem LoopInv.over {p : FSMParams} {N T : ℕ} (hp : LoopParameters p N T) {q : MPCParameters} {n : ℕ} {s : LoopState} {side : StanceType}
    {k : ℕ} (h : LoopInv p N T q n s side k) : (Terminal s.fsm ∧ remaining s.fsm < N * T) ↔ walkMs p < n * T + N * T := by
  have hM := h.machine
  have ht := h.time
  by_cases hT : Terminal s.fsm
  · have h0 : restMs p k = 0 := by
      unfold restMs
      split
      · rfl
      · rename_i hz
        have h1 := hT.1
        have h2 := hT.2
        rw [hM.inv.left] at h2
        have hk : k = 2 * p.numSteps + 2 := by
          by_contra hne
          have hlt : k < 2 * p.numSteps + 2 := by have := hM.pos.1; omega
          rw [hM.inv.type] at h1
          by_cases h0 : k = 0
          · subst h0
            have : p.firstStance = .ds := by simpa [walkType] using h1
            exact hz ⟨this, by omega⟩
          · by_cases hodd : k % 2 = 1
            · rw [walkType_odd hz hodd hlt] at h1
              cases h1
            · rw [walkType_even hz h0 (by omega) hlt] at h1
              exact (single_ne (sideAt_single (hM.ok.side (not_noSteps hz)) (k / 2))).2.1 h1
        subst hk
        rw [if_neg (by omega)]
        have e1 : p.numSteps - (2 * p.numSteps + 2) / 2 = 0 := by omega
        have e2 : p.numSteps + 1 - (2 * p.numSteps + 2 + 1) / 2 = 0 := by omega
        rw [e1, e2]
        simp
    constructor
    · rintro ⟨-, h1⟩
      omega
    · intro h1
      exact ⟨hT, by omega⟩
  · constructor
    · rintro ⟨h1, -⟩
      exact absurd h1 hT
    · intro h1
      exfalso
      obtain ⟨hk, hz⟩ := not_terminal_pos (p := p) (side := side) (n := p.numSteps) (q := k) (by
        rw [← hM.inv.type, ← hM.inv.left]
        exact hT)
      have hrest : p.lastMs ≤ restMs p k := by
        unfold restMs
        rw [if_neg (show ¬ (p.firstStance = .ds ∧ p.numSteps = 0) from hz), if_pos hk]
        omega
      have := hp.last.2
      omega

theorem fromCoMState_of {h : ℝ} {x : Fin 6 → ℝ} {s : PointMassState ℝ} (hs : HasState h x s) : fromCoMState s = x := by
  obtain ⟨h1, h2, h3⟩ := hs
  unfold fromCoMState
  rw [h1, h2, h3]
  funext i
  fin_cases i <;> rfl

/-- The update of the controller. -/
theorem loop_update {p : FSMParams} {N T : ℕ} (hp : LoopParameters p N T) {q : MPCParameters} (hq : MPCParameters.make N T T T = .ok q)
    {n : ℕ} {s : LoopState} {side : StanceType} {k : ℕ} (h : LoopInv p N T q n s side k) (nan : ℝ) (junkH : ℕ → Interval)
    (junk : ℕ → ℕ → ℕ → ℕ → ℝ) (junkI : ℕ → ℕ → ℕ) (w : WalkParameters) :
    (¬ (Terminal s.fsm ∧ remaining s.fsm < N * T) →
      ∃ mpc, UpdateReturns nan junkH junk junkI s.model s.fsm w s.mpc (.ok (mpc, .ok))) ∧
    (Terminal s.fsm ∧ remaining s.fsm < N * T →
      ∃ mpc, UpdateReturns nan junkH junk junkI s.model s.fsm w s.mpc (.ok (mpc, .stopped))) := by
  obtain ⟨e1, e2, -, e3, -⟩ := C55_derived hq
  have hM := h.machine
  have hpar := h.parameters
  have hN : 0 < N * T := Nat.mul_pos (by have := hp.horizon.1; omega) hp.sampling
  obtain ⟨l, hl, hc, he⟩ := machine_preview hp hM
  rw [← e1, ← e2, ← hpar] at hl
  have hN63 : s.mpc.parameters.preview_horizon_length < 2 ^ 63 := by rw [hpar, e1]; exact hp.horizon.2
  constructor
  · intro hn
    have hc := hc hn
    rw [← e1, ← e2, ← hpar] at hc
    obtain ⟨H, hH⟩ := C51_success_partial hM.reach hp.proper hM.inside (q := s.mpc.parameters) hN63
      (by rw [hpar, e2]; exact hp.single.1) (by rw [hpar, e2, hp.transition]) hM.not_reentered hl hc nan junkH s.mpc.horizon s.model w
    obtain ⟨mpc, hu, -⟩ := C52_aligned_partial hM.reach hp.proper hM.inside (mpc := s.mpc) hN63
      (by rw [hpar, e2, hp.transition]) (by
        rw [hpar, e2]
        split
        · exact (hM.remaining hp).2
        · exact (hM.remaining hp).1) hH junk junkI
    exact ⟨mpc, hu⟩
  · rintro ⟨h1, h2⟩
    have he := he h1 h2
    rw [← e1, ← e2, ← hpar] at he
    obtain ⟨l', hl', -, ho, -⟩ := C51_outcome hM.reach hp.proper hM.inside (q := s.mpc.parameters) hN63
      (by rw [hpar, e1, e2]; exact hN) nan junkH s.mpc.horizon s.model w
    cases preview_unique hl hl'
    obtain ⟨H, hH⟩ := ho.2 ⟨he, h1⟩
    exact ⟨_, update_iff.2 ⟨_, hH, rfl⟩⟩

/-- What happens after a successful update, for any solution. -/
structure Stepped (s s' : LoopState) (mpc : Mpc) (st : ModelState) (P cop : ℕ → Fin 2 → ℝ) (X : ℕ → Fin 6 → ℝ) : Prop where
  state : s'.model.getCState = X 1
  height : s'.model.getCoMHeight = s.model.getCoMHeight
  describes : Describes s'.model.state s'.fsm
  feet : NextFeet s.model s'.fsm (fun side foot r => ∃ a, FirstStep mpc.horizon a ∧
    Landed s.model.params.feetDistDefault side foot a (P 1) r) st.feet
  update : s.model.updateState st = .ok s'.model
  given : Describes st s'.fsm
  parameters : s'.mpc.parameters = s.mpc.parameters

theorem loop_step {p : FSMParams} {N T : ℕ} (hp : LoopParameters p N T) {q : MPCParameters} (hq : MPCParameters.make N T T T = .ok q)
    {n : ℕ} {s : LoopState} {side : StanceType} {k : ℕ} (h : LoopInv p N T q n s side k) {nan : ℝ} {junkH : ℕ → Interval}
    {junk : ℕ → ℕ → ℕ → ℕ → ℝ} {junkI : ℕ → ℕ → ℕ} {w : WalkParameters} {mpc : Mpc}
    (hu : UpdateReturns nan junkH junk junkI s.model s.fsm w s.mpc (.ok (mpc, .ok))) {sol : Solution ℝ}
    (hs : SolutionFor mpc.horizon sol) (junkP : ℕ → ℕ → ℝ) :
    ∃ s' st P cop X k', Completes nan junkP T mpc sol s st s' ∧ Prediction mpc.horizon s.model (entries sol) P cop X ∧
      Stepped s s' mpc st P cop X ∧ LoopInv p N T q (n + 1) s' side k' ∧
      ((k' = k ∧ s'.fsm = { s.fsm with tdsStarted := false, time := s.fsm.time + T } ∧ s.fsm.cur.type ≠ .tds) ∨
        (k' = k + 1 ∧ remaining s.fsm = T ∧ s.fsm.shiftStance = .ok s'.fsm)) := by
  obtain ⟨e1, e2, -, e3, -, -, -, e4, -⟩ := C55_derived hq
  have hM := h.machine
  have hpar := h.parameters
  have hN : 0 < N * T := Nat.mul_pos (by have := hp.horizon.1; omega) hp.sampling
  have hN63 : s.mpc.parameters.preview_horizon_length < 2 ^ 63 := by rw [hpar, e1]; exact hp.horizon.2
  obtain ⟨H, m, hH, -, hmpc⟩ := update_ok hu
  have hHm : mpc.horizon = H := by rw [hmpc]
  obtain ⟨l, hl, hlc, hle⟩ := machine_preview hp hM
  have hn : ¬ (Terminal s.fsm ∧ remaining s.fsm < N * T) := by
    rintro ⟨h1, h2⟩
    obtain ⟨l', hl', ho, -⟩ := C51_outcome hM.reach hp.proper hM.inside (q := s.mpc.parameters) hN63
      (by rw [hpar, e1, e2]; exact hN) nan junkH s.mpc.horizon s.model w
    have hc := (ho.1 ⟨H, hH⟩).1
    rw [hpar, e1, e2] at hc hl'
    cases preview_unique hl hl'
    have a := (C25_sum (f := s.fsm)).1 hc
    have b := (C25_sum (f := s.fsm)).2 (hle h1 h2)
    omega
  have hlc := hlc hn
  obtain ⟨hcons, hmp, hflag, l', hl', hF⟩ := C75_matrices hM.reach hp.proper hM.inside hN63
    (by rw [hpar, e3]; exact hp.sampling) h.height hu
  rw [hpar, e1, e2, e3] at hF
  rw [hpar, e1, e2] at hl'
  cases preview_unique hl hl'
  obtain ⟨mpc', P, cop, X, hparse, hX, hP, hp1, hp2⟩ := parsed_of hcons hs junkP
  obtain ⟨g, k', hret, hM', hcase, htime⟩ := machine_shift hp hM hn
  -- the list begins with the current stance
  have hhead : ∃ rest, l = shown s.fsm (min (remaining s.fsm) (N * T)) :: rest := by
    obtain ⟨s0, m, x, extra, a1, a2, a3, a4, a5, a6, -⟩ := hlc
    have hbeg : l.head? = some (shown s.fsm (min (remaining s.fsm) (N * T))) := by
      subst a2
      cases m with
      | zero =>
        simp only [Finset.range_zero, Finset.sum_empty, Nat.zero_add] at a3
        rw [a1.1] at a5
        have : min (remaining s.fsm) (N * T) = x := by omega
        rw [this]
        simp [a1.1]
      | succ m =>
        rw [List.range_succ_eq_map]
        have : remaining s.fsm ≤ ∑ i ∈ Finset.range (m + 1), remaining (s0 i) := by
          rw [Finset.sum_range_succ', a1.1]; omega
        have : min (remaining s.fsm) (N * T) = remaining s.fsm := by omega
        rw [this]
        simp [a1.1]
    cases l with
    | nil => cases hbeg
    | cons y rest =>
      simp only [List.head?_cons, Option.some.injEq] at hbeg
      exact ⟨rest, by rw [hbeg]⟩
  obtain ⟨rest, hrest⟩ := hhead
  have hfirst : (mpc.horizon.intervals.e 0).T_ms = T := by
    rw [hF.firstTime, hrest]
    unfold firstDuration
    show (if s.fsm.cur.type = .tds then min (remaining s.fsm) (N * T)
      else if min (remaining s.fsm) (N * T) % T = 0 then T else min (remaining s.fsm) (N * T) % T) = T
    split
    · rename_i ht
      rw [hM.transition hp ht]
      have := hp.horizon.1
      exact min_eq_left (by nlinarith [hp.sampling])
    · rw [if_pos]
      refine Nat.mod_eq_zero_of_dvd ?_
      rcases min_choice (remaining s.fsm) (N * T) with e | e <;> rw [e]
      · exact (hM.remaining hp).1
      · exact Dvd.intro_left N rfl
  have htypes := reachable_types hp.proper hM'.reach
  have hftypes := reachable_types hp.proper hM.reach
  obtain ⟨g', hg', -⟩ := walk_step hM'.ok hM'.inv
  have hnext : g.getNextStance = .ok g'.cur := by unfold FSM.getNextStance; rw [hg']; rfl
  -- a transition begins after a support
  have hbegins : g.cur.type = .tds → k' = k + 1 ∧ remaining s.fsm = T ∧ IsSupport s.model.state.stance_type := by
    intro ht
    rcases hcase with ⟨rfl, rfl, hne⟩ | ⟨rfl, hrem, -⟩
    · exact absurd ht hne
    · refine ⟨rfl, hrem, ?_⟩
      rw [h.stance]
      have h1 := hftypes.1
      have h2 : s.fsm.cur.type ≠ .tds := by
        intro e
        have := (walkType_legal hM.ok).afterTransition k (by rw [← hM.inv.type]; exact e)
        rw [← hM'.inv.type, ht] at this
        rcases this with (e | e) | e <;> cases e
      revert h1 h2
      cases s.fsm.cur.type <;> simp [IsSupport]
  obtain ⟨st, x, n1, n2, n3, n4, n5⟩ := C77_next nan hP (f := g) htypes.1 hnext (fun ht _ => (hbegins ht).2.2) (by
    rintro ⟨ht, -, hsingle⟩
    obtain ⟨-, hrem, -⟩ := hbegins ht
    rw [h.stance] at hsingle
    have h0 : 0 < mpc.horizon.variable_steps.length := by
      refine hF.allSteps 0 ?_
      rw [hrest]
      have hne : s.fsm.cur.type ≠ .tds := (single_ne hsingle).1
      have hfs : firstSupport (shown s.fsm (min (remaining s.fsm) (N * T)) :: rest) = 0 := by
        unfold firstSupport
        exact if_neg hne
      rw [hfs]
      show (if s.fsm.cur.type = .tds then _ else (min (remaining s.fsm) (N * T) + T - 1) / T + 0) < N
      rw [if_neg hne, hrem, min_eq_left (by have := hp.horizon.1; nlinarith [hp.sampling])]
      have : (T + T - 1) / T = 1 := by
        have hT := hp.sampling
        rw [Nat.div_eq_iff hT]
        omega
      have := hp.horizon.1
      omega
    obtain ⟨a, ha⟩ := step_known hM.reach hp.proper hM.inside hN63 hH (by rw [← hHm, ← List.length_pos_iff]; exact h0)
    rw [← hHm] at ha
    rw [hp2]
    exact ⟨a, ha⟩)
  obtain ⟨d1, nx, d2, d3⟩ := n4
  have hacc : Acceptable s.model.state.stance_type st.stance_type st.next_stance_type := by
    rw [d1, d3]
    refine ⟨htypes.1, fun ht => ⟨(hbegins ht).2.2, htypes.2 ht nx d2⟩⟩
  obtain ⟨model', hm'⟩ := (C53_accepted s.model st).1.2 hacc
  obtain ⟨r1, r2, r3, r4, r5, r6⟩ := C53_result hm'
  have hcom : model'.getCState = x := by
    unfold Model.getCState
    rw [r4]
    exact fromCoMState_of n2
  have hheight : model'.getCoMHeight = s.model.getCoMHeight := by
    unfold Model.getCoMHeight
    rw [r4, n2.position]
    rfl
  have hx1 : x = X 1 := by
    have hn0 : 0 < mpc.horizon.intervals.n := hcons.size.2
    obtain ⟨t1, t2, t3⟩ := hcons.times 0 hn0
    have m1 := hX.motion 0 hn0
    have hsub : mpc'.parameters.subsampling_time = (mpc.horizon.intervals.e 0).T := by
      rw [hp1, hmp, hpar]
      have : 1000 * q.subsampling_time = (T : ℝ) := e4
      rw [hfirst] at t2
      linarith
    rw [hsub, hp2] at n3
    exact ((moves_iff h.height t1.ne' _ _ _ _).1 n3).trans ((moves_iff h.height t1.ne' _ _ _ _).1 m1).symm
  refine ⟨⟨model', g, mpc'⟩, st, P, cop, X, k', ⟨hret, ?_, hm'⟩, hX, ⟨hcom.trans hx1, hheight, ⟨r2.trans d1, nx, d2, r3.trans d3⟩, ?_, hm',
    ⟨d1, nx, d2, d3⟩, hp1.trans hmp⟩, ⟨hM', ?_, r2.trans d1, ?_, hp1.trans (hmp.trans hpar)⟩, hcase⟩
  · rw [C54_wpg_next hflag hparse, n1]
    rfl
  · rw [← hp2]
    exact n5
  · have := h.time
    show (n + 1) * T + remaining g + restMs p k' = walkMs p
    rw [Nat.add_mul]
    omega
  · show 0 < model'.getCoMHeight
    rw [hheight]
    exact h.height

theorem completes_unique {nan : ℝ} {junk : ℕ → ℕ → ℝ} {T : ℕ} {mpc : Mpc} {sol : Solution ℝ} {s a b : LoopState} {st st' : ModelState}
    (h : Completes nan junk T mpc sol s st a) (h' : Completes nan junk T mpc sol s st' b) : a = b ∧ st = st' := by
  obtain ⟨ma, fa, ca⟩ := a
  obtain ⟨mb, fb, cb⟩ := b
  obtain ⟨a1, a2, a3⟩ := h
  obtain ⟨b1, b2, b3⟩ := h'
  have e1 : fa = fb := Except.ok.inj (returns_unique a1 b1)
  simp only at e1 a2 b2 a3 b3
  subst e1
  have e2 := Except.ok.inj (a2.symm.trans b2)
  obtain ⟨e3, e4⟩ := Prod.mk.inj e2
  subst e3 e4
  have e5 := Except.ok.inj (a3.symm.trans b3)
  subst e5
  exact ⟨rfl, rfl⟩

theorem loop_start {p : FSMParams} {N T : ℕ} (hp : LoopParameters p N T) {q : MPCParameters} {s : LoopState} (h : LoopStart p q s) :
    ∃ side, LoopInv p N T q 0 s side 0 := by
  have hf : FSM.finalize {} p = .ok s.fsm := h.machine
  obtain ⟨side, h1, h2, -⟩ := finalize_inv hf hp.proper
  have ht : s.fsm.time = 0 := by
    have h := hf
    rw [FSM.finalize, bind_eq_ok] at h
    obtain ⟨_, -, h⟩ := h
    rw [bind_eq_ok] at h
    obtain ⟨b, -, h⟩ := h
    rw [← Except.ok.inj h]
  have hd : s.fsm.cur.duration = p.firstMs := by rw [h2.duration]; rfl
  refine ⟨side, ⟨h1, .init hf, h2, ⟨by omega, fun _ => rfl⟩, by rw [ht, hd]; exact hp.first.2, by rw [ht]; exact dvd_zero T⟩, ?_,
    h.stance, h.height, by rw [h.controller]; rfl⟩
  rw [← restMs_start p]
  unfold Spec.remaining
  rw [ht, hd]
  omega

theorem loop_after {p : FSMParams} {N T : ℕ} (hp : LoopParameters p N T) {q : MPCParameters} (hq : MPCParameters.make N T T T = .ok q)
    {nan : ℝ} {s0 s : LoopState} (h0 : LoopStart p q s0) {n : ℕ} (h : LoopAfter nan T s0 n s) :
    ∃ side k, LoopInv p N T q n s side k := by
  induction h with
  | start =>
    obtain ⟨side, h⟩ := loop_start hp h0
    exact ⟨side, 0, h⟩
  | step _ hs ih =>
    obtain ⟨side, k, hI⟩ := ih
    obtain ⟨junkH, junk, junkI, junkP, w, mpc, sol, st, hu, hsol, hc⟩ := hs
    obtain ⟨s', st', P, cop, X, k', hc', -, -, hI', -⟩ := loop_step hp hq hI hu hsol junkP
    obtain ⟨rfl, -⟩ := completes_unique hc hc'
    exact ⟨side, k', hI'⟩

/-! ## C79: the loop of control -/

/-- **C79.** As long as the walk contains the next horizon, an iteration of the loop succeeds, whatever the solver returns: the update
returns without failure; for any solution of the right size the time is shifted, the next state is computed, and the model accepts
it. The centre of mass is then in the state which is predicted for the end of the first interval, at the same height, and the model is
in the stance of the machine. -/
theorem C79_continues {p : FSMParams} {N T : ℕ} (hp : LoopParameters p N T) {q : MPCParameters}
    (hq : MPCParameters.make N T T T = .ok q) {nan : ℝ} {s0 s : LoopState} (h0 : LoopStart p q s0) {n : ℕ} (h : LoopAfter nan T s0 n s)
    (hn : n * T + N * T ≤ walkMs p) (junkH : ℕ → Interval) (junk : ℕ → ℕ → ℕ → ℕ → ℝ) (junkI : ℕ → ℕ → ℕ) (w : WalkParameters) :
    ∃ mpc, UpdateReturns nan junkH junk junkI s.model s.fsm w s.mpc (.ok (mpc, .ok)) ∧ mpc.horizon.intervals.n = N ∧
      ∀ sol, SolutionFor mpc.horizon sol → ∀ junkP, ∃ s' st P cop X, Completes nan junkP T mpc sol s st s' ∧
        Prediction mpc.horizon s.model (entries sol) P cop X ∧ s'.model.getCState = X 1 ∧
        s'.model.getCoMHeight = s.model.getCoMHeight ∧ Describes s'.model.state s'.fsm := by
  obtain ⟨side, k, hI⟩ := loop_after hp hq h0 h
  obtain ⟨mpc, hu⟩ := (loop_update hp hq hI nan junkH junk junkI w).1 (by rw [hI.over hp]; omega)
  refine ⟨mpc, hu, ?_, fun sol hsol junkP => ?_⟩
  · obtain ⟨e1, -, -, e3, -⟩ := C55_derived hq
    have hpar := hI.parameters
    obtain ⟨hc, hmp, -⟩ := C75_matrices hI.machine.reach hp.proper hI.machine.inside (by rw [hpar, e1]; exact hp.horizon.2)
      (by rw [hpar, e3]; exact hp.sampling) hI.height hu
    rw [← hc.size.1, hmp, hpar, e1]
  · obtain ⟨s', st, P, cop, X, k', h1, h2, h3, -⟩ := loop_step hp hq hI hu hsol junkP
    exact ⟨s', st, P, cop, X, h1, h2, h3.state, h3.height, h3.describes⟩

/-- **C79.** When the walk does not contain the next horizon, the update stops the loop; the robot is in the last double support
then. -/
theorem C79_stops {p : FSMParams} {N T : ℕ} (hp : LoopParameters p N T) {q : MPCParameters}
    (hq : MPCParameters.make N T T T = .ok q) {nan : ℝ} {s0 s : LoopState} (h0 : LoopStart p q s0) {n : ℕ} (h : LoopAfter nan T s0 n s)
    (hn : walkMs p < n * T + N * T) (junkH : ℕ → Interval) (junk : ℕ → ℕ → ℕ → ℕ → ℝ) (junkI : ℕ → ℕ → ℕ) (w : WalkParameters) :
    (∃ mpc, UpdateReturns nan junkH junk junkI s.model s.fsm w s.mpc (.ok (mpc, .stopped))) ∧ s.model.state.stance_type = .ds ∧
      s.fsm.left = 0 := by
  obtain ⟨side, k, hI⟩ := loop_after hp hq h0 h
  have ho := (hI.over hp).2 hn
  exact ⟨(loop_update hp hq hI nan junkH junk junkI w).2 ho, hI.stance.trans ho.1.1, ho.1.2⟩

/-- **C79.** The number of iterations: iteration `n` (counted from one) is possible exactly if the walk contains the horizon which
begins when it begins. -/
theorem C79_count {p : FSMParams} {N T : ℕ} (hp : LoopParameters p N T) {q : MPCParameters}
    (hq : MPCParameters.make N T T T = .ok q) (nan : ℝ) {s0 : LoopState} (h0 : LoopStart p q s0) (n : ℕ) :
    (∃ s, LoopAfter nan T s0 (n + 1) s) ↔ n * T + N * T ≤ walkMs p := by
  constructor
  · rintro ⟨s, h⟩
    cases h with
    | step h hs =>
      rename_i a
      obtain ⟨junkH, junk, junkI, junkP, w, mpc, sol, st, hu, hsol, hc⟩ := hs
      obtain ⟨side, k, hI⟩ := loop_after hp hq h0 h
      obtain ⟨s', st', P, cop, X, k', -, -, -, hI', -⟩ := loop_step hp hq hI hu hsol junkP
      by_contra hn
      obtain ⟨hT, hr⟩ := (hI.over hp).2 (by omega)
      obtain ⟨e1, e2, -⟩ := C55_derived hq
      have hpar := hI.parameters
      have hN : 0 < N * T := Nat.mul_pos (by have := hp.horizon.1; omega) hp.sampling
      obtain ⟨H, m, hH, -, -⟩ := update_ok hu
      obtain ⟨l, hl, -, hle⟩ := machine_preview hp hI.machine
      obtain ⟨l', hl', ho, -⟩ := C51_outcome hI.machine.reach hp.proper hI.machine.inside (q := a.mpc.parameters)
        (by rw [hpar, e1]; exact hp.horizon.2) (by rw [hpar, e1, e2]; exact hN) nan junkH a.mpc.horizon a.model w
      have hc := (ho.1 ⟨H, hH⟩).1
      rw [hpar, e1, e2] at hc hl'
      cases preview_unique hl hl'
      have c1 := (C25_sum (f := a.fsm)).1 hc
      have c2 := (C25_sum (f := a.fsm)).2 (hle hT hr)
      omega
  · intro hn
    have key : ∀ m, m ≤ n + 1 → ∃ s, LoopAfter nan T s0 m s := by
      intro m
      induction m with
      | zero => exact fun _ => ⟨s0, .start⟩
      | succ m ih =>
        intro hm
        obtain ⟨s, hs⟩ := ih (by omega)
        have hle : m * T ≤ n * T := Nat.mul_le_mul_right T (by omega)
        obtain ⟨mpc, hu, -, hsol⟩ := C79_continues hp hq h0 hs (by omega) (fun _ => ⟨0, 0, 0, 0, 0, 0⟩) (fun _ _ _ _ => 0) (fun _ _ => 0)
          WalkParameters.default
        obtain ⟨s', st, P, cop, X, hc, -⟩ := hsol _ (solutionOf_for (x := List.replicate _ 0) List.length_replicate) (fun _ _ => 0)
        exact ⟨s', .step hs ⟨_, _, _, _, _, mpc, _, st, hu, solutionOf_for List.length_replicate, hc⟩⟩
    exact key (n + 1) (le_refl _)

/-- **C79.** After `n` iterations the machine has been shifted by `n` sampling times in total. -/
theorem C79_time {nan : ℝ} {T n : ℕ} {s0 s : LoopState} (h : LoopAfter nan T s0 n s) : Returns s0.fsm (n * T) (.ok s.fsm) := by
  induction h with
  | start => rw [Nat.zero_mul]; exact returns_zero.2 rfl
  | step _ hs ih =>
    obtain ⟨junkH, junk, junkI, junkP, w, mpc, sol, st, -, -, hc⟩ := hs
    rw [Nat.add_mul, Nat.one_mul]
    exact (returns_add ih).1 hc.shifted

/-- Parameters of the default walk. -/
theorem default_loop : LoopParameters FSMParams.default 16 100 :=
  ⟨default_proper, by decide, rfl, ⟨by decide, by decide⟩, ⟨by decide, by decide⟩, ⟨by decide, by decide⟩, by decide, by decide⟩

/-- A robot which is about to begin the default walk. -/
theorem default_start (nan : ℝ) {q : MPCParameters} : ∃ s, LoopStart FSMParams.default q s :=
  ⟨⟨standing20 nan .ds, _, Mpc.make q⟩, rfl, rfl, rfl, one_pos⟩

/-- The default walk takes 8900 ms, the loop makes 74 iterations. -/
example (nan : ℝ) : ∃ q s0, MPCParameters.make 16 100 100 100 = .ok q ∧ LoopStart FSMParams.default q s0 ∧
    (∃ s, LoopAfter nan 100 s0 74 s) ∧ ¬ ∃ s, LoopAfter nan 100 s0 75 s := by
  obtain ⟨q, hq⟩ : ∃ q, MPCParameters.make 16 100 100 100 = .ok q := ⟨_, rfl⟩
  obtain ⟨s0, h0⟩ := default_start nan (q := q)
  refine ⟨q, s0, hq, h0, (C79_count default_loop hq nan h0 73).2 (by decide), fun h => ?_⟩
  exact absurd ((C79_count default_loop hq nan h0 74).1 h) (by decide)

/-- Without steps in the horizon the next state cannot be computed when a foot lands. -/
theorem next_ub {nan : ℝ} {c : Mpc} {model : Model} {P cop : ℕ → Fin 2 → ℝ} {X : ℕ → Fin 6 → ℝ} (h : Parsed model c P cop X)
    (hs : c.horizon.variable_steps = []) {f : FSM} (hl : Landing model.state.stance_type f) {y : Stance} (hn : f.getNextStance = .ok y) :
    c.initializeNextModelState nan f model = .error .ub := by
  have hN := h.consistent.size.2
  have hget : c.horizon.intervals.get 0 = .ok (c.horizon.intervals.e 0) := by
    unfold Vec.get
    rw [if_pos hN]
  obtain ⟨z, hz⟩ : ∃ z : Fin 2 → ℝ, fixedSegment c.cop_profile 0 2 = .ok z := by
    have := h.profiles.sizes.2.1
    exact ⟨_, fixedSegment_ok (by omega)⟩
  have hland : ∀ side, c.landingState model side = .error .ub := by
    intro side
    unfold Mpc.landingState
    rw [hs]
    rfl
  have hfeet : c.nextFeet nan f model = .error .ub := by
    unfold Mpc.nextFeet
    rw [hl.1]
    simp only
    rcases hl.2.2 with e | e <;> rw [e, if_pos ⟨hl.2.1, by decide⟩]
    · show c.landingState model .right >>= _ = _
      rw [hland]
      rfl
    · show c.landingState model .left >>= _ = _
      rw [hland]
      rfl
  unfold Mpc.initializeNextModelState
  rw [hget, ok_bind, hz, ok_bind]
  simp only
  rw [hn, ok_bind, hfeet]
  rfl

set_option maxRecDepth 10000 in
/-- **C79.** Why the horizon has at least two intervals: with one interval the landing at the end of the first step of the default walk
has undefined behaviour. -/
theorem C79_one_refuted (nan : ℝ) (junkH : ℕ → Interval) (junk : ℕ → ℕ → ℕ → ℕ → ℝ) (junkI : ℕ → ℕ → ℕ) (w : WalkParameters) :
    ∃ f g g' q mpc sol, FSM.construct FSMParams.default = .ok f ∧ Returns f 1000 (.ok g) ∧ MPCParameters.make 1 100 100 100 = .ok q ∧
      UpdateReturns nan junkH junk junkI (standing20 nan .rss) g w (Mpc.make q) (.ok (mpc, .ok)) ∧ SolutionFor mpc.horizon sol ∧
      Returns g 100 (.ok g') ∧ mpc.parseAndGetNextModelState nan (junk 0 0) sol g' (standing20 nan .rss) = .error .ub := by
  obtain ⟨f, g, g', q, y, e1, e2, e3, e4, e5, e6, e7, e8, e9, e10⟩ : ∃ f g g' q y, FSM.construct FSMParams.default = .ok f ∧
      Returns f 1000 (.ok g) ∧ MPCParameters.make 1 100 100 100 = .ok q ∧ g.time < g.cur.duration ∧
      PreviewReturns g (1 * 100) (.ok [⟨.rss, .lss, .ds, .intermediate, 100, 700⟩]) ∧ g.cur.type = .rss ∧ Returns g 100 (.ok g') ∧
      g'.cur.type = .tds ∧ g'.tdsStarted = true ∧ g'.getNextStance = .ok y :=
    ⟨_, _, _, _, _, rfl, ⟨20, rfl⟩, rfl, by decide, ⟨10, rfl⟩, rfl, ⟨10, rfl⟩, rfl, rfl, rfl⟩
  obtain ⟨mpc, h1, h2, h3, h4, -⟩ := consistent_at e1 e2 e3 default_proper e4 (by decide) (by decide) e5
    (fun h => by cases e6.symm.trans h.1) rfl (by decide)
    (show _ < _ by decide) (by decide) nan junkH junk junkI w (standing20_height nan .rss)
  have hsteps : mpc.horizon.variable_steps = [] := by
    by_contra hne
    have hl := List.length_pos_iff.2 hne
    have c := h4.range _ (List.getElem_mem (n := 0) hl)
    omega
  have hs := solutionOf_for (H := mpc.horizon) (x := List.replicate 2 0) (by rw [hsteps, h4.size]; rfl)
  obtain ⟨c', P, cop, X, k1, -, k2, -, k3⟩ := parsed_of h2 hs (junk 0 0)
  refine ⟨f, g, g', q, mpc, _, e1, e2, e3, h1, hs, e7, ?_⟩
  obtain ⟨H, m, -, -, hm⟩ := update_ok h1
  have hflag : mpc.solution_is_parsed = false := by rw [hm]
  unfold Mpc.parseAndGetNextModelState
  rw [assertThat_true hflag, ok_bind, k1, ok_bind, next_ub k2 (by rw [k3]; exact hsteps) ⟨e8, e9, Or.inr rfl⟩ e10]
  rfl

end Humoto.Wpg
