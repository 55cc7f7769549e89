import Verif.Props.WpgLoop
import Verif.Props.FootParameters

/-!
# C80: the support of the robot follows the plan
-/

namespace Humoto.Wpg

open Humoto.Spec Humoto.Spec.Wpg

/-- What holds of the feet between iterations. -/
structure PlacedInv (s : LoopState) (k : ℕ) : Prop where
  support : IsSupportPosition s.model.state.feet.left.position s.model.state.feet.right.position
    (standing s.model.state.stance_type s.model.state.next_stance_type) s.model.current_support_position
  feet : k = 0 → s.fsm.cur.type = .ds → FeetBeside s.model
  describes : s.fsm.cur.type = .tds → Describes s.model.state s.fsm

theorem support_ext {a b : Fin 2 → ℝ} (h0 : a 0 = b 0) (h1 : a 1 = b 1) : a = b := by
  funext i
  fin_cases i
  · exact h0
  · exact h1

/-- The support is determined by the feet. -/
theorem support_unique {l r l' r' : Fin 3 → ℝ} {t : StanceType} {a b : Fin 2 → ℝ} (ht : IsSupport t) (h : IsSupportPosition l r t a)
    (h' : IsSupportPosition l' r' t b) (hl : t = .lss ∨ t = .ds → l = l') (hr : t = .rss ∨ t = .ds → r = r') : a = b := by
  obtain ⟨a1, a2, a3⟩ := h
  obtain ⟨b1, b2, b3⟩ := h'
  rcases ht with e | e | e
  · obtain ⟨x, y⟩ := a1 e
    obtain ⟨x', y'⟩ := b1 e
    have := hl (Or.inl e)
    subst this
    exact support_ext (x.trans x'.symm) (y.trans y'.symm)
  · obtain ⟨x, y⟩ := a2 e
    obtain ⟨x', y'⟩ := b2 e
    have := hr (Or.inl e)
    subst this
    exact support_ext (x.trans x'.symm) (y.trans y'.symm)
  · obtain ⟨x, y⟩ := a3 e
    obtain ⟨x', y'⟩ := b3 e
    have h1 := hl (Or.inr e)
    have h2 := hr (Or.inr e)
    subst h1 h2
    exact support_ext (by linarith) (by linarith)

theorem support_of_ne {t : StanceType} (h1 : t ≠ .undefined) (h2 : t ≠ .tds) : IsSupport t := by
  revert h1 h2
  cases t <;> simp [IsSupport]

/-- Facts about an iteration. -/
structure Iteration (p : FSMParams) (N T : ℕ) (q : MPCParameters) (n : ℕ) (nan : ℝ) (s s' : LoopState) (mpc : Mpc) (st : ModelState)
    (x : ℕ → ℝ) (P cop : ℕ → Fin 2 → ℝ) (X : ℕ → Fin 6 → ℝ) (side : StanceType) (k k' : ℕ) (w : WalkParameters) : Prop where
  before : LoopInv p N T q n s side k
  after : LoopInv p N T q (n + 1) s' side k'
  stepped : Stepped s s' mpc st P cop X
  predicted : Prediction mpc.horizon s.model x P cop X
  cases : (k' = k ∧ s'.fsm = { s.fsm with tdsStarted := false, time := s.fsm.time + T } ∧ s.fsm.cur.type ≠ .tds) ∨
    (k' = k + 1 ∧ remaining s.fsm = T ∧ s.fsm.shiftStance = .ok s'.fsm)
  formed : ∃ junkH l, FormReturns nan junkH s.mpc.horizon s.mpc.parameters s.model s.fsm w (.ok (true, mpc.horizon)) ∧
    FollowsWalk N T T s.model.getCoMHeight l mpc.horizon ∧ Shows p side p.numSteps k l ∧
    (∀ a, l[0]? = some a → a.duration = min (remaining s.fsm) (N * T)) ∧ s.mpc.parameters.preview_horizon_length < 2 ^ 63

theorem iteration_of {p : FSMParams} {N T : ℕ} (hp : LoopParameters p N T) {q : MPCParameters} (hq : MPCParameters.make N T T T = .ok q)
    {n : ℕ} {s s' : LoopState} {side : StanceType} {k : ℕ} (h : LoopInv p N T q n s side k) {nan : ℝ} {junkH : ℕ → Interval}
    {junk : ℕ → ℕ → ℕ → ℕ → ℝ} {junkI : ℕ → ℕ → ℕ} {w : WalkParameters} {mpc : Mpc}
    (hu : UpdateReturns nan junkH junk junkI s.model s.fsm w s.mpc (.ok (mpc, .ok))) {sol : Solution ℝ}
    (hs : SolutionFor mpc.horizon sol) {junkP : ℕ → ℕ → ℝ} {st : ModelState} (hc : Completes nan junkP T mpc sol s st s') :
    ∃ P cop X k', Iteration p N T q n nan s s' mpc st (entries sol) P cop X side k k' w := by
  obtain ⟨a, st', P, cop, X, k', h1, h2, h3, h4, h5⟩ := loop_step hp hq h hu hs junkP
  obtain ⟨rfl, rfl⟩ := completes_unique hc h1
  refine ⟨P, cop, X, k', h, h4, h3, h2, h5, junkH, ?_⟩
  obtain ⟨e1, e2, -, e3, -⟩ := C55_derived hq
  have hpar := h.parameters
  have hN63 : s.mpc.parameters.preview_horizon_length < 2 ^ 63 := by rw [hpar, e1]; exact hp.horizon.2
  obtain ⟨H, m, hH, -, hmpc⟩ := update_ok hu
  have hHm : mpc.horizon = H := by rw [hmpc]
  obtain ⟨l, hl, hlc, hF⟩ := C51_horizon h.machine.reach hp.proper h.machine.inside hN63 hH
  rw [hHm]
  rw [hpar, e1, e2, e3] at hF
  obtain ⟨c1, m, -, -, -, -, -, c2, -⟩ := complete_shows h.machine.ok h.machine.inv hlc
  rw [hpar, e1, e2] at c2
  exact ⟨l, hH, hF, c1, c2, hN63⟩

section
variable {p : FSMParams} {N T : ℕ} {q : MPCParameters} {n : ℕ} {nan : ℝ} {s s' : LoopState} {mpc : Mpc} {st : ModelState}
  {x : ℕ → ℝ} {P cop : ℕ → Fin 2 → ℝ} {X : ℕ → Fin 6 → ℝ} {side : StanceType} {k k' : ℕ} {w : WalkParameters}

/-- The stance of the machine after the iteration. -/
theorem Iteration.types (h : Iteration p N T q n nan s s' mpc st x P cop X side k k' w) :
    s'.fsm.cur.type ≠ .undefined ∧
    (s'.fsm.cur.type = .tds → k' = k + 1 ∧ k < 2 * p.numSteps + 2 ∧ ¬ NoSteps p p.numSteps ∧ k % 2 = 0) ∧
    (s'.fsm.cur.type ≠ .tds → s.fsm.cur.type = .tds ∨ s'.fsm.cur = s.fsm.cur) := by
  have hM := h.before.machine
  have hM' := h.after.machine
  have hz : k' ≠ 0 → ¬ NoSteps p p.numSteps := fun e1 e2 => e1 (hM'.pos.2 e2)
  refine ⟨by rw [hM'.inv.type]; exact (walkType_legal hM'.ok).defined _, fun ht => ?_, fun ht => ?_⟩
  · rcases h.cases with ⟨-, e, hne⟩ | ⟨rfl, -⟩
    · rw [e] at ht
      exact absurd ht hne
    · have hz := hz (by omega)
      have hp := hM'.pos.1
      rw [hM'.inv.type, walkType_parity hM'.ok hp fun e => absurd e hz] at ht
      exact ⟨rfl, by omega, hz, by omega⟩
  · rcases h.cases with ⟨-, e, hne⟩ | ⟨rfl, -⟩
    · right
      rw [e]
    · left
      have hz := hz (by omega)
      have hp := hM'.pos.1
      rw [hM'.inv.type, ne_eq, walkType_parity hM'.ok hp fun e => absurd e hz] at ht
      rw [hM.inv.type, walkType_parity hM.ok (by omega) fun e => absurd e hz]
      omega

theorem Iteration.next (h : Iteration p N T q n nan s s' mpc st x P cop X side k k' w) (hs : PlacedInv s k) :
    (s'.fsm.cur.type ≠ .tds → s'.model.current_support_position = s.model.current_support_position) ∧
    IsSupportPosition s'.model.state.feet.left.position s'.model.state.feet.right.position
      (standing s'.model.state.stance_type s'.model.state.next_stance_type) s'.model.current_support_position := by
  obtain ⟨r1, r2, r3, r4, r5, r6⟩ := C53_result h.stepped.update
  obtain ⟨d1, nx, d2, d3⟩ := h.stepped.given
  rw [← r2, ← r3] at r1
  refine ⟨fun ht => ?_, r1⟩
  obtain ⟨t1, t2, t3⟩ := h.types
  have hsup := support_of_ne t1 ht
  have hst : standing s'.model.state.stance_type s'.model.state.next_stance_type = s'.fsm.cur.type := by
    unfold standing
    rw [r2, d1, if_neg ht]
  have hst0 : standing s.model.state.stance_type s.model.state.next_stance_type = s'.fsm.cur.type := by
    unfold standing
    rw [h.before.stance]
    rcases t3 ht with e | e
    · rw [if_pos e]
      obtain ⟨-, y, hy, hy'⟩ := hs.describes e
      rw [hy']
      rcases h.cases with ⟨-, -, hne⟩ | ⟨-, -, hg⟩
      · exact absurd e hne
      · unfold FSM.getNextStance at hy
        rw [hg] at hy
        rw [← Except.ok.inj hy]
    · rw [if_neg (by rw [← e]; exact ht), e]
  have hsp := hs.support
  rw [hst] at r1
  rw [hst0] at hsp
  refine support_unique hsup r1 hsp (fun e => ?_) (fun e => ?_)
  · rcases e with e | e
    · rw [r6.left (Or.inl (d1.trans e)), h.stepped.feet.left e]
    · rw [r6.left (Or.inr (Or.inl (d1.trans e))), h.stepped.feet.stand (Or.inl e)]
  · rcases e with e | e
    · rw [r6.right (Or.inl (d1.trans e)), h.stepped.feet.right e]
    · rw [r6.right (Or.inr (Or.inl (d1.trans e))), h.stepped.feet.stand (Or.inl e)]

theorem shift_started {f g : FSM} (h : f.shiftStance = .ok g) (ht : g.cur.type = .tds) : g.tdsStarted = true := by
  unfold FSM.shiftStance at h
  simp only at h
  have henter : ∀ {a b : FSM} {t : StanceType}, a.enter t = .ok b → b.cur.type = t ∧ b.tdsStarted = a.tdsStarted := by
    intro a b t e
    unfold FSM.enter at e
    simp only [bind_eq_ok] at e
    obtain ⟨d, -, e⟩ := e
    cases e
    exact ⟨rfl, rfl⟩
  split at h
  · rw [(henter h).2]
  · rw [(henter h).2]
  · split at h
    · rw [(henter h).1] at ht
      cases ht
    · unfold FSM.enterSingle at h
      split at h
      · rw [(henter h).1] at ht
        cases ht
      · split at h
        · rw [(henter h).1] at ht
          cases ht
        · cases h
  · split at h
    · rw [(henter h).1] at ht
      cases ht
    · rw [(henter h).2]
  · cases h

/-- What is known when a transition begins: `a` is the current support and `b` is the next one. -/
structure Begins (p : FSMParams) (s s' : LoopState) (mpc : Mpc) (w : WalkParameters) (a b : WalkState) : Prop where
  first : FirstStep mpc.horizon b
  before : ∃ j, mpc.horizon.variable_steps[0]? = some j ∧ mpc.horizon.getWalkState (j - 1) = .ok a
  current : Current s.model a
  type : a.stance.type = s.fsm.cur.type
  nextType : s'.model.state.next_stance_type = b.stance.type
  bounds : HasBounds s.model.params b.stance b
  notFirst : b.stance.subtype ≠ .first
  prev : b.stance.prevNonTds = s.fsm.cur.type
  turns : ∃ t, Turns s.model w a t b
  support : IsSupport s.fsm.cur.type
  next : IsSingle b.stance.type ∨ b.stance.type = .ds
  alternates : IsSingle s.fsm.cur.type → IsSingle b.stance.type → b.stance.type = opposite s.fsm.cur.type
  walks : s.fsm.cur.type = .ds → IsSingle b.stance.type
  started : s'.fsm.tdsStarted = true

theorem Iteration.begins (hp : LoopParameters p N T) (h : Iteration p N T q n nan s s' mpc st x P cop X side k k' w)
    (ht : s'.fsm.cur.type = .tds) : ∃ a b, Begins p s s' mpc w a b := by
  obtain ⟨t1, t2, t3⟩ := h.types
  obtain ⟨rfl, hk, hz, hpar⟩ := t2 ht
  have hM := h.before.machine
  have hM' := h.after.machine
  obtain ⟨hrem, hg⟩ : remaining s.fsm = T ∧ s.fsm.shiftStance = .ok s'.fsm := by
    rcases h.cases with ⟨e, -⟩ | ⟨-, e1, e2⟩
    · omega
    · exact ⟨e1, e2⟩
  obtain ⟨junkH, l, hH, hF, hS, hd, hN63⟩ := h.formed
  have hne : s.fsm.cur.type ≠ .tds := by
    rw [hM.inv.type, ne_eq, walkType_parity hM.ok (by omega) fun e => absurd e hz]
    omega
  have hN := hp.horizon.1
  -- the list begins with the current stance
  obtain ⟨y, hy⟩ : ∃ y, l[0]? = some y := by
    obtain ⟨s0, h0, -⟩ := hF.supports 0 (by omega)
    rw [hF.first] at h0
    have := (List.getElem?_eq_some_iff.mp h0).1
    exact ⟨_, List.getElem?_eq_getElem (by omega)⟩
  have hyt : y.type = s.fsm.cur.type := by
    rw [(hS 0 y hy).1, hM.inv.type]
    rfl
  have hyd : y.duration = T := by
    rw [hd y hy, hrem]
    exact min_eq_left (by nlinarith [hp.sampling])
  have hl : l = y :: l.tail := by
    cases l with
    | nil => cases hy
    | cons z r => cases hy; rfl
  have hfs : firstSupport l = 0 := by
    rw [hl]
    unfold firstSupport
    exact if_neg (by rw [hyt]; exact hne)
  have h0 : 0 < mpc.horizon.variable_steps.length := by
    refine hF.allSteps 0 ?_
    rw [hfs, hl]
    show (if y.type = .tds then _ else (y.duration + T - 1) / T + 0) < N
    rw [if_neg (by rw [hyt]; exact hne), hyd]
    have : (T + T - 1) / T = 1 := by
      have hT := hp.sampling
      rw [Nat.div_eq_iff hT]
      omega
    omega
  obtain ⟨j, hj⟩ : ∃ j, mpc.horizon.variable_steps[0]? = some j := ⟨_, List.getElem?_eq_getElem h0⟩
  obtain ⟨hj1, hj2⟩ := hF.range j (List.mem_of_getElem? hj)
  have hsb := stepsBy_before hF.sorted (fun k hk => (hF.range k hk).1) hj
  have hi0 := state_index_eq hF (j - 1) (by omega)
  have hi1 := state_index_eq hF j hj2
  have hsn := stepsBy_next hF.sorted (j - 1)
  rw [show j - 1 + 1 = j by omega, if_pos (List.mem_of_getElem? hj)] at hsn
  rw [hsb, hfs] at hi0
  rw [hsn, hsb, hfs] at hi1
  obtain ⟨s1, hs1, hs1t⟩ := hF.supports j hj2
  rw [hi1] at hs1
  have hlen : l.length = mpc.horizon.walk_states.length := by rw [← hF.stances, List.length_map]
  have hlt := (List.getElem?_eq_some_iff.mp hs1).1
  have hget : ∀ (i : ℕ) (z : WalkState), mpc.horizon.walk_states[i]? = some z → l[i]? = some z.stance := by
    intro i z hz
    rw [← hF.stances, List.getElem?_map, hz]
    rfl
  obtain ⟨a, ha⟩ : ∃ a, mpc.horizon.walk_states[0]? = some a := ⟨_, List.getElem?_eq_getElem (by omega)⟩
  obtain ⟨t, hT⟩ : ∃ a, mpc.horizon.walk_states[1]? = some a := ⟨_, List.getElem?_eq_getElem (by omega)⟩
  obtain ⟨b, hb⟩ : ∃ a, mpc.horizon.walk_states[2]? = some a := ⟨_, List.getElem?_eq_getElem (by omega)⟩
  have la := hS _ _ (hget _ _ ha)
  have lb := hS _ _ (hget _ _ hb)
  have hat : a.stance.type = s.fsm.cur.type := by rw [la.1, hM.inv.type]; rfl
  have hbt : b.stance.type ≠ .tds := by
    have e := hget _ _ hb
    rw [hs1] at e
    cases e
    exact hs1t
  have hL := walkType_legal hM.ok
  obtain ⟨g', hg', hI', -⟩ := walk_step hM'.ok hM'.inv
  obtain ⟨-, nx, d2, d3⟩ := h.stepped.describes
  have hnx : nx.type = walkType p.firstStance side p.numSteps (k + 2) := by
    unfold FSM.getNextStance at d2
    rw [hg'] at d2
    rw [← Except.ok.inj d2]
    exact hI'.type
  refine ⟨a, b, ⟨j, hj, ?_⟩, ⟨j, hj, ?_⟩, ?_, hat, ?_, ?_, ?_, ?_, ?_, ?_, ?_, ?_, ?_, shift_started hg ht⟩
  · rw [Horizon.getWalkState_ok (by rw [hF.size]; exact hj2), hi1]
    exact hb
  · rw [Horizon.getWalkState_ok (by rw [hF.size]; omega), hi0]
    exact ha
  · exact (C74_current hM.reach hp.proper hM.inside hN63 hH ha).1
  · rw [d3, hnx, lb.1]
  · exact C74_bounds hM.reach hp.proper hM.inside hN63 hH hb hbt
  · rw [lb.2.1]
    unfold walkSub
    rw [if_neg (by omega)]
    split
    · decide
    · split <;> decide
  · rw [lb.2.2, walkPrev_even hM.ok hz hpar (by omega), hM.inv.type]
  · exact ⟨t, (C74_turns hM.reach hp.proper hM.inside hN63 hH ha hT hb (by rw [hat]; exact hne)).2⟩
  · refine support_of_ne ?_ hne
    rw [hM.inv.type]
    exact hL.defined k
  · rw [lb.1]
    refine hL.afterTransition (k + 1) ?_
    rw [← hM'.inv.type]
    exact ht
  · intro e1 e2
    rw [lb.1] at e2 ⊢
    rw [hM.inv.type] at e1 ⊢
    exact hL.alternates k e1 e2
  · intro e
    rw [hM.inv.type] at e
    have hk0 : k = 0 := by
      by_contra hne
      rw [walkType_even hz hne hpar hk] at e
      exact (single_ne (sideAt_single (hM.ok.side (not_noSteps hz)) (k / 2))).2.1 e
    subst hk0
    have hns : p.numSteps ≠ 0 := fun e' => hz ⟨by simpa [walkType] using e, e'⟩
    rw [lb.1, walkType_even hz (by omega) (by omega) (by omega)]
    exact sideAt_single (hM.ok.side (not_noSteps hz)) _

theorem firstStep_unique {H : Horizon} {a b : WalkState} (ha : FirstStep H a) (hb : FirstStep H b) : a = b := by
  obtain ⟨i, h1, h2⟩ := ha
  obtain ⟨j, h3, h4⟩ := hb
  cases h1.symm.trans h3
  exact Except.ok.inj (h2.symm.trans h4)

/-- The solution at the first step, in the frame of the current support. -/
theorem Begins.moved {a b : WalkState} (hB : Begins p s s' mpc w a b) (hX : Prediction mpc.horizon s.model x P cop X) :
    P 0 = s.model.current_support_position ∧
    IsTurned a.theta ![x (2 * mpc.horizon.intervals.n), x (2 * mpc.horizon.intervals.n + 1)] (P 1 - P 0) := by
  obtain ⟨j, h1, h2⟩ := hB.before
  exact ⟨hX.footsteps.start, hX.footsteps.step 0 j a h1 h2⟩

theorem Begins.within {a b : WalkState} (hB : Begins p s s' mpc w a b) (hb : MeetsFirstBounds mpc.horizon x) :
    b.fd_bounds 0 0 ≤ x (2 * mpc.horizon.intervals.n) ∧ x (2 * mpc.horizon.intervals.n) ≤ b.fd_bounds 0 1 ∧
    b.fd_bounds 1 0 ≤ x (2 * mpc.horizon.intervals.n + 1) ∧ x (2 * mpc.horizon.intervals.n + 1) ≤ b.fd_bounds 1 1 :=
  ⟨(hb b hB.first 0).1, (hb b hB.first 0).2, (hb b hB.first 1).1, (hb b hB.first 1).2⟩

/-- The feet when a transition begins. -/
theorem Iteration.landed (h : Iteration p N T q n nan s s' mpc st x P cop X side k k' w) (ht : s'.fsm.cur.type = .tds)
    {a b : WalkState} (hB : Begins p s s' mpc w a b) :
    (s.fsm.cur.type = .lss → s'.model.state.feet.left = s.model.state.feet.left ∧
      Landed s.model.params.feetDistDefault .right s.model.state.feet.left b (P 1) s'.model.state.feet.right) ∧
    (s.fsm.cur.type = .rss → s'.model.state.feet.right = s.model.state.feet.right ∧
      Landed s.model.params.feetDistDefault .left s.model.state.feet.right b (P 1) s'.model.state.feet.left) ∧
    (s.fsm.cur.type = .ds → s'.model.state.feet.left = s.model.state.feet.left ∧
      s'.model.state.feet.right = s.model.state.feet.right) := by
  obtain ⟨-, -, -, -, -, r6⟩ := C53_result h.stepped.update
  obtain ⟨d1, -⟩ := h.stepped.given
  have hst := h.before.stance
  refine ⟨fun e => ?_, fun e => ?_, fun e => ?_⟩ <;> rw [e] at hst
  · obtain ⟨f1, c, f2, f3⟩ := h.stepped.feet.rightLands ⟨ht, hB.started, by rw [hst]; exact Or.inl rfl⟩ hst
    cases firstStep_unique f2 hB.first
    refine ⟨r6.leftKept (Or.inr ⟨d1.trans ht, by rw [hst]; decide⟩), ?_⟩
    rw [r6.right (Or.inr (Or.inr ⟨d1.trans ht, hst⟩))]
    exact f3
  · obtain ⟨f1, c, f2, f3⟩ := h.stepped.feet.leftLands ⟨ht, hB.started, by rw [hst]; exact Or.inr rfl⟩ hst
    cases firstStep_unique f2 hB.first
    refine ⟨r6.rightKept (Or.inr ⟨d1.trans ht, by rw [hst]; decide⟩), ?_⟩
    rw [r6.left (Or.inr (Or.inr ⟨d1.trans ht, hst⟩))]
    exact f3
  · exact ⟨r6.leftKept (Or.inr ⟨d1.trans ht, by rw [hst]; decide⟩), r6.rightKept (Or.inr ⟨d1.trans ht, by rw [hst]; decide⟩)⟩

/-- Bounds which fix a position. -/
theorem fixed_bounds {B : Matrix (Fin 2) (Fin 2) ℝ} {d x0 x1 : ℝ} (hB : B = !![0, 0; d, d]) (h1 : B 0 0 ≤ x0) (h2 : x0 ≤ B 0 1)
    (h3 : B 1 0 ≤ x1) (h4 : x1 ≤ B 1 1) : x0 = 0 ∧ x1 = d := by
  subst hB
  exact ⟨le_antisymm h2 h1, le_antisymm h4 h3⟩

theorem Iteration.transition (h : Iteration p N T q n nan s s' mpc st x P cop X side k k' w)
    (hs : PlacedInv s k) (ht : s'.fsm.cur.type = .tds) (hb : MeetsFirstBounds mpc.horizon x) {a b : WalkState}
    (hB : Begins p s s' mpc w a b) : s'.model.current_support_position = P 1 := by
  obtain ⟨l1, l2, l3⟩ := h.landed ht hB
  obtain ⟨m1, m2⟩ := hB.moved h.predicted
  obtain ⟨w1, w2, w3, w4⟩ := hB.within hb
  obtain ⟨-, hsup⟩ := h.next hs
  have hst : standing s'.model.state.stance_type s'.model.state.next_stance_type = b.stance.type := by
    unfold standing
    rw [h.after.stance, if_pos ht, hB.nextType]
  have hst0 : standing s.model.state.stance_type s.model.state.next_stance_type = s.fsm.cur.type := by
    unfold standing
    rw [h.before.stance, if_neg]
    rcases hB.support with e | e | e <;> rw [e] <;> decide
  obtain ⟨S1, S2, S3⟩ := hsup
  rw [hst] at S1 S2 S3
  obtain ⟨R1, R2, R3⟩ := hs.support
  rw [hst0] at R1 R2 R3
  obtain ⟨t, hT⟩ := hB.turns
  rw [m1] at m2
  obtain ⟨m2, m3⟩ := m2
  simp only [Pi.sub_apply, Matrix.cons_val_zero, Matrix.cons_val_one] at m2 m3
  rcases hB.support with e | e | e
  · obtain ⟨f1, f2⟩ := l1 e
    rcases hB.next with hn | hn
    · have := hB.alternates (by rw [e]; exact Or.inl rfl) hn
      rw [e] at this
      obtain ⟨a1, a2⟩ := S2 this
      obtain ⟨b1, b2⟩ := f2.single hn
      exact support_ext (a1.trans b1) (a2.trans b2)
    · obtain ⟨a1, a2⟩ := S3 hn
      obtain ⟨b1, b2⟩ := f2.double hn
      obtain ⟨c1, c2⟩ := R1 e
      have hbd := Except.ok.inj (hB.bounds.closesRight hB.notFirst hn (hB.prev.trans e)).symm
      have hθ := (hT.singleToDouble (by rw [hB.type, e]; exact Or.inl rfl) hn).1
      obtain ⟨x0, x1⟩ := fixed_bounds hbd w1 w2 w3 w4
      rw [hθ] at b1 b2
      rw [f1] at a1 a2
      rw [x0, x1] at m2 m3
      simp only [beside, Matrix.cons_val_zero, Matrix.cons_val_one] at b1 b2
      exact support_ext (by linarith) (by linarith)
  · obtain ⟨f1, f2⟩ := l2 e
    rcases hB.next with hn | hn
    · have := hB.alternates (by rw [e]; exact Or.inr rfl) hn
      rw [e] at this
      obtain ⟨a1, a2⟩ := S1 this
      obtain ⟨b1, b2⟩ := f2.single hn
      exact support_ext (a1.trans b1) (a2.trans b2)
    · obtain ⟨a1, a2⟩ := S3 hn
      obtain ⟨b1, b2⟩ := f2.double hn
      obtain ⟨c1, c2⟩ := R2 e
      have hbd := Except.ok.inj (hB.bounds.closesLeft hB.notFirst hn (hB.prev.trans e)).symm
      have hθ := (hT.singleToDouble (by rw [hB.type, e]; exact Or.inr rfl) hn).1
      obtain ⟨x0, x1⟩ := fixed_bounds hbd w1 w2 w3 w4
      rw [hθ] at b1 b2
      rw [f1] at a1 a2
      rw [x0, x1] at m2 m3
      simp only [beside, Matrix.cons_val_zero, Matrix.cons_val_one] at b1 b2
      exact support_ext (by linarith) (by linarith)
  · obtain ⟨f1, f2⟩ := l3 e
    have hk : k = 0 := by
      obtain ⟨-, t2, -⟩ := h.types
      obtain ⟨-, hk, hz, hpar⟩ := t2 ht
      have hM := h.before.machine
      by_contra hne
      rw [hM.inv.type, walkType_even hz hne hpar hk] at e
      exact (single_ne (sideAt_single (hM.ok.side (not_noSteps hz)) (k / 2))).2.1 e
    obtain ⟨θ, t1, t2, t3⟩ := hs.feet hk e
    have hθ : a.theta = θ := by
      have := hB.current.double (hB.type.trans e)
      linarith
    rw [hθ] at m2 m3
    obtain ⟨t2, t2'⟩ := t2
    obtain ⟨t3, t3'⟩ := t3
    simp only [beside, Matrix.cons_val_zero, Matrix.cons_val_one] at t2 t2' t3 t3'
    rcases hB.walks e with hn | hn
    · obtain ⟨a1, a2⟩ := S1 hn
      have hbd := Except.ok.inj (hB.bounds.leftAfterDouble hB.notFirst hn (hB.prev.trans e)).symm
      obtain ⟨x0, x1⟩ := fixed_bounds hbd w1 w2 w3 w4
      rw [f1] at a1 a2
      rw [x0, x1] at m2 m3
      exact support_ext (by linarith) (by linarith)
    · obtain ⟨a1, a2⟩ := S2 hn
      have hbd := Except.ok.inj (hB.bounds.rightAfterDouble hB.notFirst hn (hB.prev.trans e)).symm
      obtain ⟨x0, x1⟩ := fixed_bounds hbd w1 w2 w3 w4
      rw [f2] at a1 a2
      rw [x0, x1] at m2 m3
      exact support_ext (by linarith) (by linarith)

/-- The invariant is kept. -/
theorem Iteration.placed (h : Iteration p N T q n nan s s' mpc st x P cop X side k k' w) (hs : PlacedInv s k) : PlacedInv s' k' := by
  obtain ⟨n1, n2⟩ := h.next hs
  refine ⟨n2, fun hk he => ?_, fun _ => h.stepped.describes⟩
  obtain ⟨rfl, hf, hne⟩ : k' = k ∧ s'.fsm = { s.fsm with tdsStarted := false, time := s.fsm.time + T } ∧ s.fsm.cur.type ≠ .tds := by
    rcases h.cases with e | ⟨e, -⟩
    · exact e
    · omega
  have hc : s.fsm.cur.type = .ds := by rw [hf] at he; exact he
  obtain ⟨-, -, -, -, r5, r6⟩ := C53_result h.stepped.update
  obtain ⟨d1, -⟩ := h.stepped.given
  have hfe := h.stepped.feet.stand (Or.inl he)
  have hl : s'.model.state.feet.left = s.model.state.feet.left := by
    rw [r6.left (Or.inr (Or.inl (d1.trans he))), hfe]
  have hr : s'.model.state.feet.right = s.model.state.feet.right := by
    rw [r6.right (Or.inr (Or.inl (d1.trans he))), hfe]
  have := hs.feet hk hc
  unfold FeetBeside at this ⊢
  rw [hl, hr, r5, n1 (by rw [he]; decide)]
  exact this

end

theorem loop_placed {p : FSMParams} {N T : ℕ} (hp : LoopParameters p N T) {q : MPCParameters}
    (hq : MPCParameters.make N T T T = .ok q) {nan : ℝ} {s0 s : LoopState} (h0 : LoopStart p q s0) (hpl : Stands s0.model) {n : ℕ}
    (h : LoopAfter nan T s0 n s) : ∃ side k, LoopInv p N T q n s side k ∧ PlacedInv s k := by
  induction h with
  | start =>
    obtain ⟨side, hI⟩ := loop_start hp h0
    have hne : s0.model.state.stance_type ≠ .tds := by
      rw [h0.stance, hI.machine.inv.type, ne_eq, walkType_parity hI.machine.ok (by omega) fun _ => rfl]
      omega
    refine ⟨side, 0, hI, ?_, fun _ he => hpl.feet (h0.stance.trans he), fun he => absurd (h0.stance.trans he) hne⟩
    unfold standing
    rw [if_neg hne]
    exact hpl.support
  | step _ hs ih =>
    obtain ⟨side, k, hI, hP⟩ := ih
    obtain ⟨junkH, junk, junkI, junkP, w, mpc, sol, st, hu, hsol, hc⟩ := hs
    obtain ⟨P, cop, X, k', hit⟩ := iteration_of hp hq hI hu hsol hc
    exact ⟨side, k', hit.after, hit.placed hP⟩

/-! ## The theorems -/

section
variable {p : FSMParams} {N T : ℕ} {q : MPCParameters} {nan : ℝ} {s0 s s' : LoopState} {n : ℕ} {junkH : ℕ → Interval}
  {junk : ℕ → ℕ → ℕ → ℕ → ℝ} {junkI : ℕ → ℕ → ℕ} {w : WalkParameters} {mpc : Mpc} {sol : Solution ℝ} {junkP : ℕ → ℕ → ℝ} {st : ModelState}

/-- **C80.** In the loop of control, when the solutions meet the bounds on the first step, the support of the robot is the one of the
plan: it remains where it is until a transition begins, and then it is where the plan has the first step. -/
theorem C80_support (hp : LoopParameters p N T) (hq : MPCParameters.make N T T T = .ok q) (h0 : LoopStart p q s0)
    (hpl : Stands s0.model) (h : LoopAfter nan T s0 n s) (hu : UpdateReturns nan junkH junk junkI s.model s.fsm w s.mpc (.ok (mpc, .ok)))
    (hsol : SolutionFor mpc.horizon sol) (hb : MeetsFirstBounds mpc.horizon (entries sol)) (hc : Completes nan junkP T mpc sol s st s')
    {P cop : ℕ → Fin 2 → ℝ} {X : ℕ → Fin 6 → ℝ} (hX : Prediction mpc.horizon s.model (entries sol) P cop X) :
    s'.model.current_support_position = if s'.fsm.cur.type = .tds then P 1 else P 0 := by
  obtain ⟨side, k, hI, hP⟩ := loop_placed hp hq h0 hpl h
  obtain ⟨P', cop', X', k', hit⟩ := iteration_of hp hq hI hu hsol hc
  split
  · rename_i ht
    obtain ⟨a, b, hB⟩ := hit.begins hp ht
    rw [hit.transition hP ht hb hB]
    obtain ⟨a1, a2⟩ := hB.moved hit.predicted
    obtain ⟨b1, b2⟩ := hB.moved hX
    rw [a1] at a2
    rw [b1] at b2
    obtain ⟨a2, a3⟩ := a2
    obtain ⟨b2, b3⟩ := b2
    simp only [Pi.sub_apply] at a2 a3 b2 b3
    exact support_ext (by linarith) (by linarith)
  · rename_i ht
    rw [hX.footsteps.start]
    exact (hit.next hP).1 ht

/-- **C80.** The support is that of the feet at all times, whatever the solutions are: the supporting foot or the middle between the
feet; during a transition, of the stance which follows it. -/
theorem C80_feet (hp : LoopParameters p N T) (hq : MPCParameters.make N T T T = .ok q) (h0 : LoopStart p q s0)
    (hpl : Stands s0.model) (h : LoopAfter nan T s0 n s) :
    IsSupportPosition s.model.state.feet.left.position s.model.state.feet.right.position
      (standing s.model.state.stance_type s.model.state.next_stance_type) s.model.current_support_position := by
  obtain ⟨side, k, hI, hP⟩ := loop_placed hp hq h0 hpl h
  exact hP.support

/-- **C80.** When the solutions meet the bounds on the first step, a foot which lands during the walk is placed at an allowed distance
from the other foot, which does not move, and turned by the increment of the walk. -/
theorem C80_step (hp : LoopParameters p N T) (hq : MPCParameters.make N T T T = .ok q) (h0 : LoopStart p q s0)
    (hpl : Stands s0.model) (h : LoopAfter nan T s0 n s) (hu : UpdateReturns nan junkH junk junkI s.model s.fsm w s.mpc (.ok (mpc, .ok)))
    (hsol : SolutionFor mpc.horizon sol) (hb : MeetsFirstBounds mpc.horizon (entries sol)) (hc : Completes nan junkP T mpc sol s st s')
    (ht : s'.model.state.stance_type = .tds) (hn : IsSingle s'.model.state.next_stance_type) :
    (s.model.state.stance_type = .lss → s'.model.state.feet.left = s.model.state.feet.left ∧
      AllowedStep s.model.params (-1) s'.model.state.feet.left s'.model.state.feet.right ∧
      s'.model.state.feet.right.rpy 2 = s'.model.state.feet.left.rpy 2 + w.theta_increment) ∧
    (s.model.state.stance_type = .rss → s'.model.state.feet.right = s.model.state.feet.right ∧
      AllowedStep s.model.params 1 s'.model.state.feet.right s'.model.state.feet.left ∧
      s'.model.state.feet.left.rpy 2 = s'.model.state.feet.right.rpy 2 + w.theta_increment) := by
  obtain ⟨side, k, hI, hP⟩ := loop_placed hp hq h0 hpl h
  obtain ⟨P, cop, X, k', hit⟩ := iteration_of hp hq hI hu hsol hc
  have ht' : s'.fsm.cur.type = .tds := hit.after.stance.symm.trans ht
  obtain ⟨a, b, hB⟩ := hit.begins hp ht'
  obtain ⟨l1, l2, -⟩ := hit.landed ht' hB
  obtain ⟨m1, m2⟩ := hB.moved hit.predicted
  obtain ⟨w1, w2, w3, w4⟩ := hB.within hb
  rw [hB.nextType] at hn
  obtain ⟨t, hT⟩ := hB.turns
  rw [m1] at m2
  have hst0 : s.model.state.stance_type ≠ .tds → standing s.model.state.stance_type s.model.state.next_stance_type =
      s.model.state.stance_type := fun e => if_neg e
  obtain ⟨R1, R2, -⟩ := hP.support
  refine ⟨fun e => ?_, fun e => ?_⟩ <;> rw [hst0 (by rw [e]; decide)] at R1 R2 <;> have e' := hI.stance.symm.trans e
  · obtain ⟨f1, f2⟩ := l1 e'
    obtain ⟨c1, c2⟩ := R1 e
    have hbd := Except.ok.inj (hB.bounds.rightAfterSingle hB.notFirst
      ((hB.alternates (by rw [e']; exact Or.inl rfl) hn).trans (by rw [e']; rfl)) (hB.prev.trans e')).symm
    have hθ := hB.current.left (hB.type.trans e')
    obtain ⟨p1, p2⟩ := f2.single hn
    rw [hbd] at w1 w2 w3 w4
    refine ⟨f1, ⟨![entries sol (2 * mpc.horizon.intervals.n), entries sol (2 * mpc.horizon.intervals.n + 1)], ?_, w1, w2, ?_, ?_⟩, ?_⟩
    · rw [f1, ← hθ]
      have : ![s'.model.state.feet.right.position 0 - s.model.state.feet.left.position 0,
          s'.model.state.feet.right.position 1 - s.model.state.feet.left.position 1] = P 1 - s.model.current_support_position :=
        support_ext (by simp [p1, c1]) (by simp [p2, c2])
      rw [this]
      exact m2
    · have : (entries sol) (2 * mpc.horizon.intervals.n + 1) ≤ -s.model.params.minFeetDist := w4
      simp only [Matrix.cons_val_one, Matrix.cons_val_fin_one]
      linarith
    · have : -s.model.params.maxFeetDist ≤ (entries sol) (2 * mpc.horizon.intervals.n + 1) := w3
      simp only [Matrix.cons_val_one, Matrix.cons_val_fin_one]
      linarith
    · rw [f2.orientation, f1]
      show b.theta = _
      rw [(hT.singleToSingle (by rw [hB.type, e']; exact Or.inl rfl) hn).1, hθ]
  · obtain ⟨f1, f2⟩ := l2 e'
    obtain ⟨c1, c2⟩ := R2 e
    have hbd := Except.ok.inj (hB.bounds.leftAfterSingle hB.notFirst
      ((hB.alternates (by rw [e']; exact Or.inr rfl) hn).trans (by rw [e']; rfl)) (hB.prev.trans e')).symm
    have hθ := hB.current.right (hB.type.trans e')
    obtain ⟨p1, p2⟩ := f2.single hn
    rw [hbd] at w1 w2 w3 w4
    refine ⟨f1, ⟨![entries sol (2 * mpc.horizon.intervals.n), entries sol (2 * mpc.horizon.intervals.n + 1)], ?_, w1, w2, ?_, ?_⟩, ?_⟩
    · rw [f1, ← hθ]
      have : ![s'.model.state.feet.left.position 0 - s.model.state.feet.right.position 0,
          s'.model.state.feet.left.position 1 - s.model.state.feet.right.position 1] = P 1 - s.model.current_support_position :=
        support_ext (by simp [p1, c1]) (by simp [p2, c2])
      rw [this]
      exact m2
    · have : s.model.params.minFeetDist ≤ (entries sol) (2 * mpc.horizon.intervals.n + 1) := w3
      simp only [Matrix.cons_val_one, Matrix.cons_val_fin_one]
      linarith
    · have : (entries sol) (2 * mpc.horizon.intervals.n + 1) ≤ s.model.params.maxFeetDist := w4
      simp only [Matrix.cons_val_one, Matrix.cons_val_fin_one]
      linarith
    · rw [f2.orientation, f1]
      show b.theta = _
      rw [(hT.singleToSingle (by rw [hB.type, e']; exact Or.inr rfl) hn).1, hθ]

/-- **C80.** When the solutions meet the bounds on the first step, the last step brings the foot beside the other one, which does not
move, at the default distance and with the same orientation. -/
theorem C80_last (hp : LoopParameters p N T) (hq : MPCParameters.make N T T T = .ok q) (h0 : LoopStart p q s0)
    (hpl : Stands s0.model) (h : LoopAfter nan T s0 n s) (hu : UpdateReturns nan junkH junk junkI s.model s.fsm w s.mpc (.ok (mpc, .ok)))
    (hsol : SolutionFor mpc.horizon sol) (hb : MeetsFirstBounds mpc.horizon (entries sol)) (hc : Completes nan junkP T mpc sol s st s')
    (ht : s'.model.state.stance_type = .tds) (hn : s'.model.state.next_stance_type = .ds) :
    (s.model.state.stance_type = .lss → s'.model.state.feet.left = s.model.state.feet.left ∧
      Beside s.model.params (-1) s'.model.state.feet.left s'.model.state.feet.right) ∧
    (s.model.state.stance_type = .rss → s'.model.state.feet.right = s.model.state.feet.right ∧
      Beside s.model.params 1 s'.model.state.feet.right s'.model.state.feet.left) := by
  obtain ⟨side, k, hI, hP⟩ := loop_placed hp hq h0 hpl h
  obtain ⟨P, cop, X, k', hit⟩ := iteration_of hp hq hI hu hsol hc
  have ht' : s'.fsm.cur.type = .tds := hit.after.stance.symm.trans ht
  obtain ⟨a, b, hB⟩ := hit.begins hp ht'
  obtain ⟨l1, l2, -⟩ := hit.landed ht' hB
  obtain ⟨m1, m2⟩ := hB.moved hit.predicted
  obtain ⟨w1, w2, w3, w4⟩ := hB.within hb
  rw [hB.nextType] at hn
  obtain ⟨t, hT⟩ := hB.turns
  rw [m1] at m2
  obtain ⟨m2, m3⟩ := m2
  simp only [Pi.sub_apply, Matrix.cons_val_zero, Matrix.cons_val_one] at m2 m3
  have hst0 : s.model.state.stance_type ≠ .tds → standing s.model.state.stance_type s.model.state.next_stance_type =
      s.model.state.stance_type := fun e => if_neg e
  obtain ⟨R1, R2, -⟩ := hP.support
  refine ⟨fun e => ?_, fun e => ?_⟩ <;> rw [hst0 (by rw [e]; decide)] at R1 R2 <;> have e' := hI.stance.symm.trans e
  · obtain ⟨f1, f2⟩ := l1 e'
    obtain ⟨c1, c2⟩ := R1 e
    have hbd := Except.ok.inj (hB.bounds.closesRight hB.notFirst hn (hB.prev.trans e')).symm
    have hθ := hB.current.left (hB.type.trans e')
    have hθ' := (hT.singleToDouble (by rw [hB.type, e']; exact Or.inl rfl) hn).1
    obtain ⟨p1, p2⟩ := f2.double hn
    obtain ⟨x0, x1⟩ := fixed_bounds hbd w1 w2 w3 w4
    rw [x0, x1] at m2 m3
    rw [hθ', hθ] at p1 p2
    rw [hθ] at m2 m3
    simp only [beside, Matrix.cons_val_zero, Matrix.cons_val_one] at p1 p2
    refine ⟨f1, ⟨?_, ?_⟩, ?_⟩
    · rw [f1]
      simp only [Matrix.cons_val_zero, Matrix.cons_val_one]
      linarith
    · rw [f1]
      simp only [Matrix.cons_val_zero, Matrix.cons_val_one]
      linarith
    · rw [f2.orientation, f1]
      exact hθ'.trans hθ
  · obtain ⟨f1, f2⟩ := l2 e'
    obtain ⟨c1, c2⟩ := R2 e
    have hbd := Except.ok.inj (hB.bounds.closesLeft hB.notFirst hn (hB.prev.trans e')).symm
    have hθ := hB.current.right (hB.type.trans e')
    have hθ' := (hT.singleToDouble (by rw [hB.type, e']; exact Or.inr rfl) hn).1
    obtain ⟨p1, p2⟩ := f2.double hn
    obtain ⟨x0, x1⟩ := fixed_bounds hbd w1 w2 w3 w4
    rw [x0, x1] at m2 m3
    rw [hθ', hθ] at p1 p2
    rw [hθ] at m2 m3
    simp only [beside, Matrix.cons_val_zero, Matrix.cons_val_one] at p1 p2
    refine ⟨f1, ⟨?_, ?_⟩, ?_⟩
    · rw [f1]
      simp only [Matrix.cons_val_zero, Matrix.cons_val_one]
      linarith
    · rw [f1]
      simp only [Matrix.cons_val_zero, Matrix.cons_val_one]
      linarith
    · rw [f2.orientation, f1]
      exact hθ'.trans hθ

theorem footBounds_ordered {P : FootParameters ℝ} (h1 : 0 ≤ P.maxStepLen) (h2 : P.minFeetDist ≤ P.maxFeetDist) {t : Stance}
    {B : Matrix (Fin 2) (Fin 2) ℝ} (h : footBounds P t = .ok B) (i : Fin 2) : B i 0 ≤ B i 1 := by
  have key : ∀ (f : LeftOrRight) (ty : FootBoundsType), P.getFootBounds f ty = .ok B → B i 0 ≤ B i 1 := by
    intro f ty e
    have hf : f ≠ .undefined := by rintro rfl; cases e
    have ht : ty ≠ .undefined := by rintro rfl; cases f <;> cases e
    obtain ⟨B', e', hB⟩ := C32_ordered P h1 h2 f hf ty ht
    cases e.symm.trans e'
    exact hB i
  unfold footBounds at h
  split at h
  · rw [← Except.ok.inj h]
    exact le_refl _
  · repeat' split at h
    all_goals first | exact key _ _ h | cases h

/-- **C80.** If the parameters of the feet are ordered, there are solutions which meet the bounds on the first step. -/
theorem C80_possible (hp : LoopParameters p N T) (hq : MPCParameters.make N T T T = .ok q) (h0 : LoopStart p q s0)
    (h : LoopAfter nan T s0 n s) (hu : UpdateReturns nan junkH junk junkI s.model s.fsm w s.mpc (.ok (mpc, .ok)))
    (h1 : 0 ≤ s.model.params.maxStepLen) (h2 : s.model.params.minFeetDist ≤ s.model.params.maxFeetDist) :
    ∃ sol, SolutionFor mpc.horizon sol ∧ MeetsFirstBounds mpc.horizon (entries sol) := by
  obtain ⟨side, k, hI⟩ := loop_after hp hq h0 h
  obtain ⟨e1, e2, -, e3, -⟩ := C55_derived hq
  have hpar := hI.parameters
  have hN63 : s.mpc.parameters.preview_horizon_length < 2 ^ 63 := by rw [hpar, e1]; exact hp.horizon.2
  obtain ⟨H, m, hH, -, hmpc⟩ := update_ok hu
  have hHm : mpc.horizon = H := by rw [hmpc]
  rw [hHm]
  have hord : ∀ b, FirstStep H b → ∀ i, b.fd_bounds i 0 ≤ b.fd_bounds i 1 := by
    intro b ⟨j, hj, hb⟩ i
    obtain ⟨l, hl, hlc, hF⟩ := C51_horizon hI.machine.reach hp.proper hI.machine.inside hN63 hH
    obtain ⟨l2, _, _, _, _, hE, hmap, -⟩ := formed_entries hI.machine.reach hp.proper hI.machine.inside hN63 hH
    have el : l2 = l := hmap.symm.trans hF.stances
    subst el
    have hjN := (hF.range j (List.mem_of_getElem? hj)).2
    obtain ⟨s1, hs1, hs1t⟩ := hF.supports j hjN
    obtain ⟨y, hy, hy'⟩ := hE _ s1 hs1
    rw [Horizon.getWalkState_ok (by rw [hF.size]; exact hjN), hy] at hb
    cases hb
    exact footBounds_ordered h1 h2 (hy'.fd hs1t) i
  by_cases hs : ∃ b, FirstStep H b
  · obtain ⟨b, hb⟩ := hs
    refine ⟨solutionOf H ((List.range (2 * H.intervals.n + 2 * H.variable_steps.length)).map fun i =>
      if i = 2 * H.intervals.n then b.fd_bounds 0 0 else b.fd_bounds 1 0), solutionOf_for (by simp), ?_⟩
    intro b' hb' i
    cases firstStep_unique hb hb'
    have hlen : 0 < H.variable_steps.length := by
      obtain ⟨j, hj, -⟩ := hb
      exact (List.getElem?_eq_some_iff.mp hj).1
    have hx : ∀ i < 2, entries (solutionOf H ((List.range (2 * H.intervals.n + 2 * H.variable_steps.length)).map fun i =>
        if i = 2 * H.intervals.n then b.fd_bounds 0 0 else b.fd_bounds 1 0)) (2 * H.intervals.n + i) =
        if i = 0 then b.fd_bounds 0 0 else b.fd_bounds 1 0 := by
      intro i hi
      unfold entries solutionOf
      simp only
      rw [List.getD_eq_getElem?_getD, List.getElem?_map, List.getElem?_range (by omega)]
      simp
    fin_cases i
    · have := hx 0 (by decide)
      rw [if_pos rfl] at this
      show b.fd_bounds 0 0 ≤ _ ∧ _ ≤ b.fd_bounds 0 1
      rw [this]
      exact ⟨le_refl _, hord b hb 0⟩
    · have := hx 1 (by decide)
      rw [if_neg one_ne_zero] at this
      show b.fd_bounds 1 0 ≤ _ ∧ _ ≤ b.fd_bounds 1 1
      rw [this]
      exact ⟨le_refl _, hord b hb 1⟩
  · exact ⟨solutionOf H (List.replicate _ 0), solutionOf_for List.length_replicate, fun b hb => absurd ⟨b, hb⟩ hs⟩

end

/-- The robot at the beginning of the default walk stands on its support. -/
theorem default_stands (nan : ℝ) : Stands (standing20 nan .ds) := by
  refine ⟨⟨nofun, nofun, fun _ => ⟨?_, ?_⟩⟩, fun _ => ⟨0, ?_, ⟨?_, ?_⟩, ?_, ?_⟩⟩ <;>
    norm_num [standing20, feet20, beside]

/-- The hypotheses are met in the first iterations of the default walk and for all of its 74 iterations. -/
example (nan : ℝ) : ∃ q s0, MPCParameters.make 16 100 100 100 = .ok q ∧ LoopStart FSMParams.default q s0 ∧ Stands s0.model ∧
    ∃ s, LoopAfter nan 100 s0 74 s := by
  obtain ⟨q, hq⟩ : ∃ q, MPCParameters.make 16 100 100 100 = .ok q := ⟨_, rfl⟩
  have h0 : LoopStart FSMParams.default q ⟨standing20 nan .ds, _, Mpc.make q⟩ := ⟨rfl, rfl, rfl, one_pos⟩
  exact ⟨q, _, hq, h0, default_stands nan, (C79_count default_loop hq nan h0 73).2 (by decide)⟩

end Humoto.Wpg
