import Verif.Lemmas.WpgBalance

/-!
# Walking pattern generator: soles and supports in the loop of control
-/

namespace Humoto.Wpg

open Spec Spec.Wpg PointMass6z

/-- Orientations of the feet between iterations: `k` is the number of the stance, `δ` is the increment of the angle. -/
structure FeetInv (p : FSMParams) (δ : ℝ) (s : LoopState) (side : StanceType) (k : ℕ) : Prop where
  double : standing s.model.state.stance_type s.model.state.next_stance_type = .ds →
    FeetBeside s.model ∧ s.model.state.feet.left.rpy 2 = s.model.state.feet.right.rpy 2
  toRight : s.fsm.cur.type = .tds → walkPrev p.firstStance side p.numSteps k = .lss → s.model.state.next_stance_type = .rss →
    s.model.state.feet.right.rpy 2 = s.model.state.feet.left.rpy 2 + δ
  toLeft : s.fsm.cur.type = .tds → walkPrev p.firstStance side p.numSteps k = .rss → s.model.state.next_stance_type = .lss →
    s.model.state.feet.left.rpy 2 = s.model.state.feet.right.rpy 2 + δ

section
variable {p : FSMParams} {N T : ℕ} {q : MPCParameters} {n : ℕ} {nan : ℝ} {s s' : LoopState} {mpc : Mpc} {st : ModelState}
  {x : ℕ → ℝ} {P cop : ℕ → Fin 2 → ℝ} {X : ℕ → Fin 6 → ℝ} {side : StanceType} {k k' : ℕ} {w : WalkParameters} {δ : ℝ}

/-- The stance on which the robot stands after an iteration, if it is not a transition. -/
theorem Iteration.standing_next (h : Iteration p N T q n nan s s' mpc st x P cop X side k k' w) (hs : PlacedInv s k)
    (ht : s'.fsm.cur.type ≠ .tds) : standing s.model.state.stance_type s.model.state.next_stance_type = s'.fsm.cur.type := by
  obtain ⟨t1, t2, t3⟩ := h.types
  unfold standing
  rw [h.before.stance]
  rcases t3 ht with e | e
  · rw [if_pos e]
    obtain ⟨-, y, hy, hy'⟩ := hs.describes e
    rw [hy']
    rcases h.cases with ⟨-, -, hne⟩ | ⟨-, -, hg⟩
    · exact absurd e hne
    · unfold FSM.getNextStance at hy
      rw [hg] at hy
      rw [← Except.ok.inj hy]
  · rw [if_neg (by rw [← e]; exact ht), e]

/-- Feet on which the robot stands do not move. -/
theorem Iteration.kept (h : Iteration p N T q n nan s s' mpc st x P cop X side k k' w) (ht : s'.fsm.cur.type ≠ .tds) :
    (s'.fsm.cur.type ≠ .rss → s'.model.state.feet.left = s.model.state.feet.left) ∧
    (s'.fsm.cur.type ≠ .lss → s'.model.state.feet.right = s.model.state.feet.right) := by
  obtain ⟨-, -, -, -, -, r6⟩ := C53_result h.stepped.update
  obtain ⟨d1, -⟩ := h.stepped.given
  rcases support_of_ne h.types.1 ht with e | e | e
  · exact ⟨fun _ => by rw [r6.left (Or.inl (d1.trans e)), h.stepped.feet.left e], fun h' => absurd e h'⟩
  · exact ⟨fun h' => absurd e h', fun _ => by rw [r6.right (Or.inl (d1.trans e)), h.stepped.feet.right e]⟩
  · exact ⟨fun _ => by rw [r6.left (Or.inr (Or.inl (d1.trans e))), h.stepped.feet.stand (Or.inl e)],
      fun _ => by rw [r6.right (Or.inr (Or.inl (d1.trans e))), h.stepped.feet.stand (Or.inl e)]⟩

/-- The soles on which the robot stands are on the ground. -/
theorem standing_grounded (p : FootParameters ℝ) (s : ModelState) (hn : standing s.stance_type s.next_stance_type ≠ .undefined) :
    StandingPoints p (standing s.stance_type s.next_stance_type) s.feet ⊆ GroundedPoints p s := by
  unfold standing at *
  rintro q (⟨h1, h2⟩ | ⟨h1, h2⟩)
  · refine .inl ⟨fun e => h1 ?_, h2⟩
    rw [e]; rfl
  · refine .inr ⟨fun e => h1 ?_, h2⟩
    rw [e]; rfl

/-- The soles on which the robot stands are on the ground after the iteration. -/
theorem Iteration.grounded (hp : LoopParameters p N T) (h : Iteration p N T q n nan s s' mpc st x P cop X side k k' w)
    (hs : PlacedInv s k) : StandingPoints s.model.params (standing s.model.state.stance_type s.model.state.next_stance_type) s.model.state.feet
      ⊆ GroundedPoints s'.model.params s'.model.state := by
  obtain ⟨-, -, -, -, r5, -⟩ := C53_result h.stepped.update
  rw [r5]
  intro z hz
  by_cases ht : s'.fsm.cur.type = .tds
  · obtain ⟨a, b, hB⟩ := h.begins hp ht
    obtain ⟨l1, l2, l3⟩ := h.landed ht hB
    have hst : standing s.model.state.stance_type s.model.state.next_stance_type = s.fsm.cur.type := by
      unfold standing
      rw [h.before.stance, if_neg]
      rcases hB.support with e | e | e <;> rw [e] <;> decide
    rw [hst] at hz
    have hst' : s'.model.state.stance_type = .tds := h.after.stance.trans ht
    rcases hB.support with e | e | e <;> rw [e] at hz
    · rcases hz with ⟨-, hz⟩ | ⟨hz, -⟩
      · exact .inl ⟨by rw [hst']; decide, by rw [(l1 e).1]; exact hz⟩
      · exact absurd rfl hz
    · rcases hz with ⟨hz, -⟩ | ⟨-, hz⟩
      · exact absurd rfl hz
      · exact .inr ⟨by rw [hst']; decide, by rw [(l2 e).1]; exact hz⟩
    · rcases hz with ⟨-, hz⟩ | ⟨-, hz⟩
      · exact .inl ⟨by rw [hst']; decide, by rw [(l3 e).1]; exact hz⟩
      · exact .inr ⟨by rw [hst']; decide, by rw [(l3 e).2]; exact hz⟩
  · rw [h.standing_next hs ht] at hz
    obtain ⟨k1, k2⟩ := h.kept ht
    have hst' : s'.model.state.stance_type = s'.fsm.cur.type := h.after.stance
    rcases hz with ⟨h1, h2⟩ | ⟨h1, h2⟩
    · exact .inl ⟨by rw [hst']; exact h1, by rw [k1 h1]; exact h2⟩
    · exact .inr ⟨by rw [hst']; exact h1, by rw [k2 h1]; exact h2⟩

/-- Feet on both sides of their middle. -/
theorem beside_other {θ d : ℝ} {l r c : Fin 2 → ℝ} (h0 : 2 * c 0 = l 0 + r 0) (h1 : 2 * c 1 = l 1 + r 1) :
    IsTurned θ (beside d .left) ![l 0 - c 0, l 1 - c 1] ↔ IsTurned θ (beside d .right) ![r 0 - c 0, r 1 - c 1] := by
  simp only [IsTurned, beside, Matrix.cons_val_zero, Matrix.cons_val_one]
  constructor
  · rintro ⟨a, b⟩
    exact ⟨by linear_combination -h0 - a, by linear_combination -h1 - b⟩
  · rintro ⟨a, b⟩
    exact ⟨by linear_combination -h0 - a, by linear_combination -h1 - b⟩

/-- The invariant is kept. -/
theorem Iteration.feetInv (hp : LoopParameters p N T) (h : Iteration p N T q n nan s s' mpc st x P cop X side k k' w)
    (hs : PlacedInv s k) (hF : FeetInv p δ s side k) (hb : MeetsFirstBounds mpc.horizon x) :
    FeetInv p w.theta_increment s' side k' := by
  obtain ⟨-, -, -, -, r5, -⟩ := C53_result h.stepped.update
  by_cases ht : s'.fsm.cur.type = .tds
  · obtain ⟨a, b, hB⟩ := h.begins hp ht
    obtain ⟨l1, l2, l3⟩ := h.landed ht hB
    have hsup' := h.transition hs ht hb hB
    obtain ⟨n1, n2⟩ := h.next hs
    obtain ⟨t, hT⟩ := hB.turns
    obtain ⟨-, t2, -⟩ := h.types
    obtain ⟨rfl, hk, hz, hpar⟩ := t2 ht
    have hst' : standing s'.model.state.stance_type s'.model.state.next_stance_type = b.stance.type := by
      unfold standing
      rw [h.after.stance, if_pos ht, hB.nextType]
    have hprev : walkPrev p.firstStance side p.numSteps (k + 1) = s.fsm.cur.type := by
      have e : walkType p.firstStance side p.numSteps k = s.fsm.cur.type := h.before.machine.inv.type.symm
      show (if walkType p.firstStance side p.numSteps k = .tds then _ else _) = _
      rw [e, if_neg]
      rcases hB.support with e | e | e <;> rw [e] <;> decide
    rw [hst'] at n2
    refine ⟨fun e => ?_, fun _ e1 e2 => ?_, fun _ e1 e2 => ?_⟩
    · rw [hst'] at e
      obtain ⟨m0, m1⟩ := n2.2.2 e
      rcases hB.support with c | c | c
      · obtain ⟨f1, f2⟩ := l1 c
        have hθ : b.theta = s.model.state.feet.left.rpy 2 := by
          rw [(hT.singleToDouble (by rw [hB.type, c]; exact Or.inl rfl) e).1]
          exact hB.current.left (hB.type.trans c)
        have hr : s'.model.state.feet.right.rpy 2 = b.theta := by rw [f2.orientation]; rfl
        have hl : s'.model.state.feet.left.rpy 2 = b.theta := by rw [f1, hθ]
        have hd := f2.double e
        rw [← hsup', ← r5] at hd
        exact ⟨⟨b.theta, by rw [hl, hr]; ring, (beside_other (l := ![_, _]) (r := ![_, _]) m0 m1).2 hd, hd⟩, hl.trans hr.symm⟩
      · obtain ⟨f1, f2⟩ := l2 c
        have hθ : b.theta = s.model.state.feet.right.rpy 2 := by
          rw [(hT.singleToDouble (by rw [hB.type, c]; exact Or.inr rfl) e).1]
          exact hB.current.right (hB.type.trans c)
        have hr : s'.model.state.feet.left.rpy 2 = b.theta := by rw [f2.orientation]; rfl
        have hl : s'.model.state.feet.right.rpy 2 = b.theta := by rw [f1, hθ]
        have hd := f2.double e
        rw [← hsup', ← r5] at hd
        exact ⟨⟨b.theta, by rw [hl, hr]; ring, hd, (beside_other (l := ![_, _]) (r := ![_, _]) m0 m1).1 hd⟩, hr.trans hl.symm⟩
      · have := hB.walks c
        rw [e] at this
        rcases this with h | h <;> cases h
    · rw [hprev] at e1
      rw [hB.nextType] at e2
      obtain ⟨f1, f2⟩ := l1 e1
      rw [f2.orientation, f1]
      show b.theta = _
      rw [(hT.singleToSingle (by rw [hB.type, e1]; exact Or.inl rfl) (Or.inr e2)).1, hB.current.left (hB.type.trans e1)]
    · rw [hprev] at e1
      rw [hB.nextType] at e2
      obtain ⟨f1, f2⟩ := l2 e1
      rw [f2.orientation, f1]
      show b.theta = _
      rw [(hT.singleToSingle (by rw [hB.type, e1]; exact Or.inr rfl) (Or.inl e2)).1, hB.current.right (hB.type.trans e1)]
  · refine ⟨fun e => ?_, fun e => absurd e ht, fun e => absurd e ht⟩
    have hst' : standing s'.model.state.stance_type s'.model.state.next_stance_type = s'.fsm.cur.type := by
      unfold standing
      rw [h.after.stance, if_neg ht]
    rw [hst'] at e
    obtain ⟨k1, k2⟩ := h.kept ht
    obtain ⟨f1, f2⟩ := hF.double ((h.standing_next hs ht).trans e)
    have e1 := k1 (by rw [e]; decide)
    have e2 := k2 (by rw [e]; decide)
    unfold FeetBeside at f1 ⊢
    rw [e1, e2, r5, (h.next hs).1 ht]
    exact ⟨f1, f2⟩

/-- At the end of the interval the centre of pressure is above the soles on which the robot stands. -/
theorem Iteration.pressed (hp : LoopParameters p N T) (h : Iteration p N T q n nan s s' mpc st x P cop X side k k' w)
    (hs : PlacedInv s k) (hF : FeetInv p δ s side k) (hw : s.fsm.cur.type = .tds → w.theta_increment = δ) (hf : SaneFeet s.model.params) (hc : CopWithin mpc.horizon x) :
    cop 0 ∈ convexHull ℝ (StandingPoints s.model.params (standing s.model.state.stance_type s.model.state.next_stance_type)
      s.model.state.feet) := by
  obtain ⟨junkH, l, hH, hW, hS, hd, hN63⟩ := h.formed
  have hM := h.before.machine
  have hN := hp.horizon.1
  have hz0 : 0 < mpc.horizon.intervals.n := by rw [hW.size]; omega
  have hsb : stepsBy mpc.horizon 0 = 0 := stepsBy_zero fun k hk => (hW.range k hk).1
  have hX := h.predicted
  have hget : ∀ (i : ℕ) (z : WalkState), mpc.horizon.walk_states[i]? = some z → l[i]? = some z.stance := by
    intro i z hz
    rw [← hW.stances, List.getElem?_map, hz]
    rfl
  have hlen : l.length = mpc.horizon.walk_states.length := by rw [← hW.stances, List.length_map]
  obtain ⟨s1, hs1, hs1t⟩ := hW.supports 0 (by omega)
  rw [hW.first] at hs1
  have hlt := (List.getElem?_eq_some_iff.mp hs1).1
  obtain ⟨a, ha⟩ : ∃ a, mpc.horizon.walk_states[0]? = some a := ⟨_, List.getElem?_eq_getElem (by omega)⟩
  have la := hS _ _ (hget _ _ ha)
  have hat : a.stance.type = s.fsm.cur.type := by rw [la.1, hM.inv.type]; rfl
  have hfs : firstSupport l = if s.fsm.cur.type = .tds then 1 else 0 := by
    have e := hget _ _ ha
    cases l with
    | nil => cases e
    | cons z r =>
      cases e
      show (if a.stance.type = .tds then 1 else 0) = _
      rw [hat]
  obtain ⟨b, hb⟩ : ∃ b, mpc.horizon.walk_states[firstSupport l]? = some b := ⟨_, List.getElem?_eq_getElem (by omega)⟩
  have hbt : b.stance.type ≠ .tds := by
    have e := hget _ _ hb
    rw [hs1] at e
    cases e
    exact hs1t
  have hgb : mpc.horizon.getWalkState 0 = .ok b := by
    rw [Horizon.getWalkState_ok hz0, hW.first]
    exact hb
  have hpr := hX.pressure 0 b hz0 hgb
  rw [hsb, hX.footsteps.start] at hpr
  have hbd := (C74_bounds hM.reach hp.proper hM.inside hN63 hH hb hbt).cop
  have hcb := hc 0 b hz0 hgb
  rw [hbd] at hcb
  -- type and orientation of the support
  have key : b.stance.type = standing s.model.state.stance_type s.model.state.next_stance_type ∧
      (b.stance.type = .lss → b.theta = s.model.state.feet.left.rpy 2) ∧
      (b.stance.type = .rss → b.theta = s.model.state.feet.right.rpy 2) ∧
      (b.stance.type = .ds → b.theta = s.model.state.feet.left.rpy 2) := by
    obtain ⟨C1, C2⟩ := C74_current hM.reach hp.proper hM.inside hN63 hH ha
    by_cases ht : s.fsm.cur.type = .tds
    · rw [hfs, if_pos ht] at hb
      obtain ⟨b', hb', hL⟩ := C2 (hat.trans ht)
      rw [hb] at hb'
      cases hb'
      have lb := hS _ _ (hget _ _ hb)
      obtain ⟨-, nx, d2, d3⟩ := hs.describes ht
      obtain ⟨g', hg', hI', -⟩ := walk_step hM.ok hM.inv
      have hnx : nx.type = walkType p.firstStance side p.numSteps (k + 1) := by
        unfold FSM.getNextStance at d2
        rw [hg'] at d2
        rw [← Except.ok.inj d2]
        exact hI'.type
      have hty : b.stance.type = s.model.state.next_stance_type := by rw [lb.1, d3, hnx]
      have hstd : standing s.model.state.stance_type s.model.state.next_stance_type = s.model.state.next_stance_type := by
        unfold standing
        rw [h.before.stance, if_pos ht]
      have hpv : a.stance.prevNonTds = walkPrev p.firstStance side p.numSteps k := la.2.2
      have hk1 : k % 2 = 1 ∧ ¬ NoSteps p p.numSteps := by
        have hz : ¬ NoSteps p p.numSteps := fun e => by
          have hk := hM.pos.2 e
          rw [hM.inv.type, walkType_parity hM.ok (by omega) fun _ => hk] at ht
          omega
        rw [hM.inv.type, walkType_parity hM.ok hM.pos.1 fun e => absurd e hz] at ht
        exact ⟨ht, hz⟩
      obtain ⟨j, rfl⟩ : ∃ j, k = j + 1 := ⟨k - 1, by omega⟩
      have hjne : walkType p.firstStance side p.numSteps j ≠ .tds := by
        rw [ne_eq, walkType_parity hM.ok (by have := hM.pos.1; omega) fun e => absurd e hk1.2]
        omega
      have hpj : walkPrev p.firstStance side p.numSteps (j + 1) = walkType p.firstStance side p.numSteps j := by
        show (if walkType p.firstStance side p.numSteps j = .tds then _ else _) = _
        rw [if_neg hjne]
      have hLg := walkType_legal hM.ok
      have hsj := support_of_ne (hLg.defined j) hjne
      have halt : IsSingle (walkType p.firstStance side p.numSteps j) → IsSingle b.stance.type →
          b.stance.type = opposite (walkType p.firstStance side p.numSteps j) := by
        rw [lb.1]
        exact hLg.alternates j
      rw [hpv] at hL
      have tr := hF.toRight ht
      have tl := hF.toLeft ht
      rw [hpj] at hL tr tl
      refine ⟨hty.trans hstd.symm, fun e => ?_, fun e => ?_, fun e => ?_⟩
      · rcases hsj with c | c | c
        · have := halt (Or.inl c) (Or.inl e)
          rw [c, e] at this
          cases this
        · rw [(hL.rightToLeft c e).1, tl c (hty.symm.trans e), hw ht]
        · exact hL.doubleToLeft c e
      · rcases hsj with c | c | c
        · rw [(hL.leftToRight c e).1, tr c (hty.symm.trans e), hw ht]
        · have := halt (Or.inr c) (Or.inr e)
          rw [c, e] at this
          cases this
        · exact hL.doubleToRight c e
      · have hds := hF.double (by rw [hstd, ← hty, e])
        rcases hsj with c | c | c
        · exact (hL.leftToDouble c e).1
        · rw [(hL.rightToDouble c e).1, hds.2]
        · exfalso
          have hj0 : j = 0 := by
            by_contra hne
            have hle := hM.pos.1
            rw [walkType_even hk1.2 hne (by omega) (by omega)] at c
            exact (single_ne (sideAt_single (hM.ok.side (not_noSteps hk1.2)) (j / 2))).2.1 c
          subst hj0
          have hns : p.numSteps ≠ 0 := fun e' => hk1.2 ⟨by simpa [walkType] using c, e'⟩
          rw [lb.1, walkType_even hk1.2 (by omega) (by omega) (by omega)] at e
          exact (single_ne (sideAt_single (hM.ok.side (not_noSteps hk1.2)) _)).2.1 e
    · rw [hfs, if_neg ht] at hb
      rw [ha] at hb
      cases hb
      have hstd : standing s.model.state.stance_type s.model.state.next_stance_type = s.fsm.cur.type := by
        unfold standing
        rw [h.before.stance, if_neg ht]
      refine ⟨hat.trans hstd.symm, C1.left, C1.right, fun e => ?_⟩
      have h1 := C1.double e
      have h2 := (hF.double (by rw [hstd, ← hat, e])).2
      linarith
  obtain ⟨k0, k1, k2, k3⟩ := key
  obtain ⟨S1, S2, S3⟩ := hs.support
  rw [← k0] at S1 S2 S3 ⊢
  have hbs : IsSupport b.stance.type := by
    refine support_of_ne ?_ hbt
    rw [(hS _ _ (hget _ _ hb)).1]
    exact (walkType_legal hM.ok).defined _
  rcases hbs with e | e | e
  · rw [if_neg (by rw [e]; decide)] at hcb
    obtain ⟨b1, b2⟩ := copBounds_ss (i := 0) hcb
    refine subset_convexHull ℝ _ (.inl ⟨by rw [e]; decide, ?_⟩)
    exact sole_of (k1 e) (S1 e).1 (S1 e).2 hpr b1 b2
  · rw [if_neg (by rw [e]; decide)] at hcb
    obtain ⟨b1, b2⟩ := copBounds_ss (i := 0) hcb
    refine subset_convexHull ℝ _ (.inr ⟨by rw [e]; decide, ?_⟩)
    exact sole_of (k2 e) (S2 e).1 (S2 e).2 hpr b1 b2
  · rw [if_pos e] at hcb
    obtain ⟨b1, b2⟩ := copBounds_ds (i := 0) hcb
    obtain ⟨⟨θ, d1, d2, d3⟩, d4⟩ := hF.double (k0.symm.trans e)
    have hl : s.model.state.feet.left.rpy 2 = θ := by linarith
    rw [k3 e, hl] at hpr
    rw [e]
    exact rectangle_hull hf.default.1 hf.size.2 hl (d4.symm.trans hl) d2 d3 hpr b1 b2

end

end Humoto.Wpg
