import Verif.Lemmas.WpgFeasible2

/-!
# Walking pattern generator: orientations in consecutive horizons
-/

namespace Humoto.Wpg

open Spec Spec.Wpg

/-- Orientations of the feet during a transition: the foot which has landed is turned as the step requires. -/
structure TurnInv (p : FSMParams) (side : StanceType) (c : ℝ) (k : ℕ) (m : Model) : Prop where
  leftToRight : k % 2 = 1 → walkType p.firstStance side p.numSteps (k - 1) = .lss → walkType p.firstStance side p.numSteps (k + 1) = .rss →
    m.state.feet.right.rpy 2 = m.state.feet.left.rpy 2 + c
  rightToLeft : k % 2 = 1 → walkType p.firstStance side p.numSteps (k - 1) = .rss → walkType p.firstStance side p.numSteps (k + 1) = .lss →
    m.state.feet.left.rpy 2 = m.state.feet.right.rpy 2 + c
  leftToDouble : k % 2 = 1 → walkType p.firstStance side p.numSteps (k - 1) = .lss → walkType p.firstStance side p.numSteps (k + 1) = .ds →
    m.state.feet.right.rpy 2 = m.state.feet.left.rpy 2
  rightToDouble : k % 2 = 1 → walkType p.firstStance side p.numSteps (k - 1) = .rss → walkType p.firstStance side p.numSteps (k + 1) = .ds →
    m.state.feet.left.rpy 2 = m.state.feet.right.rpy 2

/-- The walk states describe the same support. -/
structure Agree (a a' : WalkState) : Prop where
  type : a'.stance.type = a.stance.type
  theta : a'.theta = a.theta
  feet : a'.fd_bounds = a.fd_bounds
  cop : a'.cop_bounds = a.cop_bounds

theorem footBounds_congr {P : FootParameters ℝ} {s t : Stance} (h1 : s.type = t.type) (h2 : s.subtype = t.subtype)
    (h3 : s.prevNonTds = t.prevNonTds) : footBounds P s = footBounds P t := by
  unfold footBounds
  rw [h1, h2, h3]

theorem copBounds_congr {P : FootParameters ℝ} {s t : Stance} (h1 : s.type = t.type) : copBounds P s = copBounds P t := by
  unfold copBounds
  rw [h1]

section
variable {p : FSMParams} {N T : ℕ} {q : MPCParameters} {n : ℕ} {nan : ℝ} {s s' : LoopState} {mpc : Mpc} {st : ModelState}
  {x : ℕ → ℝ} {P cop : ℕ → Fin 2 → ℝ} {X : ℕ → Fin 6 → ℝ} {side : StanceType} {k k' : ℕ} {w : WalkParameters}

/-- The feet in a support after the iteration. -/
theorem Iteration.feet (h : Iteration p N T q n nan s s' mpc st x P cop X side k k' w) :
    (s'.fsm.cur.type = .lss → s'.model.state.feet.left = s.model.state.feet.left) ∧
    (s'.fsm.cur.type = .rss → s'.model.state.feet.right = s.model.state.feet.right) ∧
    (s'.fsm.cur.type = .ds → s'.model.state.feet.left = s.model.state.feet.left ∧ s'.model.state.feet.right = s.model.state.feet.right) := by
  obtain ⟨-, -, -, -, -, r6⟩ := C53_result h.stepped.update
  obtain ⟨d1, -⟩ := h.stepped.given
  refine ⟨fun e => ?_, fun e => ?_, fun e => ⟨?_, ?_⟩⟩
  · rw [r6.left (Or.inl (d1.trans e)), h.stepped.feet.left e]
  · rw [r6.right (Or.inl (d1.trans e)), h.stepped.feet.right e]
  · rw [r6.left (Or.inr (Or.inl (d1.trans e))), h.stepped.feet.stand (Or.inl e)]
  · rw [r6.right (Or.inr (Or.inl (d1.trans e))), h.stepped.feet.stand (Or.inl e)]

theorem Iteration.parity (h : Iteration p N T q n nan s s' mpc st x P cop X side k k' w) :
    (k' = k ∧ k % 2 = 0 ∧ s'.fsm.cur = s.fsm.cur) ∨ (k' = k + 1 ∧ ¬ NoSteps p p.numSteps ∧ k < 2 * p.numSteps + 2) := by
  have hM := h.before.machine
  have hM' := h.after.machine
  rcases h.cases with ⟨rfl, e, hne⟩ | ⟨rfl, -, -⟩
  · refine .inl ⟨rfl, ?_, by rw [e]⟩
    rw [hM.inv.type, ne_eq, walkType_parity hM.ok hM.pos.1 hM.pos.2] at hne
    omega
  · exact .inr ⟨rfl, fun e => by have := hM'.pos.2 e; omega, by have := hM'.pos.1; omega⟩

/-- The orientations of the feet after an iteration. -/
theorem Iteration.turned (hp : LoopParameters p N T) (h : Iteration p N T q n nan s s' mpc st x P cop X side k k' w) {l : List Stance}
    (hP : Planned p N T side n k s.model w mpc.horizon l) : TurnInv p side w.theta_increment k' s'.model := by
  have hM := h.before.machine
  have hM' := h.after.machine
  by_cases hodd : k' % 2 = 1
  swap
  · exact ⟨fun e => absurd e hodd, fun e => absurd e hodd, fun e => absurd e hodd, fun e => absurd e hodd⟩
  rcases h.parity with ⟨rfl, e, -⟩ | ⟨rfl, hz, hk⟩
  · omega
  have ht : s'.fsm.cur.type = .tds := by rw [hM'.inv.type, walkType_parity hM'.ok hM'.pos.1 hM'.pos.2]; exact hodd
  obtain ⟨a, b, hB⟩ := h.begins hp ht
  obtain ⟨j, hj, hb⟩ := hB.first
  obtain ⟨hj1, hj2⟩ := hP.follows.range j (List.mem_of_getElem? hj)
  have hsn := stepsBy_next hP.follows.sorted (j - 1)
  rw [show j - 1 + 1 = j by omega, if_pos (List.mem_of_getElem? hj),
    stepsBy_before hP.follows.sorted (fun k hk => (hP.follows.range k hk).1) hj] at hsn
  rw [hP.state hj2, hsn] at hb
  have hbt := (hP.type hb).1
  rw [show k + (k % 2 + 2 * (0 + 1)) = k + 1 + 1 by omega] at hbt
  have hcur := hM.inv.type
  obtain ⟨l1, l2, -⟩ := h.landed ht hB
  obtain ⟨t, hT⟩ := hB.turns
  have hat := hB.type
  refine ⟨fun _ e1 e2 => ?_, fun _ e1 e2 => ?_, fun _ e1 e2 => ?_, fun _ e1 e2 => ?_⟩ <;> rw [Nat.add_sub_cancel] at e1 <;> rw [e1] at hcur <;> rw [e2] at hbt <;> rw [hcur] at hat
  · obtain ⟨f1, f2⟩ := l1 hcur
    rw [f2.orientation, f1, ← hB.current.left hat]
    exact (hT.singleToSingle (by rw [hat]; exact Or.inl rfl) (by rw [hbt]; exact Or.inr rfl)).1
  · obtain ⟨f1, f2⟩ := l2 hcur
    rw [f2.orientation, f1, ← hB.current.right hat]
    exact (hT.singleToSingle (by rw [hat]; exact Or.inr rfl) (by rw [hbt]; exact Or.inl rfl)).1
  · obtain ⟨f1, f2⟩ := l1 hcur
    rw [f2.orientation, f1, ← hB.current.left hat]
    exact (hT.singleToDouble (by rw [hat]; exact Or.inl rfl) hbt).1
  · obtain ⟨f1, f2⟩ := l2 hcur
    rw [f2.orientation, f1, ← hB.current.right hat]
    exact (hT.singleToDouble (by rw [hat]; exact Or.inr rfl) hbt).1

/-- The first support of the next horizon. -/
theorem Iteration.base (hp : LoopParameters p N T) (h : Iteration p N T q n nan s s' mpc st x P cop X side k k' w) {l l' : List Stance}
    (hP : Planned p N T side n k s.model w mpc.horizon l) {w' : WalkParameters} {H' : Horizon}
    (hP' : Planned p N T side (n + 1) k' s'.model w' H' l') (hw : w'.theta_increment = w.theta_increment)
    (hI : TurnInv p side w.theta_increment k s.model) {a a' : WalkState} (ha : mpc.horizon.walk_states[k % 2 + 2 * Planned.made k k']? = some a)
    (ha' : H'.walk_states[k' % 2]? = some a') : a'.theta = a.theta := by
  have hM := h.before.machine
  have hM' := h.after.machine
  have hL := walkType_legal hM.ok
  have hat := (hP.type ha).1
  have hat' := (hP'.type ha').1
  obtain ⟨F1, F2, F3⟩ := h.feet
  have hcur := hM.inv.type
  have hcur' := hM'.inv.type
  rcases h.parity with ⟨rfl, hk, hc⟩ | ⟨rfl, hz, hk⟩
  · -- the same support
    have hm : Planned.made k' k' = 0 := by unfold Planned.made; omega
    rw [hm, hk] at ha hat
    rw [hk] at ha' hat'
    have ct := (hP.current a ha).1
    have ct' := (hP'.current a' ha').1
    have e1 : a.stance.type = s'.fsm.cur.type := by rw [hat, hcur']; rfl
    have e2 : a'.stance.type = s'.fsm.cur.type := by rw [hat', hcur']; rfl
    cases e : s'.fsm.cur.type with
    | undefined => rw [e] at hcur'; exact absurd hcur'.symm (hL.defined _)
    | tds =>
      rw [e] at hcur'
      have := (walkType_parity hM'.ok hM'.pos.1 hM'.pos.2).1 hcur'.symm
      omega
    | lss => rw [ct.left (e1.trans e), ct'.left (e2.trans e), F1 e]
    | rss => rw [ct.right (e1.trans e), ct'.right (e2.trans e), F2 e]
    | ds =>
      have h1 := ct.double (e1.trans e)
      have h2 := ct'.double (e2.trans e)
      obtain ⟨f1, f2⟩ := F3 e
      rw [f1, f2] at h2
      linarith
  · by_cases hodd : k % 2 = 1
    · -- a transition has ended
      have hm : Planned.made k (k + 1) = 0 := by unfold Planned.made; omega
      have hk' : (k + 1) % 2 = 0 := by omega
      rw [hm, hodd] at ha hat
      rw [hk'] at ha' hat'
      obtain ⟨t, ht⟩ : ∃ t, mpc.horizon.walk_states[0]? = some t :=
        ⟨_, List.getElem?_eq_getElem (by have := (List.getElem?_eq_some_iff.1 ha).1; omega)⟩
      have htt : t.stance.type = .tds := (hP.type ht).2.2 (by omega)
      obtain ⟨b, hb, hl⟩ := (hP.current t ht).2 htt
      cases ha.symm.trans hb
      have hprev : t.stance.prevNonTds = walkType p.firstStance side p.numSteps (k - 1) := by
        rw [(hP.shows' 0 _ (hP.stance ht)).2.2]
        obtain ⟨k0, rfl⟩ : ∃ k0, k = k0 + 1 := ⟨k - 1, by omega⟩
        show (if walkType p.firstStance side p.numSteps k0 = .tds then _ else _) = _
        rw [if_neg]
        · rfl
        · rw [walkType_parity hM.ok (by omega) fun e => absurd e hz]
          omega
      have ct' := (hP'.current a' ha').1
      have e1 : a.stance.type = s'.fsm.cur.type := hat.trans hcur'.symm
      have e2 : a'.stance.type = s'.fsm.cur.type := hat'.trans hcur'.symm
      -- the support before the transition
      have hbefore : walkType p.firstStance side p.numSteps (k - 1) = .ds ∨ IsSingle (walkType p.firstStance side p.numSteps (k - 1)) := by
        by_cases h0 : k - 1 = 0
        · rw [h0]
          exact hM.ok.first
        · right
          rw [walkType_even hz h0 (by omega) (by omega)]
          exact sideAt_single (hM.ok.side (not_noSteps hz)) _
      have hkk : k - 1 + 2 = k + 1 := by omega
      have halt := hL.alternates (k - 1)
      rw [hkk] at halt
      cases e : s'.fsm.cur.type with
      | undefined => rw [e] at hcur'; exact absurd hcur'.symm (hL.defined _)
      | tds =>
        rw [e] at hcur'
        have := (walkType_parity hM'.ok hM'.pos.1 hM'.pos.2).1 hcur'.symm
        omega
      | lss =>
        rw [ct'.left (e2.trans e), F1 e]
        rw [e] at hcur'
        rcases hbefore with h1 | h1 | h1
        · exact (hl.doubleToLeft (hprev.trans h1) (e1.trans e)).symm
        · have := halt (by rw [h1]; exact Or.inl rfl) (by rw [← hcur']; exact Or.inl rfl)
          rw [h1, ← hcur'] at this
          cases this
        · rw [(hl.rightToLeft (hprev.trans h1) (e1.trans e)).1]
          exact hI.rightToLeft hodd h1 hcur'.symm
      | rss =>
        rw [ct'.right (e2.trans e), F2 e]
        rw [e] at hcur'
        rcases hbefore with h1 | h1 | h1
        · exact (hl.doubleToRight (hprev.trans h1) (e1.trans e)).symm
        · rw [(hl.leftToRight (hprev.trans h1) (e1.trans e)).1]
          exact hI.leftToRight hodd h1 hcur'.symm
        · have := halt (by rw [h1]; exact Or.inr rfl) (by rw [← hcur']; exact Or.inr rfl)
          rw [h1, ← hcur'] at this
          cases this
      | ds =>
        have h2 := ct'.double (e2.trans e)
        obtain ⟨f1, f2⟩ := F3 e
        rw [f1, f2] at h2
        rw [e] at hcur'
        rcases hbefore with h1 | h1 | h1
        · exfalso
          have h0 : k - 1 = 0 := by
            by_contra h0
            rw [walkType_even hz h0 (by omega) (by omega)] at h1
            exact (single_ne (sideAt_single (hM.ok.side (not_noSteps hz)) _)).2.1 h1
          have hns : p.numSteps ≠ 0 := fun e' => hz ⟨by rw [h0] at h1; simpa [walkType] using h1, e'⟩
          rw [walkType_even hz (by omega) (by omega) (by omega)] at hcur'
          exact (single_ne (sideAt_single (hM.ok.side (not_noSteps hz)) _)).2.1 hcur'.symm
        · have := hI.leftToDouble hodd h1 hcur'.symm
          rw [(hl.leftToDouble (hprev.trans h1) (e1.trans e)).1]
          linarith
        · have := hI.rightToDouble hodd h1 hcur'.symm
          rw [(hl.rightToDouble (hprev.trans h1) (e1.trans e)).1]
          linarith
    · -- a transition has begun
      have hk2 : k % 2 = 0 := by omega
      have hm : Planned.made k (k + 1) = 1 := by unfold Planned.made; omega
      have hk' : (k + 1) % 2 = 1 := by omega
      rw [hm, hk2] at ha hat
      rw [hk'] at ha' hat'
      have ht : s'.fsm.cur.type = .tds := by rw [hcur', walkType_parity hM'.ok hM'.pos.1 hM'.pos.2]; exact hk'
      obtain ⟨a1, b1, hB⟩ := h.begins hp ht
      obtain ⟨l1, l2, l3⟩ := h.landed ht hB
      have hlen := (List.getElem?_eq_some_iff.1 ha).1
      obtain ⟨a0, ha0⟩ : ∃ t, mpc.horizon.walk_states[0]? = some t := ⟨_, List.getElem?_eq_getElem (by omega)⟩
      obtain ⟨t, hta⟩ : ∃ t, mpc.horizon.walk_states[0 + 1]? = some t := ⟨_, List.getElem?_eq_getElem (by omega)⟩
      have e0 : a0.stance.type = s.fsm.cur.type := by rw [(hP.type ha0).1, hcur]; rfl
      have hT := hP.turns 0 a0 t a ha0 hta ha (by rw [ne_eq, (hP.type ha0).2]; omega)
      have c0 := (hP.current a0 ha0).1
      obtain ⟨t', ht'⟩ : ∃ t, H'.walk_states[0]? = some t :=
        ⟨_, List.getElem?_eq_getElem (by have := (List.getElem?_eq_some_iff.1 ha').1; omega)⟩
      obtain ⟨b, hb, hl⟩ := (hP'.current t' ht').2 ((hP'.type ht').2.2 (by omega))
      cases ha'.symm.trans hb
      have hprev : t'.stance.prevNonTds = s.fsm.cur.type := by
        rw [(hP'.shows' 0 _ (hP'.stance ht')).2.2, hcur]
        show (if walkType p.firstStance side p.numSteps k = .tds then _ else _) = _
        rw [if_neg]
        rw [walkType_parity hM.ok (by omega) fun e => absurd e hz]
        omega
      have e12 : a'.stance.type = a.stance.type := by rw [hat, hat']
      have hnext : IsSingle a.stance.type ∨ a.stance.type = .ds := by
        rw [hat]
        refine hL.afterTransition (k + 1) ?_
        rw [← hcur']; exact ht
      have halt := hL.alternates k
      rcases hB.support with e | e | e
      · obtain ⟨f1, -⟩ := l1 e
        rcases hnext with hn | hn
        · have h1 : a.stance.type = .rss := by
            have := halt (by rw [← hcur, e]; exact Or.inl rfl) (by rw [hat] at hn; exact hn)
            rw [← hcur, e] at this
            rw [hat]
            exact this
          rw [(hT.singleToSingle (by rw [e0, e]; exact Or.inl rfl) hn).1, c0.left (e0.trans e),
            (hl.leftToRight (hprev.trans e) (e12.trans h1)).1, f1, hw]
        · rw [(hT.singleToDouble (by rw [e0, e]; exact Or.inl rfl) hn).1, c0.left (e0.trans e),
            (hl.leftToDouble (hprev.trans e) (e12.trans hn)).1, f1]
      · obtain ⟨f1, -⟩ := l2 e
        rcases hnext with hn | hn
        · have h1 : a.stance.type = .lss := by
            have := halt (by rw [← hcur, e]; exact Or.inr rfl) (by rw [hat] at hn; exact hn)
            rw [← hcur, e] at this
            rw [hat]
            exact this
          rw [(hT.singleToSingle (by rw [e0, e]; exact Or.inr rfl) hn).1, c0.right (e0.trans e),
            (hl.rightToLeft (hprev.trans e) (e12.trans h1)).1, f1, hw]
        · rw [(hT.singleToDouble (by rw [e0, e]; exact Or.inr rfl) hn).1, c0.right (e0.trans e),
            (hl.rightToDouble (hprev.trans e) (e12.trans hn)).1, f1]
      · obtain ⟨f1, f2⟩ := l3 e
        have hn : IsSingle a.stance.type := by
          rcases hnext with hn | hn
          · exact hn
          · exfalso
            rw [hcur] at e
            have hk0 : k = 0 := by
              by_contra hne
              rw [walkType_even hz hne hk2 hk] at e
              exact (single_ne (sideAt_single (hM.ok.side (not_noSteps hz)) (k / 2))).2.1 e
            subst hk0
            have hns : p.numSteps ≠ 0 := fun e' => hz ⟨by simpa [walkType] using e, e'⟩
            rw [hat, walkType_even hz (by omega) (by omega) (by omega)] at hn
            exact (single_ne (sideAt_single (hM.ok.side (not_noSteps hz)) _)).2.1 hn
        rcases hn with hn | hn
        · rw [(hT.doubleToLeft (e0.trans e) hn).1, hl.doubleToLeft (hprev.trans e) (e12.trans hn), f1]
        · rw [(hT.doubleToRight (e0.trans e) hn).1, hl.doubleToRight (hprev.trans e) (e12.trans hn), f2]

/-- Supports of consecutive horizons. -/
theorem Iteration.agree (hp : LoopParameters p N T) (h : Iteration p N T q n nan s s' mpc st x P cop X side k k' w) {l l' : List Stance}
    (hP : Planned p N T side n k s.model w mpc.horizon l) {w' : WalkParameters} {H' : Horizon}
    (hP' : Planned p N T side (n + 1) k' s'.model w' H' l') (hw : w'.theta_increment = w.theta_increment)
    (hI : TurnInv p side w.theta_increment k s.model) (j : ℕ) {a a' : WalkState}
    (ha : mpc.horizon.walk_states[k % 2 + 2 * (j + Planned.made k k')]? = some a)
    (ha' : H'.walk_states[k' % 2 + 2 * j]? = some a') : Agree a a' := by
  have hM := h.before.machine
  have hM' := h.after.machine
  have hL := walkType_legal hM.ok
  have hk : k' = k ∨ k' = k + 1 := by rcases h.parity with ⟨e, -⟩ | ⟨e, -⟩ <;> omega
  have habs : ∀ j, k + (k % 2 + 2 * (j + Planned.made k k')) = k' + (k' % 2 + 2 * j) := by
    intro j
    unfold Planned.made
    rcases h.parity with ⟨rfl, -⟩ | ⟨rfl, -⟩ <;> omega
  have hpar : s'.model.params = s.model.params := (C53_result h.stepped.update).2.2.2.2.1
  have hθ : ∀ (j : ℕ) (a a' : WalkState), mpc.horizon.walk_states[k % 2 + 2 * (j + Planned.made k k')]? = some a →
      H'.walk_states[k' % 2 + 2 * j]? = some a' → a'.theta = a.theta := by
    intro j
    induction j with
    | zero =>
      intro a a' ha ha'
      rw [Nat.zero_add] at ha
      exact h.base hp hP hP' hw hI ha ha'
    | succ j ih =>
      intro b b' hb hb'
      rw [show k % 2 + 2 * (j + 1 + Planned.made k k') = k % 2 + 2 * (j + Planned.made k k') + 2 by omega] at hb
      rw [show k' % 2 + 2 * (j + 1) = k' % 2 + 2 * j + 2 by omega] at hb'
      have hlen := (List.getElem?_eq_some_iff.1 hb).1
      have hlen' := (List.getElem?_eq_some_iff.1 hb').1
      obtain ⟨a, ha⟩ : ∃ a, mpc.horizon.walk_states[k % 2 + 2 * (j + Planned.made k k')]? = some a := ⟨_, List.getElem?_eq_getElem (by omega)⟩
      obtain ⟨t, ht⟩ : ∃ a, mpc.horizon.walk_states[k % 2 + 2 * (j + Planned.made k k') + 1]? = some a := ⟨_, List.getElem?_eq_getElem (by omega)⟩
      obtain ⟨a', ha'⟩ : ∃ a, H'.walk_states[k' % 2 + 2 * j]? = some a := ⟨_, List.getElem?_eq_getElem (by omega)⟩
      obtain ⟨t', ht'⟩ : ∃ a, H'.walk_states[k' % 2 + 2 * j + 1]? = some a := ⟨_, List.getElem?_eq_getElem (by omega)⟩
      have hab := ih a a' ha ha'
      have e := habs j
      have eT := hP.turns _ a t b ha ht hb (by rw [ne_eq, (hP.type ha).2]; omega)
      have eT' := hP'.turns _ a' t' b' ha' ht' hb' (by rw [ne_eq, (hP'.type ha').2]; omega)
      have ta : a'.stance.type = a.stance.type := by rw [(hP.type ha).1, (hP'.type ha').1, e]
      have tb : b'.stance.type = b.stance.type := by
        rw [(hP.type hb).1, (hP'.type hb').1]
        congr 1
        omega
      obtain ⟨hpos, hz⟩ := hP'.positions _ (List.getElem?_eq_some_iff.1 (hP'.stance hb')).1
      have hz : ¬ NoSteps p p.numSteps := fun e => by have := hz e; omega
      have hside := hM.ok.side (not_noSteps hz)
      have hbt : IsSingle b'.stance.type ∨ b'.stance.type = .ds := by
        rw [(hP'.type hb').1]
        by_cases hlast : k' + (k' % 2 + 2 * j + 2) < 2 * p.numSteps + 2
        · left
          rw [walkType_even hz (by omega) (by omega) hlast]
          exact sideAt_single hside _
        · right
          exact walkType_end (by omega)
      have hat : IsSingle a'.stance.type ∨ (a'.stance.type = .ds ∧ k' = 0) := by
        rw [(hP'.type ha').1]
        by_cases h0 : k' + (k' % 2 + 2 * j) = 0
        · have hk0 : k' = 0 := by omega
          rw [h0]
          rcases hM.ok.first with e | e
          · exact .inr ⟨e, hk0⟩
          · exact .inl e
        · left
          rw [walkType_even hz h0 (by omega) (by omega)]
          exact sideAt_single hside _
      rcases hat with h1 | ⟨h1, h0⟩
      · rcases hbt with h2 | h2
        · rw [(eT.singleToSingle (ta ▸ h1) (tb ▸ h2)).1, (eT'.singleToSingle h1 h2).1, hab, hw]
        · rw [(eT.singleToDouble (ta ▸ h1) (tb ▸ h2)).1, (eT'.singleToDouble h1 h2).1, hab]
      · -- the initial double support
        rcases h.parity with ⟨hkk, -, hc⟩ | ⟨e, -⟩
        swap
        · omega
        have hj : j = 0 := by
          by_contra hj
          rw [(hP'.type ha').1, walkType_even hz (by omega) (by omega) (by omega)] at h1
          exact (single_ne (sideAt_single hside _)).2.1 h1
        have hds : s'.fsm.cur.type = .ds := by
          rw [hM'.inv.type, ← h1, (hP'.type ha').1, hj, h0]
        obtain ⟨f1, f2⟩ := h.feet.2.2 hds
        have hns : p.numSteps ≠ 0 := fun e' => hz ⟨by
          rw [hM'.inv.type, h0] at hds
          simpa [walkType] using hds, e'⟩
        have hb1 : IsSingle b'.stance.type := by
          rw [(hP'.type hb').1, walkType_even hz (by omega) (by omega) (by omega)]
          exact sideAt_single hside _
        rcases hb1 with h2 | h2
        · rw [(eT.doubleToLeft (ta ▸ h1) (tb ▸ h2)).1, (eT'.doubleToLeft h1 h2).1, f1]
        · rw [(eT.doubleToRight (ta ▸ h1) (tb ▸ h2)).1, (eT'.doubleToRight h1 h2).1, f2]
  have e := habs j
  obtain ⟨t1, t2, t3⟩ := hP.shows' _ _ (hP.stance ha)
  obtain ⟨t1', t2', t3'⟩ := hP'.shows' _ _ (hP'.stance ha')
  have ht : a'.stance.type = a.stance.type := by rw [t1, t1', e]
  have hn : a.stance.type ≠ .tds := by rw [ne_eq, (hP.type ha).2]; omega
  obtain ⟨b1, b2⟩ := hP.bounds _ a ha hn
  obtain ⟨b1', b2'⟩ := hP'.bounds _ a' ha' (by rw [ht]; exact hn)
  refine ⟨ht, hθ j a a' ha ha', ?_, ?_⟩
  · rw [hpar, footBounds_congr ht (by rw [t2, t2', e]) (by rw [t3, t3', e]), b1] at b1'
    exact (Except.ok.inj b1').symm
  · rw [b2, b2', hpar, copBounds_congr ht]

end

end Humoto.Wpg
