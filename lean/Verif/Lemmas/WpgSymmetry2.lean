import Verif.Lemmas.WpgSymmetry
import Verif.Props.WpgHorizon

/-!
# Symmetries of the schedule and of the preview horizon
-/

namespace Humoto.Wpg

open Spec Spec.Wpg

/-! ## The machine -/

section
variable (g : WalkMap)

theorem enter_moved (f : FSM) (t : StanceType) : (g.machine f).enter (g.stanceType t) = (f.enter t).map g.machine := by
  unfold FSM.enter FSMParams.getDurationMs WalkMap.machine WalkMap.stance WalkMap.schedule WalkMap.stanceType
  cases g.mirror <;> cases t <;> rfl

theorem stanceType_fixed {t : StanceType} (h : t ≠ .lss) (h' : t ≠ .rss) : g.stanceType t = t := by
  unfold WalkMap.stanceType
  cases t <;> simp_all

theorem shiftStance_moved (f : FSM) : (g.machine f).shiftStance = f.shiftStance.map g.machine := by
  obtain ⟨td, left, time, ⟨ty, pd, pt, st, du, tl⟩, p⟩ := f
  have e1 := fun f => enter_moved g f .tds
  have e2 := fun f => enter_moved g f .ds
  have e3 := fun f => enter_moved g f .lss
  have e4 := fun f => enter_moved g f .rss
  unfold WalkMap.machine WalkMap.stance WalkMap.stanceType at e1 e2 e3 e4
  unfold FSM.shiftStance FSM.enterSingle WalkMap.machine WalkMap.stance WalkMap.stanceType
  cases hg : g.mirror
  · rw [hg] at e1 e2 e3 e4
    simp only [Bool.false_eq_true, if_false] at *
    cases ty
    · rfl
    · simp only
      split <;> [rw [← e2]; rw [← e1]] <;> rfl
    · rw [← e1]
    · rw [← e1]
    · simp only
      split
      · rw [← e2]
      · cases pd
        · rfl
        · rfl
        · simp only [if_true, reduceCtorEq, if_false]; rw [← e4]
        · simp only [if_true, reduceCtorEq, if_false]; rw [← e3]
        · rfl
  · rw [hg] at e1 e2 e3 e4
    simp only [if_true] at *
    cases ty
    · rfl
    · simp only
      split <;> [rw [← e2]; rw [← e1]] <;> rfl
    · rw [← e1]
    · rw [← e1]
    · simp only
      split
      · rw [← e2]
      · cases pd
        · rfl
        · rfl
        · simp only [if_true, reduceCtorEq, if_false]; rw [← e4]
        · simp only [if_true, reduceCtorEq, if_false]; rw [← e3]
        · rfl

theorem construct_moved (p : FSMParams) : FSM.construct (g.schedule p) = (FSM.construct p).map g.machine := by
  obtain ⟨a, b, c, d1, d2, d3, d4, n⟩ := p
  unfold FSM.construct FSM.finalize FSM.beforeFirst FSM.beforeDS WalkMap.machine WalkMap.stance WalkMap.schedule WalkMap.stanceType
  by_cases hn : n = 1
  · subst hn; rfl
  · have hn : (assertThat (n ≠ 1) : Res Unit) = .ok () := assertThat_true hn
    simp only [hn, ok_bind]
    cases g.mirror <;> cases a <;> try rfl
    all_goals cases b <;> rfl

theorem shiftTime_moved : ∀ (fuel : ℕ) (f : FSM) (t : ℕ), FSM.shiftTime fuel (g.machine f) t = (FSM.shiftTime fuel f t).map (·.map g.machine) := by
  intro fuel
  induction fuel with
  | zero => intro f t; cases t <;> rfl
  | succ n ih =>
    intro f t
    cases t with
    | zero => rfl
    | succ t =>
      unfold FSM.shiftTime
      have e : (g.machine f).time = f.time ∧ (g.machine f).cur.duration = f.cur.duration := ⟨rfl, rfl⟩
      rw [e.1, e.2]
      split
      · exact ih { f with tdsStarted := false, time := f.time + (t + 1) } 0
      · have e2 := shiftStance_moved g { f with tdsStarted := false }
        have e3 : FSM.shiftStance { tdsStarted := false, left := (g.machine f).left, time := f.time, cur := (g.machine f).cur, params := (g.machine f).params }
          = (FSM.shiftStance { f with tdsStarted := false }).map g.machine := e2
        rw [e3]
        cases hs : FSM.shiftStance { f with tdsStarted := false } with
        | error e => rfl
        | ok f' => exact ih f' _

theorem returns_moved {f f' : FSM} {t : ℕ} (h : Returns f t (.ok f')) : Returns (g.machine f) t (.ok (g.machine f')) := by
  obtain ⟨fuel, h⟩ := h
  refine ⟨fuel, ?_⟩
  rw [shiftTime_moved, h]
  rfl

theorem next_moved {f : FSM} {s : Stance} (h : f.getNextStance = .ok s) : (g.machine f).getNextStance = .ok (g.stance s) := by
  unfold FSM.getNextStance at *
  rw [shiftStance_moved]
  cases hs : f.shiftStance with
  | error e => rw [hs] at h; cases h
  | ok f' => rw [hs] at h; cases h; rfl

theorem previewLoop_moved : ∀ (fuel : ℕ) (f : FSM) (d : ℕ) (acc : List Stance), FSM.previewLoop fuel (g.machine f) d (acc.map g.stance) =
    (FSM.previewLoop fuel f d acc).map (·.map fun r => (r.1.map g.stance, g.machine r.2.1, r.2.2)) := by
  intro fuel
  induction fuel with
  | zero => intro f d acc; cases d <;> rfl
  | succ n ih =>
    intro f d acc
    cases d with
    | zero => rfl
    | succ d =>
      unfold FSM.previewLoop
      have e : (g.machine f).time = f.time ∧ (g.machine f).cur.duration = f.cur.duration ∧ (g.machine f).left = f.left := ⟨rfl, rfl, rfl⟩
      have et : (g.machine f).cur.type = .ds ↔ f.cur.type = .ds := g.stanceType_ds _
      have ea : acc.map g.stance ++ [(g.machine f).previewEntry (d + 1)] = (acc ++ [f.previewEntry (d + 1)]).map g.stance := by
        rw [List.map_append]; rfl
      rw [e.1, e.2.1, e.2.2, ea]
      simp only [et]
      split
      · exact ih f 0 _
      · split
        · rfl
        · rw [shiftStance_moved]
          cases hs : f.shiftStance with
          | error e => rfl
          | ok f' => exact ih f' _ _

theorem preview_moved {fuel : ℕ} {f : FSM} {d : ℕ} {l : List Stance} (h : FSM.previewStances fuel f d = some (.ok l)) :
    FSM.previewStances fuel (g.machine f) d = some (.ok (l.map g.stance)) := by
  unfold FSM.previewStances at *
  have e := previewLoop_moved g fuel f d []
  rw [List.map_nil] at e
  rw [e]
  cases hr : FSM.previewLoop fuel f d [] with
  | none => rw [hr] at h; cases h
  | some r =>
    rw [hr] at h
    rcases r with e | ⟨l', f', b⟩
    · cases h
    · have h := Option.some.inj h
      show some (FSM.previewFinish (l'.map g.stance, g.machine f', b)) = some (.ok (l.map g.stance))
      congr 1
      unfold FSM.previewFinish at *
      cases b
      · simp only at h ⊢
        rw [List.getLast?_map]
        cases hl : l'.getLast? with
        | none => rw [hl] at h; cases h
        | some s =>
          rw [hl] at h
          simp only [Option.map_some] at h ⊢
          have et : (g.stance s).type = .tds ↔ s.type = .tds := g.stanceType_tds _
          simp only [et]
          split at h
          · rename_i hs
            rw [if_pos hs]
            have el : (g.machine f').leaveTDS = f'.leaveTDS.map g.machine := by
              unfold FSM.leaveTDS
              have et : (g.machine f').cur.type = .tds ↔ f'.cur.type = .tds := g.stanceType_tds _
              simp only [et]
              split
              · exact shiftStance_moved g f'
              · rfl
            rw [el]
            cases hl : f'.leaveTDS with
            | error e => rw [hl] at h; cases h
            | ok f'' =>
              rw [hl] at h
              cases h
              rw [List.map_append]
              rfl
          · rename_i hs
            rw [if_neg hs]
            cases h
            rfl
      · cases h
        rfl

end

/-! ## Bounds -/

theorem footBounds_moved (g : WalkMap) {p : FootParameters ℝ} {s : Stance} {B : Matrix (Fin 2) (Fin 2) ℝ} (h : footBounds p s = .ok B) :
    footBounds p (g.stance s) = .ok (movedBounds g B) ∧ (¬ IsSingle s.type → B 1 0 = B 1 1) := by
  obtain ⟨ty, pd, pt, st, du, tl⟩ := s
  unfold footBounds at h ⊢
  unfold WalkMap.stance WalkMap.stanceType movedBounds
  simp only at h ⊢
  by_cases hs : st = .first
  · rw [if_pos hs] at h ⊢
    cases h
    refine ⟨?_, fun _ => rfl⟩
    split
    · congr 1
      ext i j
      fin_cases i <;> fin_cases j <;> simp
    · rfl
  · rw [if_neg hs] at h ⊢
    cases hg : g.mirror
    · simp only [Bool.false_eq_true, if_false]
      cases ty <;> cases pt <;> simp only [reduceCtorEq] at h <;> cases h <;> refine ⟨rfl, fun hd => ?_⟩
      all_goals first
        | exact absurd (Or.inl rfl) hd
        | exact absurd (Or.inr rfl) hd
        | rfl
    · simp only [if_true]
      cases ty <;> cases pt <;> simp only [reduceCtorEq] at h <;> cases h <;> refine ⟨?_, fun hd => ?_⟩
      all_goals first
        | exact absurd (Or.inl rfl) hd
        | exact absurd (Or.inr rfl) hd
        | rfl
        | skip
      all_goals
        show Except.ok _ = Except.ok _
        congr 1
        ext i j
        fin_cases i <;> fin_cases j <;> simp [FootParameters.leftFoot, FootParameters.rightFoot]

theorem copBounds_moved (g : WalkMap) (p : FootParameters ℝ) (s : Stance) : copBounds p (g.stance s) = movedBounds g (copBounds p s) := by
  unfold copBounds movedBounds
  have et : (g.stance s).type = .ds ↔ s.type = .ds := g.stanceType_ds _
  simp only [et]
  split <;> split <;> first | rfl | skip
  all_goals
    ext i j
    fin_cases i <;> fin_cases j <;> simp [FootParameters.getADSCoPBounds, FootParameters.getSSCoPBounds]

/-! ## Angles -/

/-- Angles of the supports and their images. -/
structure MovedThetas (g : WalkMap) (a b : Thetas) : Prop where
  lss : b.lss = g.heading (if g.mirror then a.rss else a.lss)
  rss : b.rss = g.heading (if g.mirror then a.lss else a.rss)
  ds : b.ds = g.heading a.ds

theorem heading_add (g : WalkMap) (a b : ℝ) : g.heading (a + b) = g.heading a + g.sign * b := by
  unfold WalkMap.heading
  ring

theorem previewTransition_moved {g : WalkMap} {w : WalkParameters} {next prev : StanceType} (hd : next = .ds → prev = .lss ∨ prev = .rss)
    {a b : Thetas} (h : MovedThetas g a b) :
    MovedThetas g (previewTransition w next prev a).1 (previewTransition (g.walk w) (g.stanceType next) (g.stanceType prev) b).1 ∧
    (previewTransition (g.walk w) (g.stanceType next) (g.stanceType prev) b).2.1 = g.side (previewTransition w next prev a).2.1 ∧
    (previewTransition (g.walk w) (g.stanceType next) (g.stanceType prev) b).2.2 = g.heading (previewTransition w next prev a).2.2 := by
  obtain ⟨e1, e2, e3⟩ := h
  have hadd := heading_add g
  unfold previewTransition WalkMap.stanceType WalkMap.walk
  cases hg : g.mirror
  · rw [hg] at e1 e2
    simp only [Bool.false_eq_true, if_false] at e1 e2 ⊢
    have mk : ∀ {a b : Thetas}, b.lss = g.heading a.lss → b.rss = g.heading a.rss → b.ds = g.heading a.ds → MovedThetas g a b :=
      fun h1 h2 h3 => ⟨by simp [hg, h1], by simp [hg, h2], h3⟩
    cases next <;> cases prev <;> simp at hd <;> refine ⟨mk ?_ ?_ ?_, ?_, ?_⟩ <;> simp [e1, e2, e3, hadd]
  · rw [hg] at e1 e2
    simp only [if_true] at e1 e2 ⊢
    have mk : ∀ {a b : Thetas}, b.lss = g.heading a.rss → b.rss = g.heading a.lss → b.ds = g.heading a.ds → MovedThetas g a b :=
      fun h1 h2 h3 => ⟨by simp [hg, h1], by simp [hg, h2], h3⟩
    cases next <;> cases prev <;> simp at hd <;> refine ⟨mk ?_ ?_ ?_, ?_, ?_⟩ <;> simp [e1, e2, e3, hadd]

theorem switchOut_moved {g : WalkMap} {w : WalkParameters} {next : StanceType} {s : Stance} (hu : s.type ≠ .undefined)
    (hd : s.type = .tds → next = .ds → s.prevNonTds = .lss ∨ s.prevNonTds = .rss) {a b : Thetas} (h : MovedThetas g a b) :
    MovedThetas g (switchOut w next s a).1 (switchOut (g.walk w) (g.stanceType next) (g.stance s) b).1 ∧
    (switchOut (g.walk w) (g.stanceType next) (g.stance s) b).2.1 = g.side (switchOut w next s a).2.1 ∧
    (switchOut (g.walk w) (g.stanceType next) (g.stance s) b).2.2 = g.heading (switchOut w next s a).2.2 := by
  by_cases ht : s.type = .tds
  · have ht' : (g.stance s).type = .tds := (g.stanceType_tds _).2 ht
    unfold switchOut
    rw [ht, ht']
    exact previewTransition_moved (hd ht) h
  · unfold switchOut
    unfold WalkMap.stance
    simp only
    have h' := h
    obtain ⟨e1, e2, e3⟩ := h
    unfold WalkMap.stanceType
    cases hty : s.type
    · exact absurd hty hu
    · simp only
      split
      · exact ⟨h', rfl, e3⟩
      · exact ⟨h', rfl, e3⟩
    · cases hg : g.mirror <;> rw [hg] at e1 e2 <;> simp only [Bool.false_eq_true, if_false, if_true] at e1 e2 ⊢
      · exact ⟨h', rfl, e1⟩
      · exact ⟨h', rfl, e2⟩
    · cases hg : g.mirror <;> rw [hg] at e1 e2 <;> simp only [Bool.false_eq_true, if_false, if_true] at e1 e2 ⊢
      · exact ⟨h', rfl, e2⟩
      · exact ⟨h', rfl, e1⟩
    · exact absurd hty ht

theorem typeAt_moved (g : WalkMap) (l : List Stance) (i : ℕ) : typeAt (l.map g.stance) i = g.stanceType (typeAt l i) := by
  unfold typeAt
  rw [List.getElem?_map]
  cases l[i]? <;> rfl

theorem thetasAt_moved {g : WalkMap} {w : WalkParameters} {l : List Stance}
    (hl : ∀ i s, l[i]? = some s → s.type ≠ .undefined ∧
      (s.type = .tds → typeAt l (i + 1) = .ds → s.prevNonTds = .lss ∨ s.prevNonTds = .rss)) {a b : Thetas} (h : MovedThetas g a b) (i : ℕ) :
    MovedThetas g (thetasAt w l a i) (thetasAt (g.walk w) (l.map g.stance) b i) := by
  induction i with
  | zero => exact h
  | succ i ih =>
    unfold thetasAt
    rw [List.getElem?_map]
    cases hi : l[i]? with
    | none => exact ih
    | some s =>
      simp only [Option.map_some]
      rw [typeAt_moved]
      exact (switchOut_moved (hl i s hi).1 (hl i s hi).2 ih).1

/-! ## Horizons -/

theorem thetas0_moved {g : WalkMap} {m m' : Model} (h : MovedModel g m m') : MovedThetas g (thetas0 m) (thetas0 m') := by
  have h1 := h.left.direction
  have h2 := h.right.direction
  unfold thetas0
  refine ⟨?_, ?_, ?_⟩
  · rw [h1]; cases g.mirror <;> rfl
  · rw [h2]; cases g.mirror <;> rfl
  · show (m'.state.feet.left.rpy 2 + m'.state.feet.right.rpy 2) / 2 = g.heading ((m.state.feet.left.rpy 2 + m.state.feet.right.rpy 2) / 2)
    rw [h1, h2]
    unfold WalkMap.heading
    cases g.mirror <;> simp <;> ring

theorem capacity_moved (g : WalkMap) (T : ℕ) (l : List Stance) : capacity T (l.map g.stance) = capacity T l := by
  have hp : ∀ n (l : List Stance), l.length ≤ n → pairsCapacity T (l.map g.stance) = pairsCapacity T l := by
    intro n
    induction n with
    | zero =>
      intro l hl
      obtain rfl : l = [] := List.length_eq_zero_iff.1 (by omega)
      rfl
    | succ n ih =>
      intro l hl
      match l, hl with
      | [], _ => rfl
      | [_], _ => rfl
      | a :: b :: l, hl =>
        show 1 + b.duration / T + pairsCapacity T (l.map g.stance) = 1 + b.duration / T + pairsCapacity T l
        rw [ih l (by simp only [List.length_cons] at hl; omega)]
  match l with
  | [] => rfl
  | s :: l =>
    have et : (g.stance s).type = .tds ↔ s.type = .tds := g.stanceType_tds _
    have e1 := hp _ (s :: l) le_rfl
    have e2 := hp _ l le_rfl
    rw [List.map_cons] at e1
    show (if (g.stance s).type = .tds then pairsCapacity T (g.stance s :: l.map g.stance) else
      (s.duration + T - 1) / T + pairsCapacity T (l.map g.stance)) = _
    rw [e1, e2]
    simp only [et]
    rfl

theorem firstSupport_moved (g : WalkMap) (l : List Stance) : firstSupport (l.map g.stance) = firstSupport l := by
  match l with
  | [] => rfl
  | s :: l =>
    have et : (g.stance s).type = .tds ↔ s.type = .tds := g.stanceType_tds _
    show (if (g.stance s).type = .tds then 1 else 0) = if s.type = .tds then 1 else 0
    simp only [et]

theorem firstDuration_moved (g : WalkMap) (T : ℕ) (l : List Stance) : firstDuration T (l.map g.stance) = firstDuration T l := by
  match l with
  | [] => rfl
  | s :: l =>
    have et : (g.stance s).type = .tds ↔ s.type = .tds := g.stanceType_tds _
    show (if (g.stance s).type = .tds then s.duration else _) = if s.type = .tds then s.duration else _
    simp only [et]
    rfl

section
variable {g : WalkMap} {N T Ttds : ℕ} {z z' : ℝ} {l : List Stance} {H H' : Horizon}

theorem steps_moved (h : FollowsWalk N T Ttds z l H) (h' : FollowsWalk N T Ttds z' (l.map g.stance) H') : H'.variable_steps = H.variable_steps := by
  have hcap : ∀ j, capacity T ((l.map g.stance).take (2 * j + firstSupport (l.map g.stance) + 1)) = capacity T (l.take (2 * j + firstSupport l + 1)) := by
    intro j
    rw [firstSupport_moved, ← List.map_take, capacity_moved]
  have hlen : ∀ j, j < H.variable_steps.length ↔ j < H'.variable_steps.length := by
    intro j
    constructor
    · intro hj
      refine h'.allSteps j ?_
      rw [hcap, ← h.steps j _ (List.getElem?_eq_getElem hj)]
      exact (h.range _ (List.getElem_mem hj)).2
    · intro hj
      refine h.allSteps j ?_
      rw [← hcap, ← h'.steps j _ (List.getElem?_eq_getElem hj)]
      exact (h'.range _ (List.getElem_mem hj)).2
  have hl : H'.variable_steps.length = H.variable_steps.length := by
    have h1 := hlen H.variable_steps.length
    have h2 := hlen H'.variable_steps.length
    omega
  refine List.ext_getElem hl fun i h1 h2 => ?_
  rw [h'.steps i _ (List.getElem?_eq_getElem h1), hcap, ← h.steps i _ (List.getElem?_eq_getElem h2)]

theorem indices_moved (h : FollowsWalk N T Ttds z l H) (h' : FollowsWalk N T Ttds z' (l.map g.stance) H') :
    ∀ i < N, (H'.intervals.e i).state_index = (H.intervals.e i).state_index := by
  intro i
  induction i with
  | zero => intro _; rw [h.first, h'.first, firstSupport_moved]
  | succ i ih => intro hi; rw [h.next i hi, h'.next i hi, ih (by omega), steps_moved h h']

theorem times_moved (h : FollowsWalk N T Ttds z l H) (h' : FollowsWalk N T Ttds z' (l.map g.stance) H') :
    ∀ i < N, (H'.intervals.e i).T = (H.intervals.e i).T := by
  intro i hi
  have e : (H'.intervals.e i).T_ms = (H.intervals.e i).T_ms := by
    by_cases h0 : i = 0
    · subst h0; rw [h.firstTime, h'.firstTime, firstDuration_moved]
    · rw [h.nextTimes i hi (by omega), h'.nextTimes i hi (by omega), steps_moved h h']
  have e1 := h.seconds i hi
  have e2 := h'.seconds i hi
  rw [e] at e2
  linarith

end

theorem form_moved {g : WalkMap} {c c' : Stance} {p : FSMParams} {f : FSM} (h : StanceReachable c p f) (hp : Proper p)
    (h' : StanceReachable c' (g.schedule p) (g.machine f)) (hp' : Proper (g.schedule p)) (hf : f.time < f.cur.duration) {q : MPCParameters}
    (hN : q.preview_horizon_length < 2 ^ 63) {nan : ℝ} {junk junk' : ℕ → Interval} {old old' H H' : Horizon} {m m' : Model}
    {w : WalkParameters} (hm : MovedModel g m m') (hr : FormReturns nan junk old q m f w (.ok (true, H)))
    (hr' : FormReturns nan junk' old' q m' (g.machine f) (g.walk w) (.ok (true, H'))) : MovedHorizon g H H' := by
  obtain ⟨l1, hl1, -, hF⟩ := C51_horizon h hp hf hN hr
  obtain ⟨l1', hl1', -, hF'⟩ := C51_horizon h' hp' hf hN hr'
  obtain rfl : l1' = l1.map g.stance := by
    obtain ⟨fuel, hl1⟩ := hl1
    exact Except.ok.inj (preview_unique hl1' ⟨fuel, preview_moved g hl1⟩)
  obtain ⟨l, side, k, hw, hS, hE, hmap, hacc, -⟩ := formed_entries h hp hf hN hr
  obtain rfl : l1 = l := hF.stances.symm.trans hmap
  obtain ⟨l', -, -, -, -, hE', hmap', -, -⟩ := formed_entries h' hp' hf hN hr'
  obtain rfl : l1.map g.stance = l' := hF'.stances.symm.trans hmap'
  have hgood : ∀ i s, l1[i]? = some s → s.type ≠ .undefined ∧
      (s.type = .tds → typeAt l1 (i + 1) = .ds → s.prevNonTds = .lss ∨ s.prevNonTds = .rss) := by
    intro i s hs
    obtain ⟨⟨a1, a2, a3, a4⟩, a5⟩ := hacc i s hs
    refine ⟨a1, fun ht hd => ?_⟩
    have hlt := a3 ht
    have hn := List.getElem?_eq_getElem hlt
    rw [typeAt_eq hn] at hd
    obtain ⟨⟨-, -, -, b4⟩, -⟩ := hacc _ _ hn
    have hne : l1[i + 1].type ≠ .tds := by rw [hd]; decide
    have hsub := (hS _ _ hn).2.1
    have hprev := (hS _ _ hn).2.2
    have hpe : l1[i + 1].prevNonTds = s.prevNonTds := by
      rw [hprev, (hS _ _ hs).2.2, ← Nat.add_assoc]
      show (if walkType p.firstStance side p.numSteps (k + i) = .tds then _ else _) = _
      rw [← (hS _ _ hs).1, if_pos ht]
    rcases b4 hne with hb | hb
    · exfalso
      rw [hb] at hsub
      unfold walkSub at hsub
      rw [if_neg (by omega)] at hsub
      split at hsub
      · cases hsub
      · split at hsub <;> cases hsub
    · rw [← hpe]
      exact hb.2.2 hd
  have hth := thetasAt_moved (w := w) hgood (thetas0_moved hm)
  have hpair : ∀ (i : ℕ) (s : Stance), l1[i]? = some s → ∃ x x', H.walk_states[i]? = some x ∧ H'.walk_states[i]? = some x' ∧
      x'.R_cvel_ref = g.vector x.R_cvel_ref ∧ (s.type ≠ .tds → MovedSupport g x x') := by
    intro i s hs
    obtain ⟨x, hx, ex⟩ := hE i s hs
    obtain ⟨x', hx', ex'⟩ := hE' i (g.stance s) (by rw [List.getElem?_map, hs]; rfl)
    rw [typeAt_moved] at ex'
    obtain ⟨-, s2, s3⟩ := switchOut_moved (w := w) (hgood i s hs).1 (hgood i s hs).2 (hth i)
    have et : x'.theta = g.heading x.theta := by rw [ex'.theta, s3, ex.theta]
    have turned : ∀ θ (v : Fin 2 → ℝ), IsTurned θ v ((rotation2 θ).mulVec v) := by
      intro θ v
      refine ⟨?_, ?_⟩ <;> simp [rotation2, Matrix.mulVec, dotProduct, Fin.sum_univ_two] <;> ring
    refine ⟨x, x', hx, hx', ?_, fun ht => ?_⟩
    · have h1 := isTurned_moved g (turned x.theta x.cvel_ref)
      have h2 := turned x'.theta x'.cvel_ref
      rw [ex'.R_cvel_ref, ex'.rotation, ex.R_cvel_ref, ex.rotation]
      rw [et, ex'.cvel_ref, s2, ← ex.cvel_ref] at h2 ⊢
      funext a
      fin_cases a
      · exact h2.1.trans h1.1.symm
      · exact h2.2.trans h1.2.symm
    · obtain ⟨f1, f2⟩ := footBounds_moved g (ex.fd ht)
      have ht' : (g.stance s).type ≠ .tds := fun e => ht ((g.stanceType_tds _).1 e)
      have f3 := ex'.fd ht'
      rw [hm.params, f1] at f3
      refine ⟨by rw [ex'.stance, ex.stance]; rfl, et, (Except.ok.inj f3).symm, ?_, by rw [ex.stance]; exact f2, ex.rotation, ex'.rotation⟩
      rw [ex'.cop ht', ex.cop ht, hm.params, copBounds_moved]
  have hi := indices_moved hF hF'
  refine ⟨steps_moved hF hF', fun k hk => by rw [hF.size]; exact (hF.range k hk).2, by rw [hF.size, hF'.size], fun i h1 => ?_, fun i h1 => ?_, fun i h1 => ?_⟩
  all_goals rw [hF.size] at h1
  · exact times_moved hF hF' i h1
  · obtain ⟨x, hx, ex⟩ := hF.velocity i h1
    obtain ⟨x', hx', ex'⟩ := hF'.velocity i h1
    rw [hi i h1] at hx'
    have hs : l1[(H.intervals.e i).state_index - 1]? = some x.stance := by rw [← hmap, List.getElem?_map, hx]; rfl
    obtain ⟨y, y', hy, hy', e, -⟩ := hpair _ _ hs
    rw [hx] at hy; cases hy
    rw [hx'] at hy'; cases hy'
    rw [ex, ex', e]
  · obtain ⟨s, hs, ht⟩ := hF.supports i h1
    obtain ⟨y, y', hy, hy', -, e⟩ := hpair _ _ hs
    refine ⟨y, y', ?_, ?_, e ht⟩
    · unfold Horizon.getWalkState Vec.get
      rw [hF.size, if_pos h1]
      simp only [ok_bind]
      unfold nth
      rw [hy]
    · unfold Horizon.getWalkState Vec.get
      rw [hF'.size, if_pos h1]
      simp only [ok_bind, hi i h1]
      unfold nth
      rw [hy']

end Humoto.Wpg
