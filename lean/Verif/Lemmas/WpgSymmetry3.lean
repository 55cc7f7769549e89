import Verif.Lemmas.WpgSymmetry2
import Verif.Props.WpgNext

/-!
# Symmetries of the next state of the walking robot
-/

namespace Humoto.Wpg

open Spec Spec.Wpg

/-- The image of a foot: in a mirror the other one. -/
def movedSide (g : WalkMap) : LeftOrRight → LeftOrRight
  | .left => if g.mirror then .right else .left
  | .right => if g.mirror then .left else .right
  | .undefined => .undefined

/-- The feet `F'` are images of the feet `F`. -/
structure MovedFeet (g : WalkMap) (F F' : Feet) : Prop where
  left : MovedFoot g (if g.mirror then F.right else F.left) F'.left
  right : MovedFoot g (if g.mirror then F.left else F.right) F'.right

section
variable {g : WalkMap}

theorem movedFeet_get {F F' : Feet} (h : MovedFeet g F F') {side : LeftOrRight} {r r' : RigidBodyState ℝ} (e : F.get side = .ok r)
    (e' : F'.get (movedSide g side) = .ok r') : MovedFoot g r r' := by
  obtain ⟨h1, h2⟩ := h
  unfold movedSide at e'
  cases side <;> cases hg : g.mirror <;> simp only [hg, Bool.false_eq_true, if_false, if_true] at * <;> cases e <;> cases e' <;> assumption

theorem movedFeet_put {F F' Y Y' : Feet} (h : MovedFeet g F F') {side : LeftOrRight} {r r' : RigidBodyState ℝ} (hr : MovedFoot g r r')
    (e : F.put r side = .ok Y) (e' : F'.put r' (movedSide g side) = .ok Y') : MovedFeet g Y Y' := by
  obtain ⟨h1, h2⟩ := h
  unfold movedSide at e'
  cases side <;> cases hg : g.mirror <;> simp only [hg, Bool.false_eq_true, if_false, if_true] at h1 h2 e' <;> cases e <;> cases e' <;>
    constructor <;> simp only [hg, Bool.false_eq_true, if_false, if_true] <;> assumption

theorem invert_moved {side s : LeftOrRight} (e : side.invert = .ok s) : (movedSide g side).invert = .ok (movedSide g s) := by
  unfold movedSide
  cases side <;> cases g.mirror <;> cases e <;> rfl

theorem landingFoot_moved {t : StanceType} {side : LeftOrRight} (e : Mpc.landingFoot t = .ok side) :
    Mpc.landingFoot (g.stanceType t) = .ok (movedSide g side) := by
  unfold WalkMap.stanceType movedSide
  cases t <;> cases g.mirror <;> cases e <;> rfl

theorem place_moved {m m' : Model} (h : MovedModel g m m') : MovedPlace g m m' := by
  have e1 := h.mass.position
  have e2 := h.mass.velocity
  have e3 := h.mass.acceleration
  refine ⟨h.support, ?_, h.mass.height⟩
  have c : ∀ {v u : Fin 2 → ℝ} {a b : ℝ}, ![a, b] = v → a = v 0 ∧ b = v 1 := by
    intro v u a b e
    rw [← e]
    exact ⟨rfl, rfl⟩
  obtain ⟨a1, a2⟩ := c (u := 0) e1
  obtain ⟨b1, b2⟩ := c (u := 0) e2
  obtain ⟨c1, c2⟩ := c (u := 0) e3
  unfold Model.getCState PointMass6z.fromCoMState movedCState
  rw [a1, a2, b1, b2, c1, c2]
  rfl

theorem beside_moved (p : FootParameters ℝ) {side : LeftOrRight} {θ : ℝ} {pos xy xy' : Fin 2 → ℝ}
    (e : p.getFootPositionFromADS side (rotation2 θ) pos = .ok xy)
    (e' : p.getFootPositionFromADS (movedSide g side) (rotation2 (g.heading θ)) (g.point pos) = .ok xy') : xy' = g.point xy := by
  have hu : side ≠ .undefined := by rintro rfl; cases e
  have hb : beside p.feetDistDefault (movedSide g side) = g.side (beside p.feetDistDefault side) := by
    unfold movedSide WalkMap.side
    rcases g.sign_cases with ⟨h1, h2⟩ | ⟨h1, h2⟩ <;> rw [h1, h2] <;> cases side <;> first | exact absurd rfl hu | simp [beside]
  have hu' : movedSide g side ≠ .undefined := by
    intro h
    rw [h] at e'
    cases e'
  obtain ⟨y, h1, h2⟩ := footPosition_turned p hu θ pos
  obtain ⟨y', h1', h2'⟩ := footPosition_turned p hu' (g.heading θ) (g.point pos)
  cases h1.symm.trans e
  cases h1'.symm.trans e'
  rw [hb] at h2'
  have h3 := isTurned_moved g h2
  have h4 : ![xy' 0 - g.point pos 0, xy' 1 - g.point pos 1] = g.vector ![xy 0 - pos 0, xy 1 - pos 1] := by
    funext a
    fin_cases a
    · exact h2'.1.trans h3.1.symm
    · exact h2'.2.trans h3.2.symm
  have h5 : (![xy 0 - pos 0, xy 1 - pos 1] : Fin 2 → ℝ) = xy - pos := by
    funext a
    fin_cases a <;> rfl
  rw [h5, ← point_sub] at h4
  funext a
  have := congrFun h4 a
  fin_cases a
  · have : xy' 0 - g.point pos 0 = g.point xy 0 - g.point pos 0 := this
    show xy' 0 = g.point xy 0
    linarith
  · have : xy' 1 - g.point pos 1 = g.point xy 1 - g.point pos 1 := this
    show xy' 1 = g.point xy 1
    linarith

theorem landingState_moved {c c' : Mpc} {model model' : Model} (hH : MovedHorizon g c.horizon c'.horizon) (hm : MovedModel g model model')
    (hs : 0 < c.horizon.variable_steps.length → ∃ P, fixedSegment c.footpos_profile 0 2 = .ok P ∧
      fixedSegment c'.footpos_profile 0 2 = .ok (g.point P)) {side : LeftOrRight} {a a' : RigidBodyState ℝ}
    (e : c.landingState model side = .ok a) (e' : c'.landingState model' (movedSide g side) = .ok a') : MovedFoot g a a' := by
  unfold Mpc.landingState at e e'
  simp only [bind_eq_ok] at e e'
  obtain ⟨k, e1, s, e2, t, e3, xy, e4, r, e5, e6⟩ := e
  obtain ⟨k', e1', s', e2', t', e3', xy', e4', r', e5', e6'⟩ := e'
  rw [hH.steps, e1] at e1'
  cases e1'
  unfold nth at e1
  have hk : c.horizon.variable_steps[0]? = some k := by
    split at e1
    · rename_i x hx
      cases e1
      exact hx
    · cases e1
  obtain ⟨hl, hk'⟩ := List.getElem?_eq_some_iff.1 hk
  obtain ⟨s1, q1, hS⟩ := hH.state (hH.range k (hk' ▸ List.getElem_mem hl)) e2'
  cases q1.symm.trans e2
  rw [invert_moved e3] at e3'
  cases e3'
  obtain ⟨P, p1, p2⟩ := hs hl
  have hF : MovedFeet g model.state.feet model'.state.feet := ⟨hm.left, hm.right⟩
  have hr := movedFeet_get hF e5 e5'
  have hxy : xy' = g.point xy := by
    unfold Mpc.landingPosition at e4 e4'
    rw [p1] at e4
    rw [hS.type, p2, hm.stance, hm.params, hS.rotations.2, hS.theta] at e4'
    rw [hS.rotations.1] at e4
    have hd : ∀ t, (g.stanceType t = .rss ∨ g.stanceType t = .lss) ↔ (t = .rss ∨ t = .lss) := by
      intro t
      unfold WalkMap.stanceType
      cases t <;> cases g.mirror <;> simp
    cases ht : s.stance.type <;> rw [ht] at e4 e4'
    · cases e4
    · have hds : g.stanceType .ds = .ds := rfl
      rw [hds] at e4'
      simp only at e4 e4'
      by_cases hc : model.state.stance_type = .rss ∨ model.state.stance_type = .lss
      · rw [if_pos hc] at e4
        rw [if_pos ((hd _).2 hc)] at e4'
        simp only [ok_bind] at e4 e4'
        exact beside_moved model.params e4 e4'
      · rw [if_neg hc] at e4
        cases e4
    · unfold WalkMap.stanceType at e4'
      cases e4
      cases hg : g.mirror <;> rw [hg] at e4' <;> cases e4' <;> rfl
    · unfold WalkMap.stanceType at e4'
      cases e4
      cases hg : g.mirror <;> rw [hg] at e4' <;> cases e4' <;> rfl
    · cases e4
  cases e6
  cases e6'
  refine ⟨?_, hr.level, hS.theta⟩
  rw [hxy]
  funext a
  have h2 : (![xy 0, xy 1] : Fin 2 → ℝ) = xy := by
    funext a
    fin_cases a <;> rfl
  show (![g.point xy 0, g.point xy 1] : Fin 2 → ℝ) a = g.point ![xy 0, xy 1] a
  rw [h2]
  fin_cases a <;> rfl

/-- The feet after an iteration: at the end of a single support one of them has landed, otherwise they remain. -/
theorem feet_after {nan : ℝ} {c : Mpc} {f : FSM} {model : Model} {X Y : Feet} {com : PointMassState ℝ} {next : StanceType}
    (e : c.nextFeet nan f model = .ok X) (u : Model.updateFeet model.state.stance_type model.state.feet ⟨com, X, f.cur.type, next⟩ = .ok Y) :
    ((f.cur.type = .tds ∧ f.tdsStarted ∧ model.state.stance_type ≠ .ds) ∧
      ∃ side a, Mpc.landingFoot model.state.stance_type = .ok side ∧ c.landingState model side = .ok a ∧ model.state.feet.put a side = .ok Y) ∨
    (¬ (f.cur.type = .tds ∧ f.tdsStarted ∧ model.state.stance_type ≠ .ds) ∧ Y = model.state.feet) := by
  unfold Mpc.nextFeet at e
  unfold Model.updateFeet at u
  cases ht : f.cur.type <;> rw [ht] at e u
  · cases e
  · cases e
    cases u
    exact .inr ⟨by simp, rfl⟩
  · cases e
    cases u
    exact .inr ⟨by simp, rfl⟩
  · cases e
    cases u
    exact .inr ⟨by simp, rfl⟩
  · simp only at e u
    by_cases hc : f.tdsStarted ∧ model.state.stance_type ≠ .ds
    · rw [if_pos hc] at e
      simp only [bind_eq_ok] at e
      obtain ⟨side, e1, other, e2, a, e3, F, e4, b, e5, e6⟩ := e
      refine .inl ⟨⟨rfl, hc⟩, side, a, e1, e3, ?_⟩
      cases hst : model.state.stance_type <;> rw [hst] at e1 u <;> cases e1 <;> cases e2 <;> cases e4 <;> cases e5 <;> cases e6 <;> cases u <;> rfl
    · rw [if_neg hc] at e
      cases e
      refine .inr ⟨by simpa using fun h => by simpa using (not_and.1 hc) h, ?_⟩
      cases hst : model.state.stance_type <;> rw [hst] at u <;> cases u <;> rfl

theorem point_mean (a b : Fin 2 → ℝ) : g.point ((2 : ℝ)⁻¹ • (a + b)) = (2 : ℝ)⁻¹ • (g.point a + g.point b) := by
  unfold WalkMap.point
  rw [vector_smul, vector_add]
  funext i
  simp only [Pi.add_apply, Pi.smul_apply, smul_eq_mul]
  ring

theorem support_moved {s s' : ModelState} (hF : MovedFeet g s.feet s'.feet) (h1 : s'.stance_type = g.stanceType s.stance_type)
    (h2 : s'.next_stance_type = g.stanceType s.next_stance_type) {p p' : Fin 2 → ℝ} (e : determineSupportPosition s = .ok p)
    (e' : determineSupportPosition s' = .ok p') : p' = g.point p := by
  obtain ⟨hl, hr⟩ := hF
  have hl := hl.position
  have hr := hr.position
  have hmean : meanPosition s'.feet = g.point (meanPosition s.feet) := by
    unfold meanPosition
    rw [point_mean]
    unfold head2
    rw [hl, hr]
    cases g.mirror
    · rfl
    · simp only [if_true]
      rw [add_comm]
  have hleft : head2 s'.feet.left.position = g.point (head2 (if g.mirror then s.feet.right else s.feet.left).position) := hl
  have hright : head2 s'.feet.right.position = g.point (head2 (if g.mirror then s.feet.left else s.feet.right).position) := hr
  unfold determineSupportPosition at e e'
  rw [h1, h2, hmean, hleft, hright] at e'
  unfold WalkMap.stanceType at e'
  cases ht : s.stance_type <;> rw [ht] at e e'
  · cases e
  · cases e
    cases e'
    rfl
  · cases hg : g.mirror <;> rw [hg] at e' <;> cases e <;> cases e' <;> rfl
  · cases hg : g.mirror <;> rw [hg] at e' <;> cases e <;> cases e' <;> rfl
  · simp only at e e'
    cases hn : s.next_stance_type <;> rw [hn] at e e'
    · cases e
    · cases e
      cases e'
      rfl
    · cases hg : g.mirror <;> rw [hg] at e' <;> cases e <;> cases e' <;> rfl
    · cases hg : g.mirror <;> rw [hg] at e' <;> cases e <;> cases e' <;> rfl
    · cases e

theorem evaluate_moved {t T h : ℝ} (hh : 0 < h) (hT : T ≠ 0) (x : Fin 6 → ℝ) (u : Fin 2 → ℝ) :
    MovedMass g (PointMass6z.evaluate t T h x u) (PointMass6z.evaluate t T h (movedCState g x) (g.point u)) := by
  have h1 := moves_moved (g := g) ((moves_iff hh hT t x u _).2 rfl)
  rw [moves_iff hh hT] at h1
  have hp : ∀ (f : Fin 6 → ℝ) (i : Fin 6), movedCState g (PointMass6z.fromCoMState (PointMass6z.evaluate t T h x u)) i =
      PointMass6z.fromCoMState (PointMass6z.evaluate t T h (movedCState g x) (g.point u)) i := fun _ i => congrFun h1 i
  have a0 := hp 0 0
  have a1 := hp 0 1
  have a2 := hp 0 2
  have a3 := hp 0 3
  have a4 := hp 0 4
  have a5 := hp 0 5
  refine ⟨?_, rfl, ?_, ?_⟩
  · funext a
    fin_cases a
    · exact a0.symm
    · exact a3.symm
  · funext a
    fin_cases a
    · exact a1.symm
    · exact a4.symm
  · funext a
    fin_cases a
    · exact a2.symm
    · exact a5.symm

theorem model_moved {nan : ℝ} {c c' : Mpc} {f : FSM} {model model' a a' : Model} {x x' : ModelState}
    (hH : MovedHorizon g c.horizon c'.horizon) (hpar : c'.parameters = c.parameters) (h0 : 0 < c.horizon.intervals.n)
    (hT : (c.horizon.intervals.e 0).T ≠ 0) (hh : 0 < model.getCoMHeight) (hc : (c.horizon.intervals.e 0).com_height = model.getCoMHeight)
    (hc' : (c'.horizon.intervals.e 0).com_height = model'.getCoMHeight) (hm : MovedModel g model model') {z : Fin 2 → ℝ}
    (hz : fixedSegment c.cop_profile 0 2 = .ok z) (hz' : fixedSegment c'.cop_profile 0 2 = .ok (g.point z))
    (hs : 0 < c.horizon.variable_steps.length → ∃ P, fixedSegment c.footpos_profile 0 2 = .ok P ∧
      fixedSegment c'.footpos_profile 0 2 = .ok (g.point P))
    (e : c.initializeNextModelState nan f model = .ok x) (e' : c'.initializeNextModelState nan (g.machine f) model' = .ok x')
    (u : model.updateState x = .ok a) (u' : model'.updateState x' = .ok a') : MovedModel g a a' := by
  have hP := place_moved hm
  unfold Mpc.initializeNextModelState at e e'
  simp only [bind_eq_ok] at e e'
  obtain ⟨iv, e1, z1, e2, n, e3, X, e4, e5⟩ := e
  obtain ⟨iv', e1', z1', e2', n', e3', X', e4', e5'⟩ := e'
  have g1 : iv = c.horizon.intervals.e 0 := by
    unfold Vec.get at e1
    rw [if_pos h0] at e1
    exact (Except.ok.inj e1).symm
  have g1' : iv' = c'.horizon.intervals.e 0 := by
    unfold Vec.get at e1'
    rw [if_pos (by rw [hH.size]; exact h0)] at e1'
    exact (Except.ok.inj e1').symm
  cases e2.symm.trans hz
  cases e2'.symm.trans hz'
  rw [next_moved g e3] at e3'
  cases e3'
  cases e5
  cases e5'
  unfold Model.updateState at u u'
  simp only [bind_eq_ok] at u u'
  obtain ⟨Y, u1, P, u2, u3⟩ := u
  obtain ⟨Y', u1', P', u2', u3'⟩ := u'
  have hF : MovedFeet g model.state.feet model'.state.feet := ⟨hm.left, hm.right⟩
  have hY : MovedFeet g Y Y' := by
    have a1 := feet_after e4 u1
    have a2 := feet_after e4' u1'
    have hiff : ((g.machine f).cur.type = .tds ∧ (g.machine f).tdsStarted ∧ model'.state.stance_type ≠ .ds) ↔
        (f.cur.type = .tds ∧ f.tdsStarted ∧ model.state.stance_type ≠ .ds) := by
      rw [hm.stance]
      have q1 : (g.machine f).cur.type = .tds ↔ f.cur.type = .tds := g.stanceType_tds _
      have q2 : g.stanceType model.state.stance_type ≠ .ds ↔ model.state.stance_type ≠ .ds := not_congr (g.stanceType_ds _)
      rw [q1, q2]
      rfl
    rw [hiff] at a2
    rcases a1 with ⟨b, side, r, b1, b2, b3⟩ | ⟨b, b1⟩
    · rcases a2 with ⟨-, side', r', b1', b2', b3'⟩ | ⟨b', -⟩
      · rw [hm.stance, landingFoot_moved b1] at b1'
        cases b1'
        exact movedFeet_put hF (landingState_moved hH hm hs b2 b2') b3 b3'
      · exact absurd b b'
    · rcases a2 with ⟨b', -⟩ | ⟨-, b1'⟩
      · exact absurd b' b
      · rw [b1, b1']
        exact hF
  cases u3
  cases u3'
  refine ⟨hm.params, rfl, rfl, ?_, hY.left, hY.right, support_moved hY rfl rfl u2 u2'⟩
  have := evaluate_moved (g := g) (t := c.parameters.getSubsamplingTime) hh hT model.getCState z
  show MovedMass g (PointMass6z.evaluate c.parameters.getSubsamplingTime iv.T iv.com_height model.getCState z)
    (PointMass6z.evaluate c'.parameters.getSubsamplingTime iv'.T iv'.com_height model'.getCState (g.point z))
  rw [g1, g1', hc, hc', hP.height, hP.state, hpar, hH.times 0 h0]
  exact this

end

end Humoto.Wpg
