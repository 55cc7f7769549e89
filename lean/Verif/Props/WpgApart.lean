import Verif.Spec.WpgApart
import Verif.Props.WpgBalance
import Mathlib.Analysis.SpecialFunctions.Trigonometric.Bounds

/-!
# C114: the feet do not collide
-/

namespace Humoto.Wpg

open Spec Spec.Wpg PointMass6z Bridge

/-! ### Soles -/

theorem turned_across {θ : ℝ} {v r : Fin 2 → ℝ} (h : IsTurned θ v r) : v 1 = -Real.sin θ * r 0 + Real.cos θ * r 1 := by
  rw [h.1, h.2]
  linear_combination (-v 1) * Real.sin_sq_add_cos_sq θ

/-- Two soles, one of which is at the place `v` relative to the other one. -/
theorem soles_disjoint {p : FootParameters ℝ} (hL : 0 ≤ p.footLength) (hW : 0 ≤ p.footWidth) {f r : RigidBodyState ℝ} {δ : ℝ} {v : Fin 2 → ℝ}
    (hv : IsTurned (f.rpy 2) v ![r.position 0 - f.position 0, r.position 1 - f.position 1]) (hr : r.rpy 2 = f.rpy 2 + δ)
    (hd : (p.footWidth + p.footWidth * |Real.cos δ| + p.footLength * |Real.sin δ|) / 2 < |v 1|) :
    Disjoint (SolePoints p f) (SolePoints p r) := by
  rw [Set.disjoint_left]
  rintro z ⟨a, ha, -, ha1⟩ ⟨b, hb, hb0, hb1⟩
  have e1 := turned_across ha
  have e2 := turned_across hv
  rw [hr] at hb
  obtain ⟨b0, b1⟩ := hb
  simp only [Matrix.cons_val_zero, Matrix.cons_val_one] at e1 e2 b0 b1
  rw [Real.cos_add, Real.sin_add] at b0 b1
  have e : a 1 - v 1 = Real.sin δ * b 0 + Real.cos δ * b 1 := by
    have h0 : z 0 - f.position 0 = (z 0 - r.position 0) + (r.position 0 - f.position 0) := by ring
    have h1 : z 1 - f.position 1 = (z 1 - r.position 1) + (r.position 1 - f.position 1) := by ring
    rw [e1, e2, h0, h1, b0, b1]
    linear_combination (Real.sin δ * b 0 + Real.cos δ * b 1) * Real.sin_sq_add_cos_sq (f.rpy 2)
  have h1 : |Real.sin δ * b 0| ≤ |Real.sin δ| * (p.footLength / 2) := by
    rw [abs_mul]
    exact mul_le_mul_of_nonneg_left hb0 (abs_nonneg _)
  have h2 : |Real.cos δ * b 1| ≤ |Real.cos δ| * (p.footWidth / 2) := by
    rw [abs_mul]
    exact mul_le_mul_of_nonneg_left hb1 (abs_nonneg _)
  have h3 : |v 1| ≤ |a 1| + (|Real.sin δ * b 0| + |Real.cos δ * b 1|) := by
    have : v 1 = a 1 - (Real.sin δ * b 0 + Real.cos δ * b 1) := by linarith
    rw [this]
    exact (abs_sub _ _).trans (add_le_add le_rfl (abs_add_le _ _))
  linarith

theorem apart_of {p : FootParameters ℝ} (hL : 0 ≤ p.footLength) (hW : 0 ≤ p.footWidth) {f : Feet} {θ δ : ℝ} {v : Fin 2 → ℝ}
    (h : LeftFootAt f θ δ v)
    (hd : (p.footWidth + p.footWidth * |Real.cos δ| + p.footLength * |Real.sin δ|) / 2 < v 1) : SolesApart p f := by
  have hd' := hd.trans_le (le_abs_self (v 1))
  obtain ⟨⟨h1, h2⟩, ⟨rfl, h4⟩ | ⟨rfl, h4⟩⟩ := h
  · exact (soles_disjoint hL hW ⟨h1, h2⟩ h4 hd').symm
  · refine soles_disjoint (v := -v) hL hW ⟨?_, ?_⟩ h4 (by simpa using hd')
    · simp only [Matrix.cons_val_zero, Matrix.cons_val_one, Pi.neg_apply] at h1 ⊢
      linear_combination -h1
    · simp only [Matrix.cons_val_zero, Matrix.cons_val_one, Pi.neg_apply] at h2 ⊢
      linear_combination -h2

theorem beside_at {m : Model} (h : FeetBeside m) (hp : m.state.feet.left.rpy 2 = m.state.feet.right.rpy 2) :
    LeftFootAt m.state.feet (m.state.feet.right.rpy 2) 0 ![0, m.params.feetDistDefault] := by
  obtain ⟨θ, hθ, ⟨l0, l1⟩, r0, r1⟩ := h
  have e : θ = m.state.feet.right.rpy 2 := by linarith
  subst e
  refine ⟨⟨?_, ?_⟩, .inl ⟨rfl, by linarith⟩⟩
  · simp only [beside, Matrix.cons_val_zero, Matrix.cons_val_one] at l0 r0 ⊢
    linear_combination l0 - r0
  · simp only [beside, Matrix.cons_val_zero, Matrix.cons_val_one] at l1 r1 ⊢
    linear_combination l1 - r1

/-! ### Walks -/

section
variable {v : Hotstart} {p : FSMParams} {N T : ℕ} {q : MPCParameters} {o : ProblemSetup} {nan : ℝ} {ext : Qpoases ℝ} {n : ℕ}
  {s0 s s' : Program} {u : Memory}

/-- What is kept in a walk, also if the turn changes at any time. -/
theorem walk_feet (hp : LoopParameters p N T) (hq : MPCParameters.make N T T T = .ok q) (hg : o.terminal = true → o.terminalGain ≠ 0)
    (hext : TrustedSolver ext) (h0 : ProgramStart p q o s0) (hst : Stands s0.model) (hf : SaneFeet s0.model.params)
    (hpar : ParallelFeet s0.model) {w : ℕ → WalkParameters} (h : RunAfter v ext nan T w s0 n s) :
    (∃ side k δ, WalkKept p N T q δ n (loopOf s) side k) ∧ s.model.params = s0.model.params := by
  induction h with
  | start =>
    have := walk_kept (n := 0) (v := v) (nan := nan) (w := fun _ => w 0) hp hq hg hext h0 hst hf hpar (steady_of fun _ => rfl) .start
    obtain ⟨⟨side, k, δ, hI, -⟩, -⟩ := this
    exact ⟨⟨side, k, δ, hI⟩, rfl⟩
  | @step n a b m hr hs ih =>
    obtain ⟨⟨side, k, δ, hI⟩, hm⟩ := ih
    have hf' : SaneFeet a.model.params := by rw [hm]; exact hf
    obtain ⟨mpc, st, hG⟩ := iteration_good hp hq hg hext h0 hr hs
    obtain ⟨P, cop, X, k', hit⟩ := iteration_of hp hq hI.loop hG.update hG.solution hG.completes
    have hW := C81_first (allowed_within hp hq hI.loop hG.update hf' hG.best.allowed)
    exact ⟨⟨side, k', _, hit.after, hit.placed hI.placed, hit.feetInv hp hI.placed hI.feet hW⟩,
      ((C53_result hit.stepped.update).2.2.2.2.1).trans hm⟩

/-- **C114.** Whenever both feet are on the ground, either they are parallel, the left one beside the right one at the default distance, or
the foot which has landed last is turned relative to the other one by the turn which was given for the iteration in which it has landed, and
it is on its own side, between the least and the greatest distance, not farther in front or behind than the longest step. -/
theorem C114_placed (hp : LoopParameters p N T) (hq : MPCParameters.make N T T T = .ok q) (hg : o.terminal = true → o.terminalGain ≠ 0)
    (hext : TrustedSolver ext) (h0 : ProgramStart p q o s0) (hst : Stands s0.model) (hf : SaneFeet s0.model.params)
    (hpar : ParallelFeet s0.model) {w : ℕ → WalkParameters} (h : RunAfter v ext nan T w s0 n s) (hb : OnBothFeet s.model.state) :
    ∃ θ δ x, LeftFootAt s.model.state.feet θ δ x ∧
      (δ = 0 ∧ x = ![0, s0.model.params.feetDistDefault] ∨
        (∃ i < n, δ = (w i).theta_increment) ∧ |x 0| ≤ s0.model.params.maxStepLen ∧ s0.model.params.minFeetDist ≤ x 1 ∧
          x 1 ≤ s0.model.params.maxFeetDist) := by
  obtain ⟨⟨side, k, δ, hI⟩, hm⟩ := walk_feet hp hq hg hext h0 hst hf hpar h
  have double : standing s.model.state.stance_type s.model.state.next_stance_type = .ds → ∃ θ δ x, LeftFootAt s.model.state.feet θ δ x ∧
      (δ = 0 ∧ x = ![0, s0.model.params.feetDistDefault] ∨
        (∃ i < n, δ = (w i).theta_increment) ∧ |x 0| ≤ s0.model.params.maxStepLen ∧ s0.model.params.minFeetDist ≤ x 1 ∧
          x 1 ≤ s0.model.params.maxFeetDist) := by
    intro e
    obtain ⟨f1, f2⟩ := hI.feet.double e
    have := beside_at (m := s.model) f1 f2
    rw [hm] at this
    exact ⟨_, _, _, this, .inl ⟨rfl, rfl⟩⟩
  rcases hb with e | e
  · exact double (by unfold standing; rw [e]; rfl)
  · cases h with
    | start =>
      have hz := hI.loop.machine.inv.type
      have hh := h0.loop.stance
      obtain ⟨side', hI'⟩ := loop_start hp h0.loop
      have hne : s0.model.state.stance_type ≠ .tds := by
        show (loopOf s0).model.state.stance_type ≠ .tds
        rw [h0.loop.stance, hI'.machine.inv.type, ne_eq, walkType_parity hI'.machine.ok (by omega) fun _ => rfl]
        omega
      exact absurd e hne
    | @step n a _ m hr hs =>
      obtain ⟨⟨side', ka, δa, hIa⟩, hma⟩ := walk_feet hp hq hg hext h0 hst hf hpar hr
      have hf' : SaneFeet a.model.params := by rw [hma]; exact hf
      obtain ⟨mpc, st, hG⟩ := iteration_good hp hq hg hext h0 hr hs
      obtain ⟨P, cop, X, k', hit⟩ := iteration_of hp hq hIa.loop hG.update hG.solution hG.completes
      have hW := C81_first (allowed_within hp hq hIa.loop hG.update hf' hG.best.allowed)
      obtain ⟨-, hL⟩ := hot_after hp hq hg hext h0 hr
      have ht' : (loopOf s).fsm.cur.type = .tds := hit.after.stance.symm.trans e
      obtain ⟨x, y, hB⟩ := hit.begins hp ht'
      rcases hB.next with hn | hn
      · obtain ⟨c1, c2⟩ := C80_step hp hq h0.loop hst hL hG.update hG.solution hW hG.completes e (by rw [hB.nextType]; exact hn)
        have hsa : a.model.state.stance_type = (loopOf a).fsm.cur.type := hIa.loop.stance
        rcases hB.support with c | c | c
        · obtain ⟨-, ⟨z, ⟨z0, z1⟩, z2, z3, z4, z5⟩, ho⟩ := c1 (hsa.trans c)
          refine ⟨s.model.state.feet.left.rpy 2, (w n).theta_increment, -z, ⟨⟨?_, ?_⟩, .inr ⟨rfl, ho⟩⟩, .inr ⟨⟨n, by omega, rfl⟩, ?_, ?_, ?_⟩⟩
          · have z0 : s.model.state.feet.right.position 0 - s.model.state.feet.left.position 0 =
                Real.cos (s.model.state.feet.left.rpy 2) * z 0 - Real.sin (s.model.state.feet.left.rpy 2) * z 1 := z0
            simp only [Matrix.cons_val_zero, Pi.neg_apply]
            linear_combination -z0
          · have z1 : s.model.state.feet.right.position 1 - s.model.state.feet.left.position 1 =
                Real.sin (s.model.state.feet.left.rpy 2) * z 0 + Real.cos (s.model.state.feet.left.rpy 2) * z 1 := z1
            simp only [Matrix.cons_val_one, Matrix.cons_val_fin_one, Pi.neg_apply]
            linear_combination -z1
          · rw [← hma, Pi.neg_apply, abs_neg]
            exact abs_le.2 ⟨z2, z3⟩
          · have z4 : a.model.params.minFeetDist ≤ _ := z4
            rw [← hma, Pi.neg_apply]
            linarith
          · have z5 : _ ≤ a.model.params.maxFeetDist := z5
            rw [← hma, Pi.neg_apply]
            linarith
        · obtain ⟨-, ⟨z, hz, z2, z3, z4, z5⟩, ho⟩ := c2 (hsa.trans c)
          refine ⟨s.model.state.feet.right.rpy 2, (w n).theta_increment, z, ⟨hz, .inl ⟨rfl, ho⟩⟩, .inr ⟨⟨n, by omega, rfl⟩, ?_, ?_, ?_⟩⟩
          · rw [← hma]
            exact abs_le.2 ⟨z2, z3⟩
          · have z4 : a.model.params.minFeetDist ≤ _ := z4
            rw [← hma]
            linarith
          · have z5 : _ ≤ a.model.params.maxFeetDist := z5
            rw [← hma]
            linarith
        · obtain ⟨-, -, l3⟩ := hit.landed ht' hB
          obtain ⟨g1, g2⟩ := l3 c
          obtain ⟨f1, f2⟩ := hIa.feet.double (by unfold standing; rw [hIa.loop.stance, c]; rfl)
          have := beside_at (m := a.model) f1 f2
          have g1 : s.model.state.feet.left = a.model.state.feet.left := g1
          have g2 : s.model.state.feet.right = a.model.state.feet.right := g2
          rw [hma] at this
          unfold LeftFootAt at this ⊢
          rw [← g1, ← g2] at this
          exact ⟨_, _, _, this, .inl ⟨rfl, rfl⟩⟩
      · exact double (by unfold standing; rw [e, if_pos rfl]; exact hB.nextType.trans hn)

/-- **C114.** If there is room for the turns which are given, then the soles of the feet on the ground have no common points. -/
theorem C114_apart (hp : LoopParameters p N T) (hq : MPCParameters.make N T T T = .ok q) (hg : o.terminal = true → o.terminalGain ≠ 0)
    (hext : TrustedSolver ext) (h0 : ProgramStart p q o s0) (hst : Stands s0.model) (hf : SaneFeet s0.model.params)
    (hpar : ParallelFeet s0.model) (hd : s0.model.params.footWidth < s0.model.params.feetDistDefault) {w : ℕ → WalkParameters}
    (hw : ∀ i < n, RoomForTurn s0.model.params (w i).theta_increment) (h : RunAfter v ext nan T w s0 n s)
    (hb : OnBothFeet s.model.state) : SolesApart s.model.params s.model.state.feet := by
  obtain ⟨θ, δ, x, hx, hc⟩ := C114_placed hp hq hg hext h0 hst hf hpar h hb
  rw [(walk_feet hp hq hg hext h0 hst hf hpar h).2]
  refine apart_of hf.size.1 hf.size.2 hx ?_
  rcases hc with ⟨rfl, rfl⟩ | ⟨⟨i, hi, rfl⟩, -, h1, -⟩
  · simpa using hd
  · exact (hw i hi).trans_le h1

/-- **C114.** The feet are not crossed: the left foot is on the left. -/
theorem C114_uncrossed (hp : LoopParameters p N T) (hq : MPCParameters.make N T T T = .ok q) (hg : o.terminal = true → o.terminalGain ≠ 0)
    (hext : TrustedSolver ext) (h0 : ProgramStart p q o s0) (hst : Stands s0.model) (hf : SaneFeet s0.model.params)
    (hpar : ParallelFeet s0.model) {w : ℕ → WalkParameters} (h : RunAfter v ext nan T w s0 n s)
    (hb : OnBothFeet s.model.state) :
    Uncrossed s.model.state.feet (min s0.model.params.feetDistDefault s0.model.params.minFeetDist) := by
  obtain ⟨θ, δ, x, hx, hc⟩ := C114_placed hp hq hg hext h0 hst hf hpar h hb
  refine ⟨θ, δ, x, hx, ?_⟩
  rcases hc with ⟨rfl, rfl⟩ | ⟨-, -, h1, -⟩
  · exact min_le_left _ _
  · exact (min_le_right _ _).trans h1

/-- **C114.** For the default feet there is room for all turns. -/
theorem C114_default {p : FootParameters ℝ} (hw : p.footWidth = FootParameters.default.footWidth)
    (hl : p.footLength = FootParameters.default.footLength) (hd : p.feetDistDefault = FootParameters.default.feetDistDefault)
    (hm : p.minFeetDist = FootParameters.default.minFeetDist) :
    p.footWidth < p.feetDistDefault ∧ ∀ δ, RoomForTurn p δ := by
  norm_num [FootParameters.default] at hw hl hd hm
  refine ⟨by rw [hw, hd]; norm_num, fun δ => ?_⟩
  unfold RoomForTurn
  rw [hw, hl, hm]
  linarith [Real.abs_cos_le_one δ, Real.abs_sin_le_one δ]

end

/-! ### The hypotheses are met -/

/-- There is room for all turns up to a half of the robot in the example of C112. -/
theorem feet20_room {δ : ℝ} (h : |δ| ≤ 1 / 2) : RoomForTurn feet20 δ := by
  unfold RoomForTurn
  have h2 := Real.abs_cos_le_one δ
  have h3 : |Real.sin δ| ≤ |δ| := Real.abs_sin_le_abs
  norm_num [feet20]
  linarith

/-- The default walk of 74 iterations with turns up to a half: all hypotheses are met. -/
example (nan : ℝ) (u : ℕ → Memory) (w : WalkParameters) (hw : |w.theta_increment| ≤ 1 / 2) (fixed : Bool) (v : Hotstart) : ∃ ext q s0 s,
    TrustedSolver ext ∧ MPCParameters.make 16 100 100 100 = .ok q ∧ ProgramStart FSMParams.default q (defaultSetup fixed false) s0 ∧
    Stands s0.model ∧ SaneFeet s0.model.params ∧ ParallelFeet s0.model ∧ s0.model.params.footWidth < s0.model.params.feetDistDefault ∧
    RoomForTurn s0.model.params w.theta_increment ∧ RunAfter v ext nan 100 (fun _ => w) s0 74 s := by
  obtain ⟨ext, h1, h2⟩ := exists_solver
  obtain ⟨q, hq⟩ : ∃ q, MPCParameters.make 16 100 100 100 = .ok q := ⟨_, rfl⟩
  obtain ⟨s0, h0, hm⟩ := program_of (m := pushed nan 0) (p := FSMParams.default) (q := q) rfl one_pos rfl rfl (defaultSetup fixed false)
  obtain ⟨s, -, e⟩ := C106_completes (nan := nan) v default_loop hq rfl h1 h2 h0 (by rw [hm]; exact feet20_sane) u w (fun _ _ => 0)
  exact ⟨ext, q, s0, s, h1, hq, h0, by rw [hm]; exact pushed_stands nan 0, by rw [hm]; exact feet20_sane,
    by rw [hm]; exact (pushed_balanced nan 0).1, by rw [hm]; norm_num [pushed, feet20], by rw [hm]; exact feet20_room hw, e⟩

end Humoto.Wpg
