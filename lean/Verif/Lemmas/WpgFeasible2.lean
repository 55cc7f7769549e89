import Verif.Lemmas.WpgFeasible

/-!
# Walking pattern generator: what is known about a horizon of the loop
-/

namespace Humoto.Wpg

open Spec Spec.Wpg

/-- What is known about the horizon of an iteration. -/
structure Planned (p : FSMParams) (N T : ℕ) (side : StanceType) (n k : ℕ) (m : Model) (w : WalkParameters) (H : Horizon) (l : List Stance) :
    Prop where
  follows : FollowsWalk N T T m.getCoMHeight l H
  shows' : Shows p side p.numSteps k l
  firstSupport : firstSupport l = k % 2
  steps : ∀ j a, H.variable_steps[j]? = some a ↔ 0 < a ∧ a < N ∧ ¬ NoSteps p p.numSteps ∧ (k + 1) / 2 + j ≤ p.numSteps ∧
    (n + a) * T = p.firstMs + ((k + 1) / 2 + j) * (p.ssMs + p.tdsMs)
  parity : ∀ i s, l[i]? = some s → (s.type = .tds ↔ (k + i) % 2 = 1)
  positions : ∀ i < l.length, k + i ≤ 2 * p.numSteps + 2 ∧ (NoSteps p p.numSteps → k + i = 0)
  bounds : ∀ (i : ℕ) (a : WalkState), H.walk_states[i]? = some a → a.stance.type ≠ .tds →
    footBounds m.params a.stance = .ok a.fd_bounds ∧ a.cop_bounds = copBounds m.params a.stance
  turns : ∀ (j : ℕ) (a t b : WalkState), H.walk_states[j]? = some a → H.walk_states[j + 1]? = some t → H.walk_states[j + 2]? = some b →
    a.stance.type ≠ .tds → Turns m w a t b
  current : ∀ a : WalkState, H.walk_states[0]? = some a → Current m a ∧
    (a.stance.type = .tds → ∃ b, H.walk_states[1]? = some b ∧ Lands m w a.stance.prevNonTds a b)
  times : ∀ i < N, 1000 * (H.intervals.e i).T = T

section
variable {p : FSMParams} {N T : ℕ} {q : MPCParameters} {nan : ℝ} {n : ℕ} {s : LoopState}
  {side : StanceType} {k : ℕ} {w : WalkParameters} {mpc : Mpc} {junkH : ℕ → Interval} {junk : ℕ → ℕ → ℕ → ℕ → ℝ} {junkI : ℕ → ℕ → ℕ}

theorem planned_of (hp : LoopParameters p N T) (hq : MPCParameters.make N T T T = .ok q) (hI : LoopInv p N T q n s side k)
    (hO : n * T + N * T ≤ walkMs p) (hu : UpdateReturns nan junkH junk junkI s.model s.fsm w s.mpc (.ok (mpc, .ok))) :
    ∃ l, Planned p N T side n k s.model w mpc.horizon l := by
  obtain ⟨e1, e2, -, e3, -⟩ := C55_derived hq
  have hpar := hI.parameters
  have hM := hI.machine
  have hN63 : s.mpc.parameters.preview_horizon_length < 2 ^ 63 := by rw [hpar, e1]; exact hp.horizon.2
  obtain ⟨H, m, hH, -, hmpc⟩ := update_ok hu
  have hHm : mpc.horizon = H := by rw [hmpc]
  obtain ⟨l, hl, hlc, hF⟩ := C51_horizon hM.reach hp.proper hM.inside hN63 hH
  obtain ⟨c1, m', -, -, -, -, -, c2, -⟩ := complete_shows hM.ok hM.inv hlc
  obtain ⟨hacc, -, -, -, hpos⟩ := complete_accepted hM.ok hM.inv hlc hM.not_reentered
  obtain ⟨l2, _, _, _, _, hE, hmap, -⟩ := formed_entries hM.reach hp.proper hM.inside hN63 hH
  rw [hpar, e1, e2] at hlc c2
  rw [hpar, e1, e2, e3] at hF
  obtain ⟨⟨r, m'', hT⟩, hfs⟩ := steps_timed hp hM hlc hF
  rw [hHm]
  refine ⟨l, hF, c1, hfs, steps_abs hp hI hO hT, fun i a ha => (hacc i a ha).2, hpos, fun i a ha ht => ?_, fun j a t b ha hT hb ht => ?_,
    fun a ha => C74_current hM.reach hp.proper hM.inside hN63 hH ha, fun i hi => ?_⟩
  · have la : l2[i]? = some a.stance := by rw [← hmap, List.getElem?_map, ha]; rfl
    obtain ⟨a', ha', ea⟩ := hE i _ la
    rw [ha] at ha'; cases ha'
    exact ⟨ea.fd ht, ea.cop ht⟩
  · exact (C74_turns hM.reach hp.proper hM.inside hN63 hH ha hT hb ht).2
  · rw [hF.seconds i hi]
    norm_cast
    by_cases h0 : i = 0
    · subst h0
      rw [hF.firstTime]
      obtain ⟨y, hy⟩ : ∃ y, l[0]? = some y := by
        obtain ⟨s0, h0, -⟩ := hF.supports 0 hi
        have := (List.getElem?_eq_some_iff.mp h0).1
        exact ⟨_, List.getElem?_eq_getElem (by omega)⟩
      have hyd := c2 y hy
      have hyt : y.type = s.fsm.cur.type := by
        rw [(c1 0 y hy).1, hM.inv.type]
        rfl
      obtain ⟨h1, h2⟩ := hM.remaining hp
      have hTp := hp.sampling
      have hTN : T ≤ N * T := Nat.le_mul_of_pos_left T (by omega)
      cases l with
      | nil => cases hy
      | cons z rest =>
        cases hy
        show (if y.type = .tds then y.duration else if y.duration % T = 0 then T else y.duration % T) = T
        split
        · rename_i ht
          rw [hyd, hM.transition hp (hyt ▸ ht)]
          exact min_eq_left hTN
        · rw [if_pos]
          refine Nat.mod_eq_zero_of_dvd ?_
          rw [hyd]
          rcases min_choice (remaining s.fsm) (N * T) with e | e <;> rw [e]
          · exact h1
          · exact dvd_mul_left T N
    · rw [hF.nextTimes i hi (by omega)]
      split <;> rfl

end

namespace Planned

section
variable {p : FSMParams} {N T : ℕ} {side : StanceType} {n k : ℕ} {m : Model} {w : WalkParameters} {H : Horizon} {l : List Stance}

theorem stance (h : Planned p N T side n k m w H l) {i : ℕ} {a : WalkState} (ha : H.walk_states[i]? = some a) : l[i]? = some a.stance := by
  rw [← h.follows.stances, List.getElem?_map, ha]
  rfl

theorem type (h : Planned p N T side n k m w H l) {i : ℕ} {a : WalkState} (ha : H.walk_states[i]? = some a) :
    a.stance.type = walkType p.firstStance side p.numSteps (k + i) ∧ (a.stance.type = .tds ↔ (k + i) % 2 = 1) :=
  ⟨(h.shows' i _ (h.stance ha)).1, h.parity i _ (h.stance ha)⟩

/-- Which support an interval belongs to. -/
theorem state (h : Planned p N T side n k m w H l) {i : ℕ} (hi : i < N) {a : WalkState} :
    H.getWalkState i = .ok a ↔ H.walk_states[k % 2 + 2 * stepsBy H i]? = some a := by
  rw [Horizon.getWalkState_ok (by rw [h.follows.size]; exact hi), state_index_eq h.follows i hi, h.firstSupport]

theorem exists_state (h : Planned p N T side n k m w H l) {i : ℕ} (hi : i < N) : ∃ a, H.walk_states[k % 2 + 2 * stepsBy H i]? = some a := by
  obtain ⟨s, hs, -⟩ := h.follows.supports i hi
  rw [state_index_eq h.follows i hi, h.firstSupport, ← h.follows.stances, List.getElem?_map] at hs
  obtain ⟨a, ha, -⟩ := Option.map_eq_some_iff.1 hs
  exact ⟨a, ha⟩

end

section
variable {p : FSMParams} {N T : ℕ} {side : StanceType} {n k k' : ℕ} {m m' : Model} {w w' : WalkParameters} {H H' : Horizon}
  {l l' : List Stance}

/-- Steps which are made between two iterations. -/
def made (k k' : ℕ) : ℕ := (k' + 1) / 2 - (k + 1) / 2

variable (h : Planned p N T side n k m w H l) (h' : Planned p N T side (n + 1) k' m' w' H' l') (hk : k' = k ∨ k' = k + 1)
include h h' hk

theorem next_step {j a : ℕ} : H'.variable_steps[j]? = some a ↔ 0 < a ∧ ((a + 1 < N ∧ H.variable_steps[j + made k k']? = some (a + 1)) ∨
    (a + 1 = N ∧ H'.variable_steps[j]? = some a)) := by
  have e : (k + 1) / 2 + (j + made k k') = (k' + 1) / 2 + j := by unfold made; omega
  constructor
  · intro ha
    obtain ⟨h1, h2, h3, h4, h5⟩ := (h'.steps j a).1 ha
    refine ⟨h1, ?_⟩
    by_cases hN : a + 1 = N
    · exact .inr ⟨hN, ha⟩
    · refine .inl ⟨by omega, (h.steps _ _).2 ⟨by omega, by omega, h3, by omega, ?_⟩⟩
      rw [e, ← h5]
      congr 1
      omega
  · rintro ⟨h1, ⟨h2, h3⟩ | ⟨-, h3⟩⟩
    · obtain ⟨-, -, g3, g4, g5⟩ := (h.steps _ _).1 h3
      rw [e] at g4 g5
      refine (h'.steps _ _).2 ⟨h1, by omega, g3, g4, ?_⟩
      rw [← g5]
      congr 1
      omega
    · exact h3

/-- The step which is made is the first one of the horizon. -/
theorem made_step (hm : made k k' = 1) (hs : 1 ∈ H.variable_steps) : H.variable_steps[0]? = some 1 := by
  obtain ⟨j, hj⟩ := List.mem_iff_getElem?.1 hs
  by_cases h0 : j = 0
  · rwa [h0] at hj
  · obtain ⟨b, hb⟩ : ∃ b, H.variable_steps[0]? = some b :=
      ⟨_, List.getElem?_eq_getElem (by have := (List.getElem?_eq_some_iff.1 hj).1; omega)⟩
    have h1 := (h.follows.range b (List.mem_of_getElem? hb)).1
    have := (step_le_iff h.follows.sorted hb 1)
    have h2 := (step_le_iff h.follows.sorted hj 1).1 le_rfl
    have := this.2 (by omega)
    rw [hb]
    congr 1
    omega

/-- Numbers of steps by the same moment. -/
theorem next_stepsBy (hm : 1 ∈ H.variable_steps ↔ made k k' = 1) (hm' : made k k' ≤ 1) : ∀ i, i + 1 < N →
    stepsBy H (i + 1) = stepsBy H' i + made k k' := by
  intro i
  induction i with
  | zero =>
    intro hi
    rw [stepsBy_next h.follows.sorted, stepsBy_zero fun k hk => (h.follows.range k hk).1, stepsBy_zero fun k hk => (h'.follows.range k hk).1]
    split
    · rename_i h1
      rw [hm.1 h1]
    · rename_i h1
      have : made k k' ≠ 1 := fun e => h1 (hm.2 e)
      omega
  | succ i ih =>
    intro hi
    rw [stepsBy_next h.follows.sorted, stepsBy_next h'.follows.sorted, ih (by omega)]
    have : i + 1 + 1 ∈ H.variable_steps ↔ i + 1 ∈ H'.variable_steps := by
      rw [List.mem_iff_getElem?, List.mem_iff_getElem?]
      constructor
      · rintro ⟨j, hj⟩
        have hle : made k k' ≤ j := by
          by_contra hlt
          have hm1 : made k k' = 1 := by omega
          have := made_step h h' hk hm1 (hm.2 hm1)
          rw [show j = 0 by omega, this] at hj
          have := Option.some.inj hj
          omega
        refine ⟨j - made k k', (next_step h h' hk).2 ⟨by omega, .inl ⟨by omega, ?_⟩⟩⟩
        rwa [Nat.sub_add_cancel hle]
      · rintro ⟨j, hj⟩
        rcases (next_step h h' hk).1 hj with ⟨-, ⟨-, h2⟩ | ⟨h2, -⟩⟩
        · exact ⟨_, h2⟩
        · omega
    by_cases h1 : i + 1 ∈ H'.variable_steps
    · rw [if_pos h1, if_pos (this.2 h1)]
      omega
    · rw [if_neg h1, if_neg fun e => h1 (this.1 e)]
      omega

end

end Planned

end Humoto.Wpg
