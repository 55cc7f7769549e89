import Verif.Lemmas.WpgRotations
import Verif.Props.WpgHorizon

/-!
# When the horizon of the walking pattern generator can be used for the matrices
-/

namespace Humoto.Wpg

open Spec Spec.Wpg
open Pepper (ofMatrix2)

theorem Horizon.getWalkState_ok {H : Horizon} {i : ℕ} (hi : i < H.intervals.n) {s : WalkState} :
    H.getWalkState i = .ok s ↔ H.walk_states[(H.intervals.e i).state_index]? = some s := by
  unfold Horizon.getWalkState Vec.get nth
  rw [if_pos hi, ok_bind]
  cases H.walk_states[(H.intervals.e i).state_index]? with
  | none => exact ⟨fun e => (by cases e), fun e => (by cases e)⟩
  | some x => exact ⟨fun e => (by cases e; rfl), fun e => (by cases e; rfl)⟩

/-- Walk states of a horizon. -/
theorem state_index_eq {N T Ttds : ℕ} {height : ℝ} {l : List Stance} {H : Horizon} (hF : FollowsWalk N T Ttds height l H) :
    ∀ i < N, (H.intervals.e i).state_index = firstSupport l + 2 * stepsBy H i
  | 0, _ => by rw [hF.first, stepsBy_zero fun k hk => (hF.range k hk).1, Nat.mul_zero, Nat.add_zero]
  | i + 1, hi => by
    rw [hF.next i hi, state_index_eq hF i (by omega), stepsBy_next hF.sorted]
    split <;> omega

theorem firstSupport_eq {l : List Stance} {k : ℕ} (hne : l ≠ [])
    (h : ∀ (i : ℕ) (s : Stance), l[i]? = some s → (s.type = .tds ↔ (k + i) % 2 = 1)) : firstSupport l = k % 2 := by
  match l, hne with
  | s :: t, _ =>
    have := h 0 s rfl
    unfold firstSupport
    simp only
    split
    · rename_i e
      have := this.1 e
      omega
    · rename_i e
      have : ¬ (k + 0) % 2 = 1 := fun e' => e (this.2 e')
      omega

/-- What a formed horizon consists of. -/
structure Formed (N T : ℕ) (l : List Stance) (H : Horizon) : Prop where
  pos : 0 < N
  follows : ∃ Ttds height, FollowsWalk N T Ttds height l H
  states : ∀ (i : ℕ) (s : Stance), l[i]? = some s → ∃ x, H.walk_states[i]? = some x ∧ x.rotation = rotation2 x.theta
  types : ∃ k, ∀ (i : ℕ) (s : Stance), l[i]? = some s → (s.type = .tds ↔ (k + i) % 2 = 1)
  last : ∃ s, l.getLast? = some s ∧ s.type ≠ .tds

theorem Formed.length {N T : ℕ} {l : List Stance} {H : Horizon} (h : Formed N T l H) :
    firstSupport l + 2 * H.variable_steps.length + 1 ≤ l.length ∧
    (ReachesLast N T l ↔ l.length = firstSupport l + 2 * H.variable_steps.length + 1) := by
  obtain ⟨Ttds, height, hF⟩ := h.follows
  obtain ⟨k, hk⟩ := h.types
  obtain ⟨s, hs, hst⟩ := h.last
  have hN := h.pos
  have hne : l ≠ [] := by rintro rfl; cases hs
  have hfs := firstSupport_eq hne hk
  have hpos : 0 < l.length := List.length_pos_iff.2 hne
  rw [List.getLast?_eq_getElem?] at hs
  have hpar : ¬ (k + (l.length - 1)) % 2 = 1 := fun e => hst ((hk _ s hs).2 e)
  have hidx := state_index_eq hF (N - 1) (by omega)
  rw [stepsBy_last fun k hk => by have := (hF.range k hk).2; omega] at hidx
  obtain ⟨s', hs', -⟩ := hF.supports (N - 1) (by omega)
  rw [hidx] at hs'
  have hlt := (List.getElem?_eq_some_iff.mp hs').1
  refine ⟨by omega, ?_⟩
  generalize hn : H.variable_steps.length = n at *
  unfold ReachesLast
  obtain ⟨q, hq⟩ : ∃ q, l.length = firstSupport l + 2 * q + 1 := ⟨(l.length - 1) / 2, by omega⟩
  rw [hq]
  cases q with
  | zero =>
    have : n = 0 := by omega
    subst this
    rw [show firstSupport l + 2 * 0 + 1 - 2 = 0 by omega]
    exact ⟨fun _ => rfl, fun _ => hN⟩
  | succ q =>
    rw [show firstSupport l + 2 * (q + 1) + 1 - 2 = 2 * q + firstSupport l + 1 by omega]
    constructor
    · intro hc
      have := hF.allSteps q hc
      omega
    · intro e
      have hq' : q < H.variable_steps.length := by omega
      have := hF.steps q _ (List.getElem?_eq_getElem hq')
      rw [← this]
      exact (hF.range _ (List.getElem_mem hq')).2

theorem Formed.supports {N T : ℕ} {l : List Stance} {H : Horizon} (h : Formed N T l H) (j : ℕ) :
    (supportsOf H.walk_states)[j]? = H.walk_states.dropLast[firstSupport l + 2 * j]? := by
  obtain ⟨Ttds, height, hF⟩ := h.follows
  obtain ⟨k, hk⟩ := h.types
  obtain ⟨s, hs, hst⟩ := h.last
  have hne : l ≠ [] := by rintro rfl; cases hs
  have hfs := firstSupport_eq hne hk
  refine filter_alternating _ _ _ (by omega) ?_ j
  intro i x hx
  have hi : i < H.walk_states.length - 1 := by
    have := (List.getElem?_eq_some_iff.mp hx).1
    simpa using this
  rw [dropLast_get hi] at hx
  have hl : l[i]? = some x.stance := by
    rw [← hF.stances, List.getElem?_map, hx]
    rfl
  have := hk i _ hl
  simp only [ne_eq, decide_not, Bool.not_eq_true', decide_eq_false_iff_not]
  rw [this]
  omega

theorem Formed.lengths {N T : ℕ} {l : List Stance} {H : Horizon} (h : Formed N T l H) : H.walk_states.length = l.length := by
  obtain ⟨Ttds, height, hF⟩ := h.follows
  rw [← hF.stances, List.length_map]

theorem Formed.usable {N T : ℕ} {l : List Stance} {H : Horizon} (h : Formed N T l H) (hr : ReachesLast N T l) {height : ℝ}
    (hh : ∀ i < H.intervals.n, (H.intervals.e i).com_height = height ∧ (H.intervals.e i).omega = PointMass6z.getOmega height) :
    ∃ R r, Usable H height R r := by
  obtain ⟨Ttds, height', hF⟩ := h.follows
  have hlen := h.length.2.1 hr
  have hws := h.lengths
  have hne : H.walk_states ≠ [] := by
    rw [← List.length_pos_iff, hws, hlen]
    omega
  have hsup : (supportsOf H.walk_states).length ≤ H.variable_steps.length := by
    rw [← List.getElem?_eq_none_iff, h.supports, List.getElem?_eq_none_iff, List.length_dropLast]
    omega
  obtain ⟨R, eR, hR⟩ := formR_ok hne hsup
  have hget : ∀ i < N, ∃ x, H.walk_states[(H.intervals.e i).state_index]? = some x ∧ x.rotation = rotation2 x.theta := by
    intro i hi
    obtain ⟨s, hs, -⟩ := hF.supports i hi
    exact h.states _ s hs
  have hn := hF.size
  refine ⟨R, fun j => match H.walk_states[firstSupport l + 2 * j]? with | some s => s.rotation | none => 0, ?_⟩
  refine ⟨by rw [hn]; exact h.pos, hF.sorted, by rw [hn]; exact hF.range, ?_, ⟨eR, hR.br, hR.bc, hR.blk.congr ?_⟩, ?_, hh⟩
  · intro i hi
    obtain ⟨x, hx, hx'⟩ := hget i (by omega)
    exact ⟨x, (Horizon.getWalkState_ok hi).2 hx, hx'⟩
  · intro i j p q hi hj hp hq
    unfold diagL
    rw [List.getElem?_map, h.supports, dropLast_get (by omega)]
    have hx : H.walk_states[firstSupport l + 2 * i]? = some H.walk_states[firstSupport l + 2 * i] := List.getElem?_eq_getElem (by omega)
    simp only [hx, Option.map_some]
  · intro j k s hk hs
    have hkr := hF.range k (List.mem_of_getElem? hk)
    rw [Horizon.getWalkState_ok (by omega), state_index_eq hF _ (by omega),
      stepsBy_before hF.sorted (fun k hk => (hF.range k hk).1) hk] at hs
    simp only [hs]

theorem Formed.not_usable {N T : ℕ} {l : List Stance} {H : Horizon} (h : Formed N T l H) (hr : ¬ ReachesLast N T l) :
    formR H = .error .ub := by
  have hlen := h.length
  have hne' : ¬ l.length = firstSupport l + 2 * H.variable_steps.length + 1 := fun e => hr (hlen.2.2 e)
  have hws := h.lengths
  refine formR_ub (by rw [← List.length_pos_iff]; omega) ?_
  by_contra hc
  rw [not_lt, ← List.getElem?_eq_none_iff, h.supports, List.getElem?_eq_none_iff, List.length_dropLast] at hc
  omega

/-- A horizon which has been formed. -/
theorem formed_of {c : Stance} {p : FSMParams} {f : FSM} (h : StanceReachable c p f) (hp : Proper p)
    (hf : f.time < f.cur.duration) {q : MPCParameters} (hN : q.preview_horizon_length < 2 ^ 63) {nan : ℝ} {junk : ℕ → Interval}
    {old H : Horizon} {m : Model} {w : WalkParameters} (hr : FormReturns nan junk old q m f w (.ok (true, H))) :
    ∃ l, PreviewReturns f (q.preview_horizon_length * q.sampling_time_ms) (.ok l) ∧
      CompletePreview f (q.preview_horizon_length * q.sampling_time_ms) l ∧
      FollowsWalk q.preview_horizon_length q.sampling_time_ms q.tds_sampling_time_ms m.getCoMHeight l H ∧
      Formed q.preview_horizon_length q.sampling_time_ms l H := by
  obtain ⟨l, hl, hc, hF⟩ := C51_horizon h hp hf hN hr
  have hd : 0 < q.preview_horizon_length * q.sampling_time_ms := by
    obtain ⟨s, m, x, extra, -, -, h3, h4, -⟩ := hc
    omega
  obtain ⟨l', hl', ho, -⟩ := C51_outcome h hp hf hN hd nan junk old m w
  cases preview_unique hl hl'
  obtain ⟨-, hre, -⟩ := ho.1 ⟨H, hr⟩
  obtain ⟨side, k, h1, h2⟩ := reachable_inv hp h
  obtain ⟨hacc, hlast, -⟩ := complete_accepted h1 h2 hc hre
  obtain ⟨l2, _, _, _, _, hE, hmap, -⟩ := formed_entries h hp hf hN hr
  have el : l2 = l := hmap.symm.trans hF.stances
  subst el
  refine ⟨l2, hl, hc, hF, Nat.pos_of_mul_pos_right hd, ⟨_, _, hF⟩, ?_, ⟨k, fun i s hs => (hacc i s hs).2⟩, hlast⟩
  intro i s hs
  obtain ⟨x, hx, hx'⟩ := hE i s hs
  exact ⟨x, hx, hx'.rotation⟩

end Humoto.Wpg
