import Verif.Props.WpgStability

/-!
# Walking pattern generator: consecutive horizons
-/

namespace Humoto.Wpg

open Spec Spec.Wpg

/-! ## Times of the steps -/

theorem pairsCapacity_exact {T : ℕ} (hT : 0 < T) : ∀ {l : List Stance}, l.length % 2 = 0 →
    (∀ i s, l[i]? = some s → T ∣ s.duration ∧ (i % 2 = 0 → s.duration = T)) →
    pairsCapacity T l * T = (l.map (·.duration)).sum
  | [], _, _ => by simp [pairsCapacity]
  | [s], h, _ => by simp at h
  | a :: b :: rest, hl, h => by
    have ha := (h 0 a rfl).2 rfl
    obtain ⟨c, hc⟩ := (h 1 b rfl).1
    have ih := pairsCapacity_exact hT (l := rest) (by simp at hl; omega) (fun i s hs => by
      obtain ⟨h1, h2⟩ := h (i + 2) s (by simpa using hs)
      exact ⟨h1, fun e => h2 (by omega)⟩)
    show (1 + b.duration / T + pairsCapacity T rest) * T = a.duration + (b.duration + (rest.map (·.duration)).sum)
    rw [← ih, ha, hc, Nat.mul_div_cancel_left _ hT]
    ring

theorem capacity_exact {T k : ℕ} (hT : 0 < T) {l : List Stance} (hpar : ∀ (i : ℕ) (s : Stance), l[i]? = some s → (s.type = .tds ↔ (k + i) % 2 = 1))
    (hl : (k + l.length) % 2 = 1) (h : ∀ (i : ℕ) (s : Stance), l[i]? = some s → T ∣ s.duration ∧ (s.type = .tds → s.duration = T)) :
    capacity T l * T = (l.map (·.duration)).sum := by
  match l with
  | [] => simp [capacity]
  | s :: rest =>
    have h0 := hpar 0 s rfl
    simp only [List.length_cons] at hl
    by_cases ht : s.type = .tds
    · have := h0.1 ht
      simp only [capacity, if_pos ht]
      exact pairsCapacity_exact hT (by simp only [List.length_cons]; omega) fun i t hs =>
        ⟨(h i t hs).1, fun hi => (h i t hs).2 ((hpar i t hs).2 (by omega))⟩
    · have hk : k % 2 = 0 := by
        by_contra hne
        exact ht (h0.2 (by omega))
      simp only [capacity, if_neg ht]
      have hb := pairsCapacity_exact hT (l := rest) (by omega) fun i t hs =>
        ⟨(h (i + 1) t (by simpa using hs)).1, fun hi => (h (i + 1) t (by simpa using hs)).2 ((hpar (i + 1) t (by simpa using hs)).2 (by omega))⟩
      obtain ⟨c, hc⟩ := (h 0 s rfl).1
      have e : (s.duration + T - 1) / T = c := by
        rw [hc, Nat.add_sub_assoc hT, Nat.mul_add_div hT, Nat.div_eq_of_lt (by omega), Nat.add_zero]
      rw [e, List.map_cons, List.sum_cons, Nat.add_mul, hb, hc]
      ring

/-- Steps of a horizon and the run of the machine. -/
structure Timed (N T k : ℕ) (f : FSM) (H : Horizon) (r : ℕ → FSM) (m : ℕ) : Prop where
  ends : EndsAt f (N * T) r m
  count : ∀ j, j < H.variable_steps.length ↔ 2 * j + k % 2 < m
  times : ∀ j a, H.variable_steps[j]? = some a → a * T = ∑ i ∈ Finset.range (2 * j + k % 2 + 1), remaining (r i)
  range : ∀ a ∈ H.variable_steps, 0 < a ∧ a < N

section
variable {p : FSMParams} {N T : ℕ} {side : StanceType} {k : ℕ} {f : FSM}

theorem steps_timed (hp : LoopParameters p N T) (h : MachineInv p T side k f) {l : List Stance} (hc : CompletePreview f (N * T) l)
    {height : ℝ} {H : Horizon} (hW : FollowsWalk N T T height l H) :
    (∃ r m, Timed N T k f H r m) ∧ firstSupport l = k % 2 := by
  have hT := hp.sampling
  obtain ⟨r, m, hE, hcount⟩ := steps_count hp h hc hW
  obtain ⟨hacc, hlast, hdurs, htd, -⟩ := complete_accepted h.ok h.inv hc h.not_reentered
  have hpar : ∀ i s, l[i]? = some s → (s.type = .tds ↔ (k + i) % 2 = 1) := fun i s hs => (hacc i s hs).2
  have hne : l ≠ [] := by
    obtain ⟨s, hs, -⟩ := hW.supports 0 (by have := hp.horizon.1; omega)
    rintro rfl
    simp at hs
  have hfs := firstSupport_eq hne hpar
  refine ⟨⟨r, m, hE, hcount, fun j a ha => ?_, hW.range⟩, hfs⟩
  have hj : 2 * j + k % 2 < m := (hcount j).1 (List.getElem?_eq_some_iff.1 ha).1
  rw [hW.steps j a ha, hfs]
  obtain ⟨s, m', x, extra, hr, rfl, hsum, hx, hxr, hnt, he1, he2⟩ := hc
  -- the two runs are the same
  have hmm : m ≤ m' := by
    by_contra hlt
    have hsame : ∑ i ∈ Finset.range (m' + 1), remaining (r i) = ∑ i ∈ Finset.range (m' + 1), remaining (s i) :=
      Finset.sum_congr rfl fun i hi => by rw [run_unique hE.run hr (by have := Finset.mem_range.1 hi; omega) (by have := Finset.mem_range.1 hi; omega)]
    have h1 : ∑ i ∈ Finset.range (m' + 1), remaining (r i) ≤ ∑ i ∈ Finset.range m, remaining (r i) :=
      Finset.sum_le_sum_of_subset (Finset.range_mono (by omega))
    have h2 := hE.before
    rw [Finset.sum_range_succ (fun i => remaining (s i))] at hsame
    omega
  have htake : ((List.range m').map (fun i => shown (s i) (remaining (s i))) ++ [shown (s m') x] ++ extra).take (2 * j + k % 2 + 1) =
      (List.range (2 * j + k % 2 + 1)).map (fun i => shown (s i) (remaining (s i))) := by
    rw [List.append_assoc, List.take_append_of_le_length (by simp; omega), ← List.map_take, List.take_range, Nat.min_eq_left (by omega)]
  have hin : ∀ (i : ℕ) (t : Stance), ((List.range (2 * j + k % 2 + 1)).map (fun i => shown (s i) (remaining (s i))))[i]? = some t →
      i < 2 * j + k % 2 + 1 ∧ t = shown (s i) (remaining (s i)) := by
    intro i t ht
    rw [List.getElem?_map] at ht
    obtain ⟨i', hi', rfl⟩ := Option.map_eq_some_iff.1 ht
    obtain ⟨hi1, hi2⟩ := List.getElem?_eq_some_iff.1 hi'
    rw [List.length_range] at hi1
    rw [List.getElem_range] at hi2
    subst hi2
    exact ⟨hi1, rfl⟩
  have hin' : ∀ (i : ℕ) (t : Stance), ((List.range (2 * j + k % 2 + 1)).map (fun i => shown (s i) (remaining (s i))))[i]? = some t →
      (t.type = .tds ↔ (k + i) % 2 = 1) := fun i t ht => hpar i t (by
    rw [← htake, List.getElem?_take] at ht
    split at ht
    · exact ht
    · cases ht)
  rw [htake, capacity_exact (k := k) hT hin' (by simp; omega), sum_shown]
  · exact Finset.sum_congr rfl fun i hi => by
      rw [run_unique hE.run hr (by have := Finset.mem_range.1 hi; omega) (by have := Finset.mem_range.1 hi; omega)]
  · intro i t ht
    have hty := hin' i t ht
    obtain ⟨hi, rfl⟩ := hin i t ht
    have hrem := run_remaining hp h hr (i := i) (by omega)
    refine ⟨hrem.1, fun e => ?_⟩
    refine le_antisymm ?_ hrem.2
    have hI := runTo_inv h.ok h.inv hr (i := i) (by omega)
    have e' : (s i).cur.type = .tds := e
    have hki : k + i ≠ 0 := by have := hty.1 e; omega
    have hd := hI.duration
    rw [if_neg hki, e', dur, hp.transition] at hd
    show remaining (s i) ≤ T
    unfold Spec.remaining
    omega

/-- Begin of transition `j` of a walk. -/
theorem restMs_even {p : FSMParams} (hz : ¬ NoSteps p p.numSteps) {j : ℕ} (hj : j ≤ p.numSteps) :
    p.firstMs + j * (p.ssMs + p.tdsMs) + restMs p (2 * j) = walkMs p := by
  have hz' : ¬ (p.firstStance = .ds ∧ p.numSteps = 0) := hz
  obtain ⟨d, hd⟩ := Nat.exists_eq_add_of_le hj
  unfold restMs walkMs
  rw [if_neg hz', if_neg hz', if_pos (by omega), show 2 * j / 2 = j by omega, show (2 * j + 1) / 2 = j by omega, hd,
    show j + d - j = d by omega, show j + d + 1 - j = d + 1 by omega]
  ring

theorem restMs_antitone {p : FSMParams} {a b : ℕ} (h : a ≤ b) : restMs p b ≤ restMs p a := by
  unfold restMs
  split
  · exact le_refl _
  · have h1 := Nat.mul_le_mul_right p.ssMs (show p.numSteps - b / 2 ≤ p.numSteps - a / 2 by omega)
    have h2 := Nat.mul_le_mul_right p.tdsMs (show p.numSteps + 1 - (b + 1) / 2 ≤ p.numSteps + 1 - (a + 1) / 2 by omega)
    split <;> split <;> omega

theorem sum_rest (h : MachineInv p T side k f) {r : ℕ → FSM} {m : ℕ} (hr : RunTo f r m) (hz : ¬ NoSteps p p.numSteps) {i : ℕ}
    (hi : i ≤ m) (hk : k + i ≤ 2 * p.numSteps + 2) :
    ∑ a ∈ Finset.range (i + 1), remaining (r a) + restMs p (k + i) = remaining f + restMs p k := by
  induction i with
  | zero => rw [Finset.sum_range_one, hr.1, Nat.add_zero]
  | succ i ih =>
    rw [Finset.sum_range_succ, ← ih (by omega) (by omega), restMs_step h.ok hz (show k + i < _ by omega)]
    have hI := runTo_inv h.ok h.inv hr hi
    have ht := (shiftStance_time (hr.2 i (by omega))).1
    have hd := hI.duration
    rw [if_neg (by omega), hI.type] at hd
    have : remaining (r (i + 1)) = dur p (walkType p.firstStance side p.numSteps (k + i + 1)) := by
      unfold Spec.remaining
      rw [ht, hd, Nat.sub_zero]
      rfl
    rw [this, show k + (i + 1) = k + i + 1 by omega]
    omega

end

/-- Steps of a horizon are the beginnings of the transitions of the walk. -/
theorem steps_abs {p : FSMParams} {N T : ℕ} (hp : LoopParameters p N T) {q : MPCParameters} {n : ℕ} {s : LoopState} {side : StanceType}
    {k : ℕ} (h : LoopInv p N T q n s side k) (hO : n * T + N * T ≤ walkMs p) {H : Horizon} {r : ℕ → FSM} {m : ℕ}
    (hT : Timed N T k s.fsm H r m) (j a : ℕ) :
    H.variable_steps[j]? = some a ↔ 0 < a ∧ a < N ∧ ¬ NoSteps p p.numSteps ∧ (k + 1) / 2 + j ≤ p.numSteps ∧
      (n + a) * T = p.firstMs + ((k + 1) / 2 + j) * (p.ssMs + p.tdsMs) := by
  have hM := h.machine
  have htime := h.time
  have hTp := hp.sampling
  have hz0 : NoSteps p p.numSteps → m = 0 := fun hz => by
    have hr0 : restMs p k = 0 := by
      unfold restMs
      exact if_pos hz
    by_contra hne
    have hb := hT.ends.before
    have : ∑ i ∈ Finset.range 1, remaining (r i) ≤ ∑ i ∈ Finset.range m, remaining (r i) :=
      Finset.sum_le_sum_of_subset (Finset.range_mono (by omega))
    rw [Finset.sum_range_one, hT.ends.run.1] at this
    omega
  have hkm : k + m ≤ 2 * p.numSteps + 2 := by
    by_cases hz : NoSteps p p.numSteps
    · have := hz0 hz
      have := hM.pos.2 hz
      omega
    by_contra hlt
    have hpos := hM.pos.1
    have hs := sum_rest hM hT.ends.run hz (i := 2 * p.numSteps + 2 - k) (by omega) (by omega)
    rw [show k + (2 * p.numSteps + 2 - k) = 2 * p.numSteps + 2 by omega] at hs
    have h0 : restMs p (2 * p.numSteps + 2) = 0 := by
      unfold restMs
      rw [if_neg (show ¬ (p.firstStance = .ds ∧ p.numSteps = 0) from hz), if_neg (by omega), show p.numSteps - (2 * p.numSteps + 2) / 2 = 0 by omega,
        show p.numSteps + 1 - (2 * p.numSteps + 2 + 1) / 2 = 0 by omega]
      omega
    have hb := hT.ends.before
    have : ∑ i ∈ Finset.range (2 * p.numSteps + 2 - k + 1), remaining (r i) ≤ ∑ i ∈ Finset.range m, remaining (r i) :=
      Finset.sum_le_sum_of_subset (Finset.range_mono (by omega))
    omega
  have key : ∀ a, H.variable_steps[j]? = some a → 0 < a ∧ a < N ∧ ¬ NoSteps p p.numSteps ∧ (k + 1) / 2 + j ≤ p.numSteps ∧
      (n + a) * T = p.firstMs + ((k + 1) / 2 + j) * (p.ssMs + p.tdsMs) := by
    intro a ha
    obtain ⟨h1, h2⟩ := hT.range a (List.mem_of_getElem? ha)
    have hj := (hT.count j).1 (List.getElem?_eq_some_iff.1 ha).1
    have hz : ¬ NoSteps p p.numSteps := fun hz => by
      have := hz0 hz
      omega
    have hs := sum_rest hM hT.ends.run hz (i := 2 * j + k % 2) (by omega) (by omega)
    have e : k + (2 * j + k % 2) = 2 * ((k + 1) / 2 + j) := by omega
    have hle : (k + 1) / 2 + j ≤ p.numSteps := by omega
    rw [← hT.times j a ha, e] at hs
    have := restMs_even hz hle
    refine ⟨h1, h2, hz, hle, ?_⟩
    rw [Nat.add_mul]
    omega
  refine ⟨key a, fun ⟨h1, h2, hz, hle, ht⟩ => ?_⟩
  have hj : 2 * j + k % 2 < m := by
    by_contra hge
    have hs := sum_rest hM hT.ends.run hz (i := m) (le_refl _) hkm
    have ha := hT.ends.after
    have hmono := restMs_antitone (p := p) (show k + m ≤ 2 * ((k + 1) / 2 + j) by omega)
    have := restMs_even hz hle
    have := Nat.mul_lt_mul_of_pos_right h2 hTp
    rw [Nat.add_mul] at ht
    omega
  have hj' := (hT.count j).2 hj
  obtain ⟨-, -, -, -, ht'⟩ := key _ (List.getElem?_eq_getElem hj')
  rw [List.getElem?_eq_getElem hj']
  have : n + H.variable_steps[j] = n + a := Nat.eq_of_mul_eq_mul_right hTp (by rw [ht', ht])
  exact congrArg some (by omega)

end Humoto.Wpg
