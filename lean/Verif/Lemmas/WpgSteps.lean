import Verif.Props.WpgLoop

/-!
# Walking pattern generator: number of steps in consecutive horizons
-/

namespace Humoto.Wpg

open Spec Spec.Wpg

/-- Transitions are not shorter than the sampling time. -/
theorem pairsCapacity_least {T : ℕ} : ∀ {l : List Stance}, (∀ i s, l[i]? = some s → i % 2 = 0 → T ≤ s.duration) →
    T * pairsCapacity T l ≤ (l.map (·.duration)).sum
  | [], _ => by simp [pairsCapacity]
  | [s], _ => by simp [pairsCapacity]
  | a :: b :: rest, h => by
    have ha := h 0 a rfl rfl
    have ih := pairsCapacity_least (l := rest) (fun i s hs hi => h (i + 2) s (by simpa using hs) (by omega))
    show T * (1 + b.duration / T + pairsCapacity T rest) ≤ a.duration + (b.duration + (rest.map (·.duration)).sum)
    have hb := Nat.mul_div_le b.duration T
    rw [Nat.mul_add, Nat.mul_add, Nat.mul_one]
    omega

theorem capacity_least {T k : ℕ} (hT : 0 < T) {l : List Stance}
    (hpar : ∀ (i : ℕ) (s : Stance), l[i]? = some s → (s.type = .tds ↔ (k + i) % 2 = 1))
    (h : ∀ (i : ℕ) (s : Stance), l[i]? = some s → T ∣ s.duration ∧ T ≤ s.duration) :
    T * capacity T l ≤ (l.map (·.duration)).sum := by
  match l with
  | [] => simp [capacity]
  | s :: rest =>
    by_cases ht : s.type = .tds
    · simp only [capacity, if_pos ht]
      exact pairsCapacity_least fun i t hs _ => (h i t hs).2
    · simp only [capacity, if_neg ht]
      have hb := pairsCapacity_least (T := T) (l := rest) fun i t hs _ => (h (i + 1) t (by simpa using hs)).2
      obtain ⟨c, hc⟩ := (h 0 s rfl).1
      have e : (s.duration + T - 1) / T = c := by
        rw [hc, Nat.add_sub_assoc hT, Nat.mul_add_div hT, Nat.div_eq_of_lt (by omega), Nat.add_zero]
      rw [e, List.map_cons, List.sum_cons, Nat.mul_add, ← hc]
      omega

section
variable {p : FSMParams} {N T : ℕ} {side : StanceType} {k : ℕ} {f : FSM}

/-- States of a run of the machine: the time which remains in them is a multiple of the sampling time. -/
theorem run_remaining (hp : LoopParameters p N T) (h : MachineInv p T side k f) {s : ℕ → FSM} {m : ℕ} (hr : RunTo f s m) {i : ℕ}
    (hi : i ≤ m) : T ∣ remaining (s i) ∧ T ≤ remaining (s i) := by
  match i, hi with
  | 0, _ => rw [hr.1]; exact h.remaining hp
  | i + 1, hi =>
    have hI := runTo_inv h.ok h.inv hr hi
    have ht := (shiftStance_time (hr.2 i (by omega))).1
    have hu : (s (i + 1)).cur.type ≠ .undefined := by rw [hI.type]; exact (walkType_legal h.ok).defined _
    have hN : 0 < N * T := Nat.mul_pos (by have := hp.horizon.1; omega) hp.sampling
    have key : T ∣ (s (i + 1)).cur.duration ∧ 0 < (s (i + 1)).cur.duration := by
      rw [hI.duration, if_neg (by omega)]
      cases e : (s (i + 1)).cur.type with
      | undefined => exact absurd e hu
      | ds => exact ⟨hp.last.1, by have := hp.last.2; simp only [dur]; omega⟩
      | lss => exact hp.single
      | rss => exact hp.single
      | tds =>
        simp only [dur]
        rw [hp.transition]
        exact ⟨dvd_refl T, hp.sampling⟩
    unfold Spec.remaining
    rw [ht, Nat.sub_zero]
    exact ⟨key.1, Nat.le_of_dvd key.2 key.1⟩

theorem sum_shown (s : ℕ → FSM) (m : ℕ) : (((List.range m).map (fun i => shown (s i) (remaining (s i)))).map (·.duration)).sum =
    ∑ i ∈ Finset.range m, remaining (s i) := by
  induction m with
  | zero => rfl
  | succ m ih => rw [List.range_succ, List.map_append, List.map_append, List.sum_append, ih, Finset.sum_range_succ]; simp [shown]

/-- Position in the run at which a preview ends. -/
structure EndsAt (f : FSM) (d : ℕ) (s : ℕ → FSM) (m : ℕ) : Prop where
  run : RunTo f s m
  before : ∑ i ∈ Finset.range m, remaining (s i) < d
  after : d ≤ ∑ i ∈ Finset.range (m + 1), remaining (s i)

/-- Steps of the horizon are the ends of supports before the end of the preview. -/
theorem steps_count (hp : LoopParameters p N T) (h : MachineInv p T side k f) {l : List Stance} (hc : CompletePreview f (N * T) l)
    {height : ℝ} {H : Horizon} (hW : FollowsWalk N T T height l H) :
    ∃ s m, EndsAt f (N * T) s m ∧ ∀ j, j < H.variable_steps.length ↔ 2 * j + k % 2 < m := by
  have hT := hp.sampling
  obtain ⟨hacc, hlast, hdurs, htd, -⟩ := complete_accepted h.ok h.inv hc h.not_reentered
  have hpar : ∀ i s, l[i]? = some s → (s.type = .tds ↔ (k + i) % 2 = 1) := fun i s hs => (hacc i s hs).2
  have hcap : N ≤ capacity T l := by
    refine capacity_bound (k := k) hT hpar hlast ?_ ?_ ((C25_sum (f := f)).1 hc)
    · exact fun i s hs ht => (htd i s hs ht).trans (by rw [hp.transition])
    · intro i s hs hi ht hi'
      rw [(hdurs i s hs hi).2 ht hi']
      exact hp.single.1
  obtain ⟨s, m, x, extra, hr, rfl, hsum, hx, hxr, hnt, he1, he2⟩ := hc
  have hfs : ∀ r, firstSupport ((List.range m).map (fun i => shown (s i) (remaining (s i))) ++ [shown (s m) x] ++ extra) = r → r = k % 2 := by
    intro r hrr
    obtain ⟨a, rest, hal⟩ : ∃ a rest, (List.range m).map (fun i => shown (s i) (remaining (s i))) ++ [shown (s m) x] ++ extra = a :: rest := by
      cases hh : (List.range m).map (fun i => shown (s i) (remaining (s i))) ++ [shown (s m) x] ++ extra with
      | nil => simp at hh
      | cons a rest => exact ⟨a, rest, rfl⟩
    rw [hal] at hpar hrr
    have h0 := hpar 0 a rfl
    rw [← hrr]
    unfold firstSupport
    simp only
    split
    · next ht => have := h0.1 ht; omega
    · next ht =>
      have : ¬ (k + 0) % 2 = 1 := fun e => ht (h0.2 e)
      omega
  have hfs := hfs _ rfl
  have hlen : ((List.range m).map (fun i => shown (s i) (remaining (s i))) ++ [shown (s m) x] ++ extra).length = m + 1 + extra.length := by
    simp
    omega
  have hmt : (s m).cur.type = .tds ↔ (k + m) % 2 = 1 := by
    have := hpar m (shown (s m) x) (by
      rw [List.append_assoc, List.getElem?_append_right (by simp)]
      simp)
    exact this
  refine ⟨s, m, ⟨hr, by omega, by rw [Finset.sum_range_succ]; omega⟩, fun j => ⟨fun hj => ?_, fun hj => ?_⟩⟩
  · by_contra hne
    have hk := hW.steps j _ (List.getElem?_eq_getElem hj)
    have hlt := (hW.range _ (List.getElem_mem hj)).2
    rw [hfs, List.take_of_length_le, ] at hk
    · omega
    · rw [hlen]
      by_cases ht : (s m).cur.type = .tds
      · obtain ⟨g, -, e⟩ := he2 ht
        have := hmt.1 ht
        rw [e]
        simp only [List.length_cons, List.length_nil]
        omega
      · rw [he1 ht]
        simp only [List.length_nil]
        omega
  · refine hW.allSteps j ?_
    rw [hfs]
    have htake : ((List.range m).map (fun i => shown (s i) (remaining (s i))) ++ [shown (s m) x] ++ extra).take (2 * j + k % 2 + 1) =
        (List.range (2 * j + k % 2 + 1)).map (fun i => shown (s i) (remaining (s i))) := by
      rw [List.append_assoc, List.take_append_of_le_length (by simp; omega), ← List.map_take, List.take_range, Nat.min_eq_left (by omega)]
    have hle := capacity_least (T := T) (k := k) hT
      (l := (List.range (2 * j + k % 2 + 1)).map (fun i => shown (s i) (remaining (s i))))
      (fun i t ht => hpar i t (by
        rw [← htake, List.getElem?_take] at ht
        split at ht
        · exact ht
        · cases ht)) (fun i t ht => by
        rw [List.getElem?_map] at ht
        obtain ⟨i', hi', rfl⟩ := Option.map_eq_some_iff.1 ht
        obtain ⟨hi1, hi2⟩ := List.getElem?_eq_some_iff.1 hi'
        rw [List.length_range] at hi1
        rw [List.getElem_range] at hi2
        subst hi2
        exact run_remaining hp h hr (by omega))
    rw [htake]
    rw [sum_shown] at hle
    have hs : ∑ i ∈ Finset.range (2 * j + k % 2 + 1), remaining (s i) ≤ ∑ i ∈ Finset.range m, remaining (s i) :=
      Finset.sum_le_sum_of_subset (Finset.range_mono (by omega))
    by_contra hne
    have := Nat.mul_le_mul_left T (Nat.le_of_not_lt hne)
    rw [Nat.mul_comm N T] at hsum
    omega

/-- States of two runs from the same state are the same. -/
theorem run_unique {s s' : ℕ → FSM} {m m' : ℕ} (h : RunTo f s m) (h' : RunTo f s' m') {i : ℕ} (hi : i ≤ m) (hi' : i ≤ m') : s i = s' i := by
  induction i with
  | zero => rw [h.1, h'.1]
  | succ i ih =>
    have e := h.2 i (by omega)
    rw [ih (by omega) (by omega), h'.2 i (by omega)] at e
    exact (Except.ok.inj e).symm

/-- One sampling time later within the same stance. -/
theorem ends_same (hp : LoopParameters p N T) (h : MachineInv p T side k f) {g : FSM} (hg : g = { f with tdsStarted := false, time := f.time + T })
    (hM : MachineInv p T side k g) {s s' : ℕ → FSM} {m m' : ℕ} (e : EndsAt f (N * T) s m) (e' : EndsAt g (N * T) s' m') :
    m' = m ∨ m' = m + 1 := by
  have hstep : g.shiftStance = f.shiftStance := by rw [hg]; exact shiftStance_indep f false (f.time + T)
  have hsame : ∀ i, 0 < i → i ≤ m → i ≤ m' → s i = s' i := by
    intro i
    induction i with
    | zero => intro h; omega
    | succ i ih =>
      intro _ h1 h2
      have a := e.run.2 i (by omega)
      have b := e'.run.2 i (by omega)
      by_cases h0 : i = 0
      · subst h0
        rw [e.run.1] at a
        rw [e'.run.1, hstep, a] at b
        exact Except.ok.inj b
      · rw [ih (by omega) (by omega) (by omega), b] at a
        exact (Except.ok.inj a).symm
  have hrem : remaining g + T = remaining f := by
    have := hM.inside
    rw [hg] at this ⊢
    unfold Spec.remaining
    simp only at this ⊢
    omega
  have hsum : ∀ n, n ≤ m → n ≤ m' → ∑ i ∈ Finset.range (n + 1), remaining (s' i) + T = ∑ i ∈ Finset.range (n + 1), remaining (s i) := by
    intro n
    induction n with
    | zero =>
      intro _ _
      rw [Finset.sum_range_one, Finset.sum_range_one, e.run.1, e'.run.1]
      exact hrem
    | succ n ih =>
      intro h1 h2
      rw [Finset.sum_range_succ _ (n + 1), Finset.sum_range_succ _ (n + 1), hsame (n + 1) (by omega) h1 h2, ← ih (by omega) (by omega)]
      omega
  have hge : m ≤ m' := by
    by_contra hlt
    have a := hsum m' (by omega) (le_refl _)
    have b : ∑ i ∈ Finset.range (m' + 1), remaining (s i) ≤ ∑ i ∈ Finset.range m, remaining (s i) :=
      Finset.sum_le_sum_of_subset (Finset.range_mono (by omega))
    have := e.before
    have := e'.after
    omega
  by_contra hne
  have a := hsum m (le_refl _) hge
  have b : ∑ i ∈ Finset.range (m + 1 + 1), remaining (s' i) ≤ ∑ i ∈ Finset.range m', remaining (s' i) :=
    Finset.sum_le_sum_of_subset (Finset.range_mono (by omega))
  rw [Finset.sum_range_succ _ (m + 1)] at b
  have c := (run_remaining hp hM e'.run (i := m + 1) (by omega)).2
  have := e.after
  have := e'.before
  omega

/-- One sampling time later in the next stance. -/
theorem ends_next (hp : LoopParameters p N T) (h : MachineInv p T side k f) {g : FSM} (hg : f.shiftStance = .ok g) (hrem : remaining f = T)
    (hM : MachineInv p T side (k + 1) g) {s s' : ℕ → FSM} {m m' : ℕ} (e : EndsAt f (N * T) s m) (e' : EndsAt g (N * T) s' m') :
    m' + 1 = m ∨ m' = m := by
  have hsame : ∀ i, i + 1 ≤ m → i ≤ m' → s (i + 1) = s' i := by
    intro i
    induction i with
    | zero =>
      intro h1 h2
      have a := e.run.2 0 (by omega)
      rw [e.run.1, hg] at a
      rw [e'.run.1]
      exact (Except.ok.inj a).symm
    | succ i ih =>
      intro h1 h2
      have a := e.run.2 (i + 1) (by omega)
      have b := e'.run.2 i (by omega)
      rw [ih (by omega) (by omega), b] at a
      exact (Except.ok.inj a).symm
  have hsum : ∀ n, n ≤ m → n ≤ m' + 1 → 0 < n + 1 →
      ∑ i ∈ Finset.range n, remaining (s' i) + T = ∑ i ∈ Finset.range (n + 1), remaining (s i) := by
    intro n
    induction n with
    | zero =>
      intro _ _ _
      rw [Finset.sum_range_zero, Finset.sum_range_one, e.run.1, hrem, Nat.zero_add]
    | succ n ih =>
      intro h1 h2 _
      rw [Finset.sum_range_succ _ (n + 1), Finset.sum_range_succ _ n, hsame n (by omega) (by omega), ← ih (by omega) (by omega) (by omega)]
      omega
  have hN : T < N * T := by
    have := hp.horizon.1
    have := hp.sampling
    nlinarith
  have hge : m ≤ m' + 1 := by
    by_contra hlt
    have a := hsum (m' + 1) (by omega) (le_refl _) (by omega)
    have b : ∑ i ∈ Finset.range (m' + 1 + 1), remaining (s i) ≤ ∑ i ∈ Finset.range m, remaining (s i) :=
      Finset.sum_le_sum_of_subset (Finset.range_mono (by omega))
    have := e.before
    have := e'.after
    omega
  by_contra hne
  have a := hsum m (le_refl _) hge (by omega)
  have b : ∑ i ∈ Finset.range (m + 1), remaining (s' i) ≤ ∑ i ∈ Finset.range m', remaining (s' i) :=
    Finset.sum_le_sum_of_subset (Finset.range_mono (by omega))
  rw [Finset.sum_range_succ _ m] at b
  have c := (run_remaining hp hM e'.run (i := m) (by omega)).2
  have := e.after
  have := e'.before
  omega

end

/-- The number of steps in the horizon changes by at most one between iterations. -/
theorem steps_change {p : FSMParams} {N T : ℕ} (hp : LoopParameters p N T) {q : MPCParameters} (hq : MPCParameters.make N T T T = .ok q)
    {n : ℕ} {s s' : LoopState} {side : StanceType} {k k' : ℕ} (h : LoopInv p N T q n s side k) (h' : LoopInv p N T q (n + 1) s' side k')
    (hk : (k' = k ∧ s'.fsm = { s.fsm with tdsStarted := false, time := s.fsm.time + T } ∧ s.fsm.cur.type ≠ .tds) ∨
        (k' = k + 1 ∧ remaining s.fsm = T ∧ s.fsm.shiftStance = .ok s'.fsm)) {nan : ℝ} {junkH junkH' : ℕ → Interval}
    {junk junk' : ℕ → ℕ → ℕ → ℕ → ℝ} {junkI junkI' : ℕ → ℕ → ℕ} {w w' : WalkParameters} {mpc mpc' : Mpc}
    (hu : UpdateReturns nan junkH junk junkI s.model s.fsm w s.mpc (.ok (mpc, .ok)))
    (hu' : UpdateReturns nan junkH' junk' junkI' s'.model s'.fsm w' s'.mpc (.ok (mpc', .ok))) :
    mpc'.horizon.variable_steps.length ≤ mpc.horizon.variable_steps.length + 1 ∧
      mpc.horizon.variable_steps.length ≤ mpc'.horizon.variable_steps.length + 1 ∧ mpc.horizon.intervals.n = N ∧
      mpc'.horizon.intervals.n = N := by
  obtain ⟨e1, e2, -, e3, -⟩ := C55_derived hq
  have key : ∀ {n : ℕ} {s : LoopState} {k : ℕ} (_ : LoopInv p N T q n s side k) {junkH : ℕ → Interval}
    {junk : ℕ → ℕ → ℕ → ℕ → ℝ} {junkI : ℕ → ℕ → ℕ} {w : WalkParameters} {mpc : Mpc}
    (_ : UpdateReturns nan junkH junk junkI s.model s.fsm w s.mpc (.ok (mpc, .ok))),
      mpc.horizon.intervals.n = N ∧ ∃ r m, EndsAt s.fsm (N * T) r m ∧ ∀ j, j < mpc.horizon.variable_steps.length ↔ 2 * j + k % 2 < m := by
    intro n s k h junkH junk junkI w mpc hu
    have hpar := h.parameters
    have hM := h.machine
    have hN63 : s.mpc.parameters.preview_horizon_length < 2 ^ 63 := by rw [hpar, e1]; exact hp.horizon.2
    have hN : 0 < N * T := Nat.mul_pos (by have := hp.horizon.1; omega) hp.sampling
    obtain ⟨hc, hmp, -, l, hl, hW⟩ := C75_matrices hM.reach hp.proper hM.inside hN63 (by rw [hpar, e3]; exact hp.sampling) h.height hu
    obtain ⟨H, m, hH, -, hmpc⟩ := update_ok hu
    obtain ⟨l', hl', ho, -⟩ := C51_outcome hM.reach hp.proper hM.inside (q := s.mpc.parameters) hN63
      (by rw [hpar, e1, e2]; exact hN) nan junkH s.mpc.horizon s.model w
    have hcomp := (ho.1 ⟨H, hH⟩).1
    cases preview_unique hl hl'
    rw [hpar, e1, e2] at hcomp hW
    rw [e3] at hW
    exact ⟨hW.size, steps_count hp hM hcomp hW⟩
  obtain ⟨hn, r, m, he, hs⟩ := key h hu
  obtain ⟨hn', r', m', he', hs'⟩ := key h' hu'
  have hm : (m' = m ∨ m' = m + 1) ∧ k' = k ∨ (m' + 1 = m ∨ m' = m) ∧ k' = k + 1 := by
    rcases hk with ⟨rfl, hf, -⟩ | ⟨rfl, hr, hf⟩
    · exact .inl ⟨ends_same hp h.machine hf h'.machine he he', rfl⟩
    · exact .inr ⟨ends_next hp h.machine hf hr h'.machine he he', rfl⟩
  generalize mpc.horizon.variable_steps.length = a at *
  generalize mpc'.horizon.variable_steps.length = b at *
  refine ⟨?_, ?_, hn, hn'⟩
  · by_contra hlt
    have h1 := (hs' (a + 1)).1 (by omega)
    have h2 := fun c => (hs a).2 c
    have : ¬ 2 * a + k % 2 < m := fun c => by have := h2 c; omega
    omega
  · by_contra hlt
    have h1 := (hs (b + 1)).1 (by omega)
    have : ¬ 2 * b + k' % 2 < m' := fun c => by have := (hs' b).2 c; omega
    omega

end Humoto.Wpg
