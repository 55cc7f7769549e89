import Verif.Lemmas.WpgUsable
import Verif.Props.PepperMpc

/-!
# Walking pattern generator: the control problem

C52, C75.
-/

namespace Humoto.Wpg

open Spec Spec.Wpg
open scoped Matrix

/-! ## C52 -/

theorem update_iff {nan : ℝ} {junkH : ℕ → Interval} {junk : ℕ → ℕ → ℕ → ℕ → ℝ} {junkI : ℕ → ℕ → ℕ} {model : Model} {f : FSM}
    {w : WalkParameters} {c : Mpc} {r : Res (Mpc × Pepper.Status)} : UpdateReturns nan junkH junk junkI model f w c r ↔
      ∃ r', FormReturns nan junkH c.horizon c.parameters model f w r' ∧ c.updateWith junk junkI r' model = r := by
  unfold UpdateReturns FormReturns Mpc.update
  constructor
  · rintro ⟨fuel, h⟩
    obtain ⟨r', h1, h2⟩ := Option.map_eq_some_iff.mp h
    exact ⟨r', ⟨fuel, h1⟩, h2⟩
  · rintro ⟨r', ⟨fuel, h1⟩, h2⟩
    exact ⟨fuel, by rw [h1]; exact congrArg some h2⟩

theorem updateWith_formed {junk : ℕ → ℕ → ℕ → ℕ → ℝ} {junkI : ℕ → ℕ → ℕ} {H : Horizon} {model : Model} {c : Mpc} :
    (∀ m, updateMatrices junk junkI c.parameters.preview_horizon_length H model = .ok m →
      c.updateWith junk junkI (.ok (true, H)) model = .ok ({ c with solution_is_parsed := false, horizon := H, matrices := m }, .ok)) ∧
    (∀ e, updateMatrices junk junkI c.parameters.preview_horizon_length H model = .error e →
      c.updateWith junk junkI (.ok (true, H)) model = .error e) := by
  unfold Mpc.updateWith
  constructor
  · intro m h
    simp only [ok_bind, if_true]
    rw [h]
    rfl
  · intro e h
    simp only [ok_bind, if_true]
    rw [h]
    rfl

/-- The matrices of a formed horizon. -/
theorem matrices_of_formed {N T : ℕ} {l : List Stance} {H : Horizon} (hF : Formed N T l H) (junk : ℕ → ℕ → ℕ → ℕ → ℝ)
    (junkI : ℕ → ℕ → ℕ) (model : Model) :
    (ReachesLast N T l → ∃ m, updateMatrices junk junkI N H model = .ok m) ∧
    (¬ ReachesLast N T l → updateMatrices junk junkI N H model = .error .ub) := by
  constructor
  · intro hr
    obtain ⟨Ttds, height, hW⟩ := hF.follows
    obtain ⟨R, r, hU⟩ := hF.usable hr (height := height) (by rw [hW.size]; exact hW.height)
    have hst : ∀ i, ∃ s, i < N → H.getWalkState i = .ok s := by
      intro i
      by_cases hi : i < N
      · obtain ⟨s, hs, -⟩ := hU.states i (by rw [hW.size]; exact hi)
        exact ⟨s, fun _ => hs⟩
      · exact ⟨(hU.states 0 hU.pos).choose, fun hi' => absurd hi' hi⟩
    choose st hst using hst
    obtain ⟨m, em, -⟩ := updateMatrices_ok junk junkI (rh := fun i => (st i).rotation) model hF.pos hW.size (by
      intro i hi
      unfold Horizon.getRotationMatrix
      rw [hst i hi, ok_bind]
      rfl) hU.matrix.1 hU.matrix.2 (fun k hk => (hW.range k hk).2)
    exact ⟨m, em⟩
  · intro hr
    unfold updateMatrices
    rw [hF.not_usable hr]
    rfl

/-- **C52.** When a horizon is formed the matrices are built without indexing outside of them if and only if it reaches the last
support of the preview. -/
theorem C52_criterion {c : Stance} {p : FSMParams} {f : FSM} (h : StanceReachable c p f) (hp : Proper p)
    (hf : f.time < f.cur.duration) {mpc : Mpc} (hN : mpc.parameters.preview_horizon_length < 2 ^ 63) {nan : ℝ}
    {junkH : ℕ → Interval} {H : Horizon} {model : Model} {w : WalkParameters}
    (hr : FormReturns nan junkH mpc.horizon mpc.parameters model f w (.ok (true, H))) (junk : ℕ → ℕ → ℕ → ℕ → ℝ)
    (junkI : ℕ → ℕ → ℕ) :
    ∃ l, PreviewReturns f (mpc.parameters.preview_horizon_length * mpc.parameters.sampling_time_ms) (.ok l) ∧
      (ReachesLast mpc.parameters.preview_horizon_length mpc.parameters.sampling_time_ms l →
        ∃ mpc', UpdateReturns nan junkH junk junkI model f w mpc (.ok (mpc', .ok)) ∧ mpc'.horizon = H) ∧
      (¬ ReachesLast mpc.parameters.preview_horizon_length mpc.parameters.sampling_time_ms l →
        UpdateReturns nan junkH junk junkI model f w mpc (.error .ub)) := by
  obtain ⟨l, hl, -, -, hF⟩ := formed_of h hp hf hN hr
  obtain ⟨m1, m2⟩ := matrices_of_formed hF junk junkI model
  refine ⟨l, hl, fun hx => ?_, fun hx => ?_⟩
  · obtain ⟨m, em⟩ := m1 hx
    exact ⟨_, update_iff.2 ⟨_, hr, updateWith_formed.1 m em⟩, rfl⟩
  · exact update_iff.2 ⟨_, hr, updateWith_formed.2 _ (m2 hx)⟩

theorem pairsCapacity_le {T : ℕ} : ∀ l : List Stance, (∀ (i : ℕ) (s : Stance), l[i]? = some s → i % 2 = 0 → T ≤ s.duration) →
    T * pairsCapacity T l ≤ (l.map (·.duration)).sum
  | [], _ => by simp [pairsCapacity]
  | [_], _ => by simp [pairsCapacity]
  | a :: b :: rest, h => by
    have h0 := h 0 a rfl rfl
    have ih := pairsCapacity_le rest fun i s hs hi => h (i + 2) s (by simpa using hs) (by omega)
    have hb : T * (b.duration / T) ≤ b.duration := Nat.mul_div_le _ _
    show T * (1 + b.duration / T + pairsCapacity T rest) ≤ a.duration + (b.duration + (rest.map (·.duration)).sum)
    rw [Nat.mul_add, Nat.mul_add]
    omega

theorem capacity_le {T : ℕ} (hT : 0 < T) {l : List Stance} {k : ℕ}
    (hk : ∀ (i : ℕ) (s : Stance), l[i]? = some s → (s.type = .tds ↔ (k + i) % 2 = 1))
    (h1 : ∀ (i : ℕ) (s : Stance), l[i]? = some s → s.type = .tds → T ≤ s.duration)
    (h0 : ∀ s, l[0]? = some s → s.type ≠ .tds → T ∣ s.duration) : T * capacity T l ≤ (l.map (·.duration)).sum := by
  match l with
  | [] => simp [capacity]
  | s :: rest =>
    have e0 := hk 0 s rfl
    simp only [capacity]
    by_cases ht : s.type = .tds
    · rw [if_pos ht]
      refine pairsCapacity_le _ fun i t hs hi => h1 i t hs ((hk i t hs).2 ?_)
      have := e0.1 ht
      omega
    · rw [if_neg ht]
      have hd := h0 s rfl ht
      have e : T * ((s.duration + T - 1) / T) = s.duration := by
        obtain ⟨x, hx⟩ := hd
        rw [hx]
        have : (T * x + T - 1) / T = x := by
          rw [show T * x + T - 1 = (T - 1) + T * x by omega, Nat.add_mul_div_left _ _ hT, Nat.div_eq_of_lt (by omega), zero_add]
        rw [this]
      have ih := pairsCapacity_le (T := T) rest fun i t hs hi => h1 (i + 1) t (by simpa using hs)
        ((hk (i + 1) t (by simpa using hs)).2 (by
          have : ¬ (k + 0) % 2 = 1 := fun e' => ht (e0.2 e')
          omega))
      rw [Nat.mul_add, e, List.map_cons, List.sum_cons]
      omega

theorem formed_not_reentered {c : Stance} {p : FSMParams} {f : FSM} (h : StanceReachable c p f) (hp : Proper p)
    (hf : f.time < f.cur.duration) {q : MPCParameters} (hN : q.preview_horizon_length < 2 ^ 63) {nan : ℝ} {junk : ℕ → Interval}
    {old H : Horizon} {m : Model} {w : WalkParameters} (hr : FormReturns nan junk old q m f w (.ok (true, H))) : ¬ Reentered f := by
  obtain ⟨l, hl, hc, -⟩ := C51_horizon h hp hf hN hr
  have hd : 0 < q.preview_horizon_length * q.sampling_time_ms := by
    obtain ⟨s, m, x, extra, -, -, h3, h4, -⟩ := hc
    omega
  obtain ⟨l', hl', ho, -⟩ := C51_outcome h hp hf hN hd nan junk old m w
  exact (ho.1 ⟨H, hr⟩).2.1

/-- **C52**, partial: if transitions are not shorter than the sampling time and the time which is left in the current support is
a multiple of it, the matrices are always built. Missing: other times, for which it fails, see `C52_refuted`. -/
theorem C52_aligned_partial {c : Stance} {p : FSMParams} {f : FSM} (h : StanceReachable c p f) (hp : Proper p)
    (hf : f.time < f.cur.duration) {mpc : Mpc} (hN : mpc.parameters.preview_horizon_length < 2 ^ 63)
    (htds : mpc.parameters.sampling_time_ms ≤ p.tdsMs)
    (h0 : if f.cur.type = .tds then mpc.parameters.sampling_time_ms ≤ remaining f else mpc.parameters.sampling_time_ms ∣ remaining f)
    {nan : ℝ} {junkH : ℕ → Interval} {H : Horizon} {model : Model} {w : WalkParameters}
    (hr : FormReturns nan junkH mpc.horizon mpc.parameters model f w (.ok (true, H))) (junk : ℕ → ℕ → ℕ → ℕ → ℝ)
    (junkI : ℕ → ℕ → ℕ) : ∃ mpc', UpdateReturns nan junkH junk junkI model f w mpc (.ok (mpc', .ok)) ∧ mpc'.horizon = H := by
  obtain ⟨l, hl, hc, -, hF⟩ := formed_of h hp hf hN hr
  have hre := (formed_not_reentered h hp hf hN hr)
  obtain ⟨l', hl', hx, -⟩ := C52_criterion h hp hf hN hr junk junkI
  cases preview_unique hl hl'
  refine hx ?_
  generalize mpc.parameters.preview_horizon_length = N at *
  generalize mpc.parameters.sampling_time_ms = T at *
  have hd : 0 < N * T := by
    obtain ⟨s, m, x, extra, -, -, h3, h4, -⟩ := hc
    omega
  have hT : 0 < T := Nat.pos_of_mul_pos_left hd
  have hsum := (C25_sum (f := f)).1 hc
  obtain ⟨side, k, w1, w2⟩ := reachable_inv hp h
  obtain ⟨hacc, -, hdurs, -⟩ := complete_accepted w1 w2 hc hre
  obtain ⟨-, m, hlen, -, -, -, hlast, hfirst, -⟩ := complete_shows w1 w2 hc
  have hcur : ∀ t, l[0]? = some t → 2 < l.length → t.type = f.cur.type ∧ t.duration = remaining f := by
    obtain ⟨s, m', x, extra, h1, h2, h3, h4, h5, h6, h7, h8⟩ := hc
    intro t ht hl2
    have hm : 0 < m' := by
      by_contra h0
      have e0 : m' = 0 := by omega
      subst e0
      have : extra.length ≤ 1 := by
        by_cases e : (s 0).cur.type = .tds
        · obtain ⟨g, -, e⟩ := h8 e
          rw [e]
          rfl
        · rw [h7 e]
          exact Nat.zero_le _
      rw [h2] at hl2
      simp at hl2
      omega
    have h2' : l[0]? = some (shown (s 0) (remaining (s 0))) := by
      rw [h2, List.append_assoc, List.getElem?_append_left (by simpa using hm), List.getElem?_map, List.getElem?_range hm]
      rfl
    rw [h2', h1.1] at ht
    cases ht
    exact ⟨rfl, rfl⟩
  unfold ReachesLast
  have htake : ∀ (i : ℕ) (t : Stance), (l.take (l.length - 2))[i]? = some t → i + 2 < l.length ∧ l[i]? = some t := by
    intro i t ht
    rw [List.getElem?_take] at ht
    split at ht
    · exact ⟨by omega, ht⟩
    · cases ht
  have hcap := capacity_le hT (l := l.take (l.length - 2)) (k := k) (fun i t ht => (hacc i t (htake i t ht).2).2) (by
      intro i t ht htt
      obtain ⟨g1, g2⟩ := htake i t ht
      rcases Nat.eq_zero_or_pos i with rfl | hi
      · obtain ⟨a1, a2⟩ := hcur t g2 (by omega)
        rw [if_pos (a1 ▸ htt)] at h0
        omega
      · rw [(hdurs i t g2 hi).1 htt g1]
        exact htds) (by
      intro t ht htt
      obtain ⟨g1, g2⟩ := htake 0 t ht
      obtain ⟨a1, a2⟩ := hcur t g2 (by omega)
      rw [if_neg (a1 ▸ htt)] at h0
      rw [a2]
      exact h0)
  have hml : m < l.length := by omega
  have hx := hlast _ (List.getElem?_eq_getElem hml)
  have hmem : l[m].duration ∈ (l.drop (l.length - 2)).map (·.duration) := by
    refine List.mem_map.2 ⟨l[m], ?_, rfl⟩
    rw [List.mem_iff_getElem?]
    refine ⟨m - (l.length - 2), ?_⟩
    rw [List.getElem?_drop, show l.length - 2 + (m - (l.length - 2)) = m by omega]
    exact List.getElem?_eq_getElem hml
  have hdrop := List.le_sum_of_mem hmem
  have htot : (l.map (·.duration)).sum = ((l.take (l.length - 2)).map (·.duration)).sum + ((l.drop (l.length - 2)).map (·.duration)).sum := by
    rw [← List.sum_append, ← List.map_append, List.take_append_drop]
  have : T * capacity T (l.take (l.length - 2)) < T * N := by
    rw [Nat.mul_comm T N]
    omega
  exact Nat.lt_of_mul_lt_mul_left this

/-- The outcome of an update in a state which is reached after the time `t`, when the preview is known. -/
theorem update_at {p : FSMParams} {f g : FSM} {t N T sub Ttds : ℕ} {q : MPCParameters} {l : List Stance} (hf : FSM.construct p = .ok f)
    (hg : Returns f t (.ok g)) (hq : MPCParameters.make N T sub Ttds = .ok q) (hp : Proper p) (ht : g.time < g.cur.duration)
    (hN : N < 2 ^ 63) (hd : 0 < N * T) (hl : PreviewReturns g (N * T) (.ok l)) (hr : ¬ Reentered g)
    (hsum : (l.map (·.duration)).sum = N * T) (hcap : N ≤ capacity T l) (nan : ℝ) (junkH : ℕ → Interval)
    (junk : ℕ → ℕ → ℕ → ℕ → ℝ) (junkI : ℕ → ℕ → ℕ) (model : Model) (w : WalkParameters) :
    (∃ H, FormReturns nan junkH (Mpc.make q).horizon q model g w (.ok (true, H)) ∧ FollowsWalk N T Ttds model.getCoMHeight l H) ∧
    (ReachesLast N T l → ∃ mpc, UpdateReturns nan junkH junk junkI model g w (Mpc.make q) (.ok (mpc, .ok))) ∧
    (¬ ReachesLast N T l → UpdateReturns nan junkH junk junkI model g w (Mpc.make q) (.error .ub)) := by
  obtain ⟨e1, e2, -, e3, -⟩ := C55_derived hq
  have hreach : StanceReachable {} p g := .shiftTime (.init hf) hg
  have hpar : (Mpc.make q).parameters = q := rfl
  have hc := (complete_of_sum hreach hp hd hl).1 hsum
  obtain ⟨l', hl', ho, -⟩ := C51_outcome hreach hp ht (q := q) (by rw [e1]; exact hN) (by rw [e1, e2]; exact hd) nan junkH
    (Mpc.make q).horizon model w
  rw [e1, e2] at hl' ho
  cases preview_unique hl hl'
  obtain ⟨H, hH⟩ := ho.2 ⟨hc, hr, hcap⟩
  obtain ⟨l', hl', -, hF⟩ := C51_horizon hreach hp ht (by rw [e1]; exact hN) hH
  rw [e1, e2] at hl'
  cases preview_unique hl hl'
  rw [e1, e2, e3] at hF
  obtain ⟨l', hl', g1, g2⟩ := C52_criterion hreach hp ht (mpc := Mpc.make q) (by rw [hpar, e1]; exact hN) hH junk junkI
  rw [hpar, e1, e2] at hl' g1 g2
  cases preview_unique hl hl'
  refine ⟨⟨H, hH, hF⟩, fun hx => ?_, g2⟩
  obtain ⟨mpc, h1, -⟩ := g1 hx
  exact ⟨mpc, h1⟩

/-- **C52** is violated with default parameters: in the middle of a transition the horizon of 16 intervals ends before the last
previewed support, and the rotation matrices are written outside of the allocated memory. -/
theorem C52_refuted (nan : ℝ) (junkH : ℕ → Interval) (junk : ℕ → ℕ → ℕ → ℕ → ℝ) (junkI : ℕ → ℕ → ℕ) (model : Model)
    (w : WalkParameters) :
    ∃ f g q, FSM.construct FSMParams.default = .ok f ∧ Returns f 350 (.ok g) ∧ MPCParameters.make 16 100 100 100 = .ok q ∧
      (∃ H, FormReturns nan junkH (Mpc.make q).horizon q model g w (.ok (true, H))) ∧
      UpdateReturns nan junkH junk junkI model g w (Mpc.make q) (.error .ub) := by
  obtain ⟨⟨H, h1, -⟩, -, h2⟩ := update_at (p := FSMParams.default) (t := 350) (N := 16) (T := 100) (sub := 100) (Ttds := 100)
    (l := [⟨.tds, .lss, .ds, .intermediate, 50, 100⟩, ⟨.rss, .lss, .ds, .intermediate, 700, 700⟩,
      ⟨.tds, .rss, .rss, .intermediate, 100, 100⟩, ⟨.lss, .rss, .rss, .intermediate, 700, 700⟩,
      ⟨.tds, .lss, .lss, .intermediate, 50, 100⟩, ⟨.rss, .lss, .lss, .intermediate, 0, 0⟩]) rfl ⟨10, rfl⟩ rfl default_proper (by decide) (by decide) (by decide) ⟨10, rfl⟩
    (by rintro ⟨h, -⟩; cases h) rfl (by decide) nan junkH junk junkI model w
  exact ⟨_, _, _, rfl, ⟨10, rfl⟩, rfl, ⟨H, h1⟩, h2 (show ¬ _ < _ by decide)⟩

/-- **C52** is violated in the middle of a support, too: with 7 intervals. -/
theorem C52_support_refuted (nan : ℝ) (junkH : ℕ → Interval) (junk : ℕ → ℕ → ℕ → ℕ → ℝ) (junkI : ℕ → ℕ → ℕ) (model : Model)
    (w : WalkParameters) :
    ∃ f g q, FSM.construct FSMParams.default = .ok f ∧ Returns f 450 (.ok g) ∧ MPCParameters.make 7 100 100 100 = .ok q ∧
      (∃ H, FormReturns nan junkH (Mpc.make q).horizon q model g w (.ok (true, H))) ∧
      UpdateReturns nan junkH junk junkI model g w (Mpc.make q) (.error .ub) := by
  obtain ⟨⟨H, h1, -⟩, -, h2⟩ := update_at (p := FSMParams.default) (t := 450) (N := 7) (T := 100) (sub := 100) (Ttds := 100)
    (l := [⟨.rss, .lss, .ds, .intermediate, 650, 700⟩,
      ⟨.tds, .rss, .rss, .intermediate, 50, 100⟩, ⟨.lss, .rss, .rss, .intermediate, 0, 0⟩]) rfl ⟨10, rfl⟩ rfl default_proper
    (by decide) (by decide) (by decide) ⟨10, rfl⟩ (by rintro ⟨h, -⟩; cases h) rfl (by decide) nan junkH junk junkI model w
  exact ⟨_, _, _, rfl, ⟨10, rfl⟩, rfl, ⟨H, h1⟩, h2 (show ¬ _ < _ by decide)⟩

/-- Not in these cases: at the beginning of the default walk. -/
example (nan : ℝ) (junkH : ℕ → Interval) (junk : ℕ → ℕ → ℕ → ℕ → ℝ) (junkI : ℕ → ℕ → ℕ) (model : Model) (w : WalkParameters) :
    ∃ f g q mpc, FSM.construct FSMParams.default = .ok f ∧ Returns f 400 (.ok g) ∧ MPCParameters.make 16 100 100 100 = .ok q ∧
      UpdateReturns nan junkH junk junkI model g w (Mpc.make q) (.ok (mpc, .ok)) := by
  obtain ⟨-, h2, -⟩ := update_at (p := FSMParams.default) (t := 400) (N := 16) (T := 100) (sub := 100) (Ttds := 100)
    (l := [⟨.rss, .lss, .ds, .intermediate, 700, 700⟩,
      ⟨.tds, .rss, .rss, .intermediate, 100, 100⟩, ⟨.lss, .rss, .rss, .intermediate, 700, 700⟩,
      ⟨.tds, .lss, .lss, .intermediate, 100, 100⟩, ⟨.rss, .lss, .lss, .intermediate, 0, 0⟩]) rfl ⟨10, rfl⟩ rfl default_proper
    (by decide) (by decide) (by decide) ⟨10, rfl⟩ (by rintro ⟨h, -⟩; cases h) rfl (by decide) nan junkH junk junkI model w
  obtain ⟨mpc, h⟩ := h2 (show _ < _ by decide)
  exact ⟨_, _, _, mpc, rfl, ⟨10, rfl⟩, rfl, h⟩

/-! ## C75 -/

/-- The controller after a successful update: its matrices describe the motion from the state of the model. -/
structure Consistent (model : Model) (c : Mpc) : Prop where
  size : c.parameters.preview_horizon_length = c.horizon.intervals.n ∧ 0 < c.horizon.intervals.n
  matrices : PredictionMatrices c.horizon model c.matrices
  rotations : ∃ rh, RotOf c.matrices.Rh c.horizon.intervals.n rh
  times : ∀ i < c.horizon.intervals.n, 0 < (c.horizon.intervals.e i).T ∧
    1000 * (c.horizon.intervals.e i).T = (c.horizon.intervals.e i).T_ms ∧ (c.horizon.intervals.e i).com_height = model.getCoMHeight
  height : 0 < model.getCoMHeight

/-- What a successful update returns. -/
theorem update_ok {nan : ℝ} {junkH : ℕ → Interval} {junk : ℕ → ℕ → ℕ → ℕ → ℝ} {junkI : ℕ → ℕ → ℕ} {model : Model} {f : FSM}
    {w : WalkParameters} {c c' : Mpc} (h : UpdateReturns nan junkH junk junkI model f w c (.ok (c', .ok))) :
    ∃ H m, FormReturns nan junkH c.horizon c.parameters model f w (.ok (true, H)) ∧
      updateMatrices junk junkI c.parameters.preview_horizon_length H model = .ok m ∧
      c' = { c with solution_is_parsed := false, horizon := H, matrices := m } := by
  obtain ⟨r, h1, h2⟩ := update_iff.1 h
  match r, h1, h2 with
  | .error e, _, h2 => cases h2
  | .ok (false, H), _, h2 => cases h2
  | .ok (true, H), h1, h2 =>
    cases hm : updateMatrices junk junkI c.parameters.preview_horizon_length H model with
    | error e => rw [updateWith_formed.2 e hm] at h2; cases h2
    | ok m =>
      rw [updateWith_formed.1 m hm] at h2
      cases h2
      exact ⟨H, m, h1, hm, rfl⟩

/-- **C75.** After a successful update the matrices of the controller describe the predicted motion. -/
theorem C75_matrices {c : Stance} {p : FSMParams} {f : FSM} (h : StanceReachable c p f) (hp : Proper p)
    (hf : f.time < f.cur.duration) {mpc mpc' : Mpc} (hN : mpc.parameters.preview_horizon_length < 2 ^ 63)
    (hT : 0 < mpc.parameters.tds_sampling_time_ms) {model : Model} (hh : 0 < model.getCoMHeight) {nan : ℝ}
    {junkH : ℕ → Interval} {junk : ℕ → ℕ → ℕ → ℕ → ℝ} {junkI : ℕ → ℕ → ℕ} {w : WalkParameters}
    (hu : UpdateReturns nan junkH junk junkI model f w mpc (.ok (mpc', .ok))) :
    Consistent model mpc' ∧ mpc'.parameters = mpc.parameters ∧ mpc'.solution_is_parsed = false ∧
      ∃ l, PreviewReturns f (mpc.parameters.preview_horizon_length * mpc.parameters.sampling_time_ms) (.ok l) ∧
        FollowsWalk mpc.parameters.preview_horizon_length mpc.parameters.sampling_time_ms mpc.parameters.tds_sampling_time_ms
          model.getCoMHeight l mpc'.horizon := by
  obtain ⟨H, m, h1, h2, rfl⟩ := update_ok hu
  obtain ⟨l, hl, hc, hW, hF⟩ := formed_of h hp hf hN h1
  have hr : ReachesLast mpc.parameters.preview_horizon_length mpc.parameters.sampling_time_ms l := by
    by_contra hr
    rw [(matrices_of_formed hF junk junkI model).2 hr] at h2
    cases h2
  obtain ⟨R, r, hU⟩ := hF.usable hr (height := model.getCoMHeight) (by rw [hW.size]; exact hW.height)
  have ht := C51_positive h hp hf hN hT h1
  rw [← hW.size] at ht h2
  obtain ⟨m', e1, e2, e3⟩ := prediction_matrices hU hh (fun i hi => (ht i hi).2) junk junkI
  rw [e1] at h2
  cases h2
  refine ⟨⟨⟨hW.size.symm, hU.pos⟩, e2, e3, fun i hi => ⟨(ht i hi).2, ?_, (hU.height i hi).1⟩, hh⟩, rfl, rfl, l, hl, hW⟩
  exact hW.seconds i (by rw [← hW.size]; exact hi)

/-- The orientation of the support in an interval. -/
noncomputable def thetaAt (H : Horizon) (i : ℕ) : ℝ :=
  match H.getWalkState i with
  | .ok s => s.theta
  | .error _ => 0

theorem thetaAt_ok {H : Horizon} {i : ℕ} {s : WalkState} (h : H.getWalkState i = .ok s) : thetaAt H i = s.theta := by
  unfold thetaAt
  rw [h]

theorem isTurned_mulVec (θ : ℝ) (v : Fin 2 → ℝ) : IsTurned θ v (rotation2 θ *ᵥ v) := by
  unfold IsTurned rotation2
  simp [Matrix.mulVec, dotProduct, Fin.sum_univ_two]
  ring

/-- Positions of the supports which a solution produces. -/
noncomputable def footsteps (H : Horizon) (support : Fin 2 → ℝ) (f : ℕ → ℝ) : ℕ → Fin 2 → ℝ
  | 0 => support
  | j + 1 => footsteps H support f j +
    (match H.variable_steps[j]? with
     | some k => rotation2 (thetaAt H (k - 1)) *ᵥ ![f (2 * j), f (2 * j + 1)]
     | none => 0)

/-- States which are produced by centres of pressure. -/
noncomputable def statesOf (H : Horizon) (model : Model) (cop : ℕ → Fin 2 → ℝ) : ℕ → Fin 6 → ℝ
  | 0 => model.getCState
  | i + 1 => PointMass6z.fromCoMState (PointMass6z.evaluate (H.intervals.e i).T (H.intervals.e i).T model.getCoMHeight
      (statesOf H model cop i) (cop i))

theorem prediction_unique {H : Horizon} {model : Model} {m : Matrices} (hm : PredictionMatrices H model m) {x : ℕ → ℝ}
    {P P' cop cop' : ℕ → Fin 2 → ℝ} {X X' : ℕ → Fin 6 → ℝ} (h : Prediction H model x P cop X) (h' : Prediction H model x P' cop' X') :
    (∀ j ≤ H.variable_steps.length, P' j = P j) ∧ (∀ i < H.intervals.n, cop' i = cop i) ∧ ∀ i ≤ H.intervals.n, X' i = X i := by
  refine ⟨?_, ?_, ?_⟩
  · intro j hj
    cases j with
    | zero => rw [h.footsteps.start, h'.footsteps.start]
    | succ j =>
      ext a
      have e1 := hm.supports _ P h.footsteps j hj a
      have e2 := hm.supports _ P' h'.footsteps j hj a
      exact e2.symm.trans e1
  · intro i hi
    ext a
    have e1 := hm.pressure _ _ P cop h.footsteps h.pressure i hi a
    have e2 := hm.pressure _ _ P' cop' h'.footsteps h'.pressure i hi a
    exact sub_left_inj.1 (e2.symm.trans e1)
  · intro i hi
    cases i with
    | zero => rw [h.start, h'.start]
    | succ i =>
      ext l
      exact (hm.states _ _ _ _ h' i hi l).symm.trans (hm.states _ _ _ _ h i hi l)

/-- **C75.** Each solution produces a motion, which is unique: the supports up to the last step, centres of pressure and states up to
the end of the horizon. -/
theorem C75_motion {c : Mpc} {model : Model} (hc : Consistent model c) (x : ℕ → ℝ) :
    ∃ P cop X, Prediction c.horizon model x P cop X ∧ ∀ P' cop' X', Prediction c.horizon model x P' cop' X' →
      (∀ j ≤ c.horizon.variable_steps.length, P' j = P j) ∧ (∀ i < c.horizon.intervals.n, cop' i = cop i) ∧
      ∀ i ≤ c.horizon.intervals.n, X' i = X i := by
  generalize hP : footsteps c.horizon model.current_support_position (fun i => x (2 * c.horizon.intervals.n + i)) = P
  generalize hcop : (fun i => P (stepsBy c.horizon i) + rotation2 (thetaAt c.horizon i) *ᵥ ![x (2 * i), x (2 * i + 1)]) = cop
  suffices h : Prediction c.horizon model x P cop (statesOf c.horizon model cop) from
    ⟨P, cop, _, h, fun _ _ _ h' => prediction_unique hc.matrices h h'⟩
  refine ⟨⟨?_, ?_⟩, ?_, rfl, ?_⟩
  · rw [← hP]
    rfl
  · intro j k s hk hs
    have e : P (j + 1) - P j = rotation2 s.theta *ᵥ ![x (2 * c.horizon.intervals.n + 2 * j), x (2 * c.horizon.intervals.n + (2 * j + 1))] := by
      rw [← hP]
      show footsteps _ _ _ j + (match c.horizon.variable_steps[j]? with | some k => _ | none => 0) - footsteps _ _ _ j = _
      simp only [hk, thetaAt_ok hs]
      rw [add_sub_cancel_left]
    rw [e]
    exact isTurned_mulVec _ _
  · intro i s hi hs
    rw [← hcop]
    simp only [add_sub_cancel_left, thetaAt_ok hs]
    exact isTurned_mulVec _ _
  · intro i hi
    exact (moves_iff hc.height (hc.times i hi).1.ne' _ _ _ _).2 rfl

/-- **C75.** The profiles which are computed from a solution are those of the motion which it produces. -/
theorem C75_profiles {c : Mpc} {model : Model} (hc : Consistent model c) {sol : Solution ℝ} (hs : SolutionFor c.horizon sol)
    {P cop : ℕ → Fin 2 → ℝ} {X : ℕ → Fin 6 → ℝ} (hX : Prediction c.horizon model (entries sol) P cop X) (junk : ℕ → ℕ → ℝ) :
    ∃ c', c.parseSolution junk sol = .ok c' ∧ PredictionProfiles c.horizon model P cop X c' ∧ c'.solution_is_parsed = true ∧
      c'.parameters = c.parameters ∧ c'.horizon = c.horizon ∧ c'.matrices = c.matrices := by
  obtain ⟨s1, s2, s3, s4, s5, s6, s7, s8, s9, s10, s11, s12, s13, s14⟩ := hc.matrices.sizes
  obtain ⟨rh, hRh⟩ := hc.rotations
  have h4 : sol.getPart copId = sol.getData ⟨0, c.horizon.intervals.n * 2⟩ := by
    unfold Solution.getPart
    rw [hs.structure_]
    rfl
  have h5 : sol.getPart footposId = sol.getData ⟨0 + c.horizon.intervals.n * 2, c.horizon.variable_steps.length * 2⟩ := by
    unfold Solution.getPart
    rw [hs.structure_]
    rfl
  obtain ⟨v4, e4, n4, r4⟩ := Pepper.getData_ok (sol := sol) (off := 0) (len := c.horizon.intervals.n * 2) (by rw [hs.size]; omega)
  obtain ⟨v5, e5, n5, r5⟩ := Pepper.getData_ok (sol := sol) (off := 0 + c.horizon.intervals.n * 2)
    (len := c.horizon.variable_steps.length * 2) (by rw [hs.size]; omega)
  -- the parts
  have p4 : ∀ i < 2 * c.horizon.intervals.n, (Vec.ofList v4).e i = entries sol i := by
    intro i hi
    show v4.getD i 0 = _
    rw [r4 i (by omega), zero_add]
    rfl
  have p5 : ∀ i < 2 * c.horizon.variable_steps.length, (Vec.ofList v5).e i = entries sol (2 * c.horizon.intervals.n + i) := by
    intro i hi
    show v5.getD i 0 = _
    rw [r5 i (by omega), zero_add, Nat.mul_comm]
    rfl
  have p6 : ∀ i < 2 * (c.horizon.intervals.n + c.horizon.variable_steps.length), (Vec.ofList (v4 ++ v5)).e i = entries sol i := by
    intro i hi
    show (v4 ++ v5).getD i 0 = _
    by_cases h : i < v4.length
    · rw [List.getD_eq_getElem?_getD, List.getElem?_append_left h, ← List.getD_eq_getElem?_getD]
      exact p4 i (by omega)
    · rw [List.getD_eq_getElem?_getD, List.getElem?_append_right (by omega), ← List.getD_eq_getElem?_getD]
      have := p5 (i - v4.length) (by omega)
      rw [show 2 * c.horizon.intervals.n + (i - v4.length) = i by omega] at this
      exact this
  have hrow : ∀ {A : Mat ℝ} {b : Vec ℝ} {x y : ℕ → ℝ} {r : ℕ} {v : ℝ}, (∀ i < A.cols, x i = y i) → AffineRow A b y r v →
      AffineRow A b x r v := by
    intro A b x y r v hxy h
    unfold AffineRow at h ⊢
    rw [← h]
    congr 1
    exact Finset.sum_congr rfl fun k hk => by rw [hxy k (Finset.mem_range.mp hk)]
  have n6 : (Vec.ofList (v4 ++ v5)).n = 2 * (c.horizon.intervals.n + c.horizon.variable_steps.length) := by
    show (v4 ++ v5).length = _
    rw [List.length_append]
    omega
  obtain ⟨y1, f1, m1, g1⟩ := Pepper.mulAdd_ok (A := c.matrices.Sdz) (x := Vec.ofList (v4 ++ v5)) (b := c.matrices.sdz)
    (s5.trans n6.symm) (s4.trans s6.symm)
  obtain ⟨y2, f2, m2, g2⟩ := Pepper.mulAdd_ok (A := c.matrices.S) (x := Vec.ofList (v4 ++ v5)) (b := c.matrices.s)
    (s2.trans n6.symm) (s1.trans s3.symm)
  obtain ⟨y3, f3, m3, g3⟩ := Pepper.mulAdd_ok (A := c.matrices.Vfp) (x := Vec.ofList v5) (b := c.matrices.vfp)
    (by rw [s8]; show _ = v5.length; omega) (s7.trans s9.symm)
  obtain ⟨w1, w2⟩ := hRh.diag
  obtain ⟨Z, eZ, -, z2, z3, z4⟩ := diagMultiplyRight_ok junk w1 w2 (A := (Vec.ofList v4).toMat) (by
    show v4.length = _
    rw [s14]
    omega)
  have ecop : ∀ i < c.horizon.intervals.n, ∀ a : Fin 2, Z.e (2 * i + a) 0 + ∑ k ∈ Finset.range c.matrices.V.cols,
      c.matrices.V.e (2 * i + a) k * (Vec.ofList v5).e k + c.matrices.V0.e (2 * i + a) = cop i a := by
    intro i hi a
    have e1 := hrow (x := (Vec.ofList v5).e) (by rw [s11]; exact p5) (hc.matrices.pressure _ _ P cop hX.footsteps hX.pressure i hi a)
    unfold AffineRow at e1
    rw [z4 _ (by omega) 0 Nat.one_pos]
    have e2 : ∑ k ∈ Finset.range c.matrices.Rh.m.cols, c.matrices.Rh.m.e (2 * i + a) k * (Vec.ofList v4).toMat.e k 0 =
        ∑ k ∈ Finset.range c.matrices.Rh.m.cols, c.matrices.Rh.m.e (2 * i + a) k * entries sol k :=
      Finset.sum_congr rfl fun k hk => by
        rw [← p4 k (by have := Finset.mem_range.mp hk; omega)]
        rfl
    rw [e2]
    linarith
  refine ⟨{ c with
    cop_profile := ⟨Z.rows, fun i => Z.e i 0 + ∑ k ∈ Finset.range c.matrices.V.cols, c.matrices.V.e i k * (Vec.ofList v5).e k +
      c.matrices.V0.e i⟩
    dcop_profile := y1
    cstate_profile := y2
    footpos_profile := y3
    solution_is_parsed := true }, ?_, ⟨⟨m2.trans s1, z2.trans s13, m1.trans s4, m3.trans s7⟩, ?_, ecop, ?_, ?_⟩, rfl, rfl, rfl, rfl⟩
  · unfold Mpc.parseSolution
    simp only
    have k1 : Z.toVec = .ok ⟨Z.rows, fun i => Z.e i 0⟩ := by
      unfold Mat.toVec
      rw [require_true (show Z.cols = 1 from z3)]
      rfl
    have k2 : c.matrices.V.mulVec (Vec.ofList v5) = .ok ⟨c.matrices.V.rows, fun i => ∑ k ∈ Finset.range c.matrices.V.cols,
        c.matrices.V.e i k * (Vec.ofList v5).e k⟩ := by
      unfold Mat.mulVec
      rw [if_pos]
      show _ = v5.length
      omega
    rw [h4, e4, ok_bind, h5, e5, ok_bind, eZ, ok_bind, k1, ok_bind, k2, ok_bind]
    unfold Vec.add
    rw [if_pos (show Z.rows = c.matrices.V.rows by omega), ok_bind, if_pos (show Z.rows = c.matrices.V0.n by omega), ok_bind, f1,
      ok_bind, f2, ok_bind, f3, ok_bind]
    rfl
  · intro i hi l
    exact g2 _ _ (hrow (by rw [s2]; exact p6) (hc.matrices.states _ _ _ _ hX i hi l))
  · intro i hi a
    obtain ⟨v, k1, k2⟩ := hc.matrices.velocities _ _ _ _ hX i hi a
    show IsCopVelocity _ _ _ _ _ (y1.e _)
    rw [g1 _ _ (hrow (by rw [s5]; exact p6) k1)]
    exact k2
  · intro j hj a
    exact g3 _ _ (hrow (by rw [s8]; exact p5) (hc.matrices.supports _ _ hX.footsteps j hj a))

end Humoto.Wpg
