import Verif.Lemmas.WpgTasks2
import Verif.Props.TaskGeneric
import Verif.Props.WpgPlan

/-!
# Walking pattern generator: what the tasks mean (C81)

`Ready` (Lemmas/WpgTasks) describes a controller after a successful update, see `C81_ready`.
-/

namespace Humoto.Wpg

open Spec Spec.Wpg

/-- **C81.** After a successful update all tasks can be formed: this is what the other theorems need. -/
theorem C81_ready {c : Stance} {p : FSMParams} {f : FSM} (h : StanceReachable c p f) (hp : Proper p)
    (hf : f.time < f.cur.duration) {mpc mpc' : Mpc} (hN : mpc.parameters.preview_horizon_length < 2 ^ 63)
    (hT : 0 < mpc.parameters.tds_sampling_time_ms) {model : Model} (hh : 0 < model.getCoMHeight) {nan : ℝ}
    {junkH : ℕ → Interval} {junk : ℕ → ℕ → ℕ → ℕ → ℝ} {junkI : ℕ → ℕ → ℕ} {w : WalkParameters}
    (hu : UpdateReturns nan junkH junk junkI model f w mpc (.ok (mpc', .ok))) : Ready model mpc' := by
  obtain ⟨hc, -, -, l, -, hW⟩ := C75_matrices h hp hf hN hT hh hu
  have hn := hW.size
  refine ⟨hc, fun i hi => ?_, fun k hk => ?_, fun i hi => (hW.height i (by omega)).2, hW.sorted⟩
  · obtain ⟨s, hs, -⟩ := hW.supports i (by omega)
    rw [← hW.stances, List.getElem?_map, Option.map_eq_some_iff] at hs
    obtain ⟨x, hx, -⟩ := hs
    exact ⟨x, (Horizon.getWalkState_ok hi).2 hx⟩
  · have := hW.range k hk
    omega

section
variable {model : Model} {mpc : Mpc}

/-- Number of the variables of the problem. -/
abbrev problemSize (mpc : Mpc) : ℕ := 2 * mpc.horizon.intervals.n + 2 * mpc.horizon.variable_steps.length

theorem steps_iff (h : Ready model mpc) (Q : ℕ → StanceType → Matrix (Fin 2) (Fin 2) ℝ → Prop) :
    (∀ j < mpc.horizon.variable_steps.length, Q j (stepStance mpc.horizon j) (stepBounds mpc.horizon j)) ↔
    ∀ j k s, mpc.horizon.variable_steps[j]? = some k → mpc.horizon.getWalkState k = .ok s → Q j s.stance.type s.fd_bounds := by
  constructor
  · intro H j k s hk hs
    obtain ⟨-, e1, e2⟩ := stepBounds_of hk hs
    have := H j (List.getElem?_eq_some_iff.1 hk).1
    rwa [e1, e2] at this
  · intro H j hj
    obtain ⟨k, s, hk, hs⟩ := h.step hj
    obtain ⟨-, e1, e2⟩ := stepBounds_of hk hs
    rw [e1, e2]
    exact H j k s hk hs

/-- **C81.** The task on footsteps is formed without failure, and is satisfied exactly by the solutions whose steps are within their
bounds. -/
theorem C81_footsteps (h : Ready model mpc) (junk : ℕ → ℕ → ℝ) (junkI : ℕ → ℕ) (d : CtrData ℝ) :
    ∃ d', footstepBoundsForm junk junkI false (TaskEnv.of model mpc) d = .ok d' ∧
      WellFormed (⟨.ilu, problemSize mpc, d'⟩ : Ctr ℝ) ∧ rows (⟨.ilu, problemSize mpc, d'⟩ : Ctr ℝ) = 2 * mpc.horizon.variable_steps.length ∧
      ∀ x, Satisfied ⟨.ilu, problemSize mpc, d'⟩ x ↔ StepsWithin mpc.horizon x := by
  obtain ⟨y, e, hy⟩ := footstepBounds_ok h junk junkI false d
  obtain ⟨h1, h2, h3⟩ := satisfied_pairs hy d (nv := problemSize mpc) le_rfl
  refine ⟨_, e, h1, h2, fun x => ?_⟩
  rw [h3 x]
  exact steps_iff h fun j _ B => ∀ a : Fin 2, B a 0 ≤ x (2 * mpc.horizon.intervals.n + 2 * j + a) ∧
    x (2 * mpc.horizon.intervals.n + 2 * j + a) ≤ B a 1

theorem fixed_iff (t : StanceType) (B : Matrix (Fin 2) (Fin 2) ℝ) (y : ℕ → ℝ) (o : ℕ) :
    (∀ a : Fin 2, fixedLower t B a ≤ y (o + a) ∧ y (o + a) ≤ fixedLower t B a) ↔
      y o = B 0 1 ∧ y (o + 1) = if t = .rss then B 1 1 else B 1 0 := by
  constructor
  · intro H
    exact ⟨le_antisymm (H 0).2 (H 0).1, le_antisymm (H 1).2 (H 1).1⟩
  · rintro ⟨h0, h1⟩ a
    fin_cases a
    · exact ⟨h0.ge, h0.le⟩
    · exact ⟨h1.ge, h1.le⟩

/-- **C81.** With fixed footsteps the task is satisfied exactly by the solutions whose steps are the fixed ones. -/
theorem C81_fixed (h : Ready model mpc) (junk : ℕ → ℕ → ℝ) (junkI : ℕ → ℕ) (d : CtrData ℝ) :
    ∃ d', footstepBoundsForm junk junkI true (TaskEnv.of model mpc) d = .ok d' ∧
      WellFormed (⟨.ilu, problemSize mpc, d'⟩ : Ctr ℝ) ∧ rows (⟨.ilu, problemSize mpc, d'⟩ : Ctr ℝ) = 2 * mpc.horizon.variable_steps.length ∧
      ∀ x, Satisfied ⟨.ilu, problemSize mpc, d'⟩ x ↔ StepsFixed mpc.horizon x := by
  obtain ⟨y, e, hy⟩ := footstepBounds_ok h junk junkI true d
  obtain ⟨h1, h2, h3⟩ := satisfied_pairs hy d (nv := problemSize mpc) le_rfl
  refine ⟨_, e, h1, h2, fun x => ?_⟩
  rw [h3 x]
  simp only [if_true]
  refine Iff.trans ?_ (steps_iff h fun j t B => x (2 * mpc.horizon.intervals.n + 2 * j) = B 0 1 ∧
    x (2 * mpc.horizon.intervals.n + 2 * j + 1) = if t = .rss then B 1 1 else B 1 0)
  exact forall_congr' fun j => forall_congr' fun _ => fixed_iff _ _ _ _

/-- **C81.** The fixed steps are allowed ones when the bounds are ordered. -/
theorem C81_fixed_within {H : Horizon} (hB : ∀ k ∈ H.variable_steps, ∀ s, H.getWalkState k = .ok s → ∀ a : Fin 2,
    s.fd_bounds a 0 ≤ s.fd_bounds a 1) {x : ℕ → ℝ} (hx : StepsFixed H x) : StepsWithin H x := by
  intro j k s hk hs a
  obtain ⟨h0, h1⟩ := hx j k s hk hs
  have hb := hB k (List.mem_of_getElem? hk) s hs a
  fin_cases a
  · show s.fd_bounds 0 0 ≤ x (2 * H.intervals.n + 2 * j) ∧ x (2 * H.intervals.n + 2 * j) ≤ s.fd_bounds 0 1
    rw [h0]
    exact ⟨hb, le_rfl⟩
  · show s.fd_bounds 1 0 ≤ x (2 * H.intervals.n + 2 * j + 1) ∧ x (2 * H.intervals.n + 2 * j + 1) ≤ s.fd_bounds 1 1
    rw [h1]
    split
    · exact ⟨hb, le_rfl⟩
    · exact ⟨le_rfl, hb⟩

/-- **C81.** The task on the centre of pressure is formed without failure, and is satisfied exactly by the solutions which keep it
within the bounds of the supports. -/
theorem C81_cop (h : Ready model mpc) (junk : ℕ → ℕ → ℝ) (junkI : ℕ → ℕ) (d : CtrData ℝ) :
    ∃ d', copBoundsForm junk junkI (TaskEnv.of model mpc) d = .ok d' ∧
      WellFormed (⟨.ilu, problemSize mpc, d'⟩ : Ctr ℝ) ∧ rows (⟨.ilu, problemSize mpc, d'⟩ : Ctr ℝ) = 2 * mpc.horizon.intervals.n ∧
      ∀ x, Satisfied ⟨.ilu, problemSize mpc, d'⟩ x ↔ CopWithin mpc.horizon x := by
  obtain ⟨y, e, hy⟩ := copBounds_ok h junk junkI d
  obtain ⟨h1, h2, h3⟩ := satisfied_pairs hy d (nv := problemSize mpc) (by unfold problemSize; omega)
  refine ⟨_, e, h1, h2, fun x => ?_⟩
  rw [h3 x]
  constructor
  · intro H i s hi hs a
    have := H i hi a
    rwa [(intervalBounds_of hs).2, Nat.zero_add] at this
  · intro H i hi a
    obtain ⟨s, hs⟩ := h.states i hi
    rw [(intervalBounds_of hs).2, Nat.zero_add]
    exact H i s hi hs a

/-- **C81.** The task on the velocity of the centre of mass penalises its deviations from the reference velocity at the ends of the
intervals. -/
theorem C81_comVelocity (h : Ready model mpc) (junk : ℕ → ℝ) (gain : ℝ) (d : CtrData ℝ) :
    ∃ d', comVelocityForm junk gain (TaskEnv.of model mpc) d = .ok d' ∧ WellFormed (⟨.ab, problemSize mpc, d'⟩ : Ctr ℝ) ∧
      ComVelocityTask mpc.horizon model gain ⟨.ab, problemSize mpc, d'⟩ := comVelocity_ok h junk gain d

/-- **C81.** The task on the velocity of the centre of pressure penalises it in all intervals. -/
theorem C81_copVelocity (h : Ready model mpc) (junk : ℕ → ℕ → ℝ) (gain : ℝ) (d : CtrData ℝ) :
    ∃ d', copVelocityForm junk gain (TaskEnv.of model mpc) d = .ok d' ∧ WellFormed (⟨.ab, problemSize mpc, d'⟩ : Ctr ℝ) ∧
      CopVelocityTask mpc.horizon model gain ⟨.ab, problemSize mpc, d'⟩ := copVelocity_ok h junk gain d

/-- **C81.** The task on the state at the end of the horizon penalises the velocity of the capture point. -/
theorem C81_terminal (h : Ready model mpc) (gain : ℝ) (d : CtrData ℝ) :
    ∃ d', terminalForm gain (TaskEnv.of model mpc) d = .ok d' ∧ WellFormed (⟨.ab, problemSize mpc, d'⟩ : Ctr ℝ) ∧
      TerminalTask mpc.horizon model gain ⟨.ab, problemSize mpc, d'⟩ := terminal_ok h gain d

/-- An equality holds exactly if its residuals vanish. -/
theorem satisfied_ab {nv : ℕ} {d : CtrData ℝ} {x : ℕ → ℝ} : Satisfied (⟨.ab, nv, d⟩ : Ctr ℝ) x ↔
    ∀ i < rows (⟨.ab, nv, d⟩ : Ctr ℝ), rowResidual ⟨.ab, nv, d⟩ x i = 0 := by
  refine forall_congr' fun i => forall_congr' fun _ => ?_
  unfold RowHolds rowResidual
  simp only [lower, upper, Option.some.injEq, forall_eq', target]
  rw [sub_eq_zero]
  exact ⟨fun h => le_antisymm h.2 h.1, fun h => ⟨h.ge, h.le⟩⟩

/-- **C81.** When the terminal constraint is satisfied, the motion is capturable at the end of the horizon: the ZMP is in the capture
point, so that the robot would stop over this point if the ZMP remained there. -/
theorem C81_capturable (h : Ready model mpc) {gain : ℝ} (hg : gain ≠ 0) (d d' : CtrData ℝ)
    (hd : terminalForm gain (TaskEnv.of model mpc) d = .ok d') {x : ℕ → ℝ} (hx : Satisfied ⟨.ab, problemSize mpc, d'⟩ x)
    {P cop : ℕ → Fin 2 → ℝ} {X : ℕ → Fin 6 → ℝ} (hX : Prediction mpc.horizon model x P cop X) :
    ∃ w, 0 < w ∧ w ^ 2 * model.getCoMHeight = PointMass6z.gravity ∧ ∀ (k : Fin 2) (z : ℝ),
      IsZmp PointMass6z.gravity model.getCoMHeight (X mpc.horizon.intervals.n (if k = 0 then 0 else 3))
        (X mpc.horizon.intervals.n (if k = 0 then 2 else 5)) z →
      z = X mpc.horizon.intervals.n (if k = 0 then 0 else 3) + X mpc.horizon.intervals.n (if k = 0 then 1 else 4) / w := by
  obtain ⟨d'', e, -, ht⟩ := C81_terminal h gain d
  cases hd.symm.trans e
  have hh := h.consistent.height
  have hz : ∀ a : Fin 2, ∃ v, v = 0 ∧ IsCapturePointVelocity model.getCoMHeight (X mpc.horizon.intervals.n) a v := by
    intro a
    obtain ⟨v, h1, h2⟩ := ht.value x P cop X hX a
    rw [satisfied_ab.1 hx a (by rw [ht.size]; exact a.2)] at h1
    exact ⟨v, (mul_eq_zero.1 h1.symm).resolve_left hg, h2⟩
  obtain ⟨_, -, w, hw, hwh, -⟩ := hz 0
  refine ⟨w, hw, hwh, fun k z hk => ?_⟩
  obtain ⟨_, rfl, w', hw', hwh', hv⟩ := hz k
  have hww : w' = w := by
    have e : w' ^ 2 = w ^ 2 := mul_right_cancel₀ hh.ne' (hwh'.trans hwh.symm)
    exact (pow_left_inj₀ hw'.le hw.le two_ne_zero).1 e
  rw [hww] at hv
  unfold IsZmp at hk
  rw [← hwh] at hk
  generalize X mpc.horizon.intervals.n (if k = 0 then 0 else 3) = c at *
  generalize X mpc.horizon.intervals.n (if k = 0 then 1 else 4) = v at *
  generalize X mpc.horizon.intervals.n (if k = 0 then 2 else 5) = a at *
  have h1 : a = w ^ 2 * (c - z) := by
    have : (a - w ^ 2 * (c - z)) * model.getCoMHeight = 0 := by linear_combination hk
    linarith [(mul_eq_zero.1 this).resolve_right hh.ne']
  rw [h1] at hv
  field_simp at hv ⊢
  have h2 : w * (v + w * (c - z)) = 0 := by linear_combination -(w * hv)
  linarith [(mul_eq_zero.1 h2).resolve_left hw.ne']

/-- **C81.** The task on the position of the centre of pressure: after any history in which its gain is not changed, when it is formed
for the current problem it penalises the positions of the centre of pressure in the frames of the supports. -/
theorem C81_copPosition (h : Ready model mpc) {gain : ℝ} {d : CtrData ℝ} (hd : d.idx.n = 0 ∧ d.gains.n = 0) (ss : List SolutionStructure)
    {y : ZeroVariables ℝ × CtrData ℝ}
    (hy : y = afterOps (ZeroVariables.make gain copId, d) (ss.map ZeroOp.form ++ [.form (TaskEnv.of model mpc).structure_])) :
    WellFormed (⟨.gib0, problemSize mpc, y.2⟩ : Ctr ℝ) ∧ CopPositionTask mpc.horizon gain ⟨.gib0, problemSize mpc, y.2⟩ := by
  have hops : ∀ g, ZeroOp.setGain g ∉ ss.map (ZeroOp.form (K := ℝ)) ++ [.form (TaskEnv.of model mpc).structure_] := by
    intro g hm
    rcases List.mem_append.1 hm with hm | hm
    · obtain ⟨_, -, e⟩ := List.mem_map.1 hm
      cases e
    · cases List.mem_singleton.1 hm
  obtain ⟨k1, k2, k3⟩ := gains_kept (t := ZeroVariables.make gain copId) (d := d) ⟨hd.2, fun i hi => absurd hi (Nat.not_lt_zero i)⟩ _ hops
  have hI := zeroInv_after (zeroInv_make (g := gain) (id := copId) hd.1) (ss.map ZeroOp.form ++ [.form (TaskEnv.of model mpc).structure_])
  have hid : ∀ (l : List SolutionStructure) (z : ZeroVariables ℝ × CtrData ℝ),
      (afterOps z (l.map ZeroOp.form)).1.variables_id = z.1.variables_id := by
    intro l
    induction l with
    | nil => exact fun _ => rfl
    | cons s l ih =>
      intro z
      refine (ih ((ZeroOp.form s).apply z)).trans ?_
      unfold ZeroOp.apply ZeroVariables.form
      simp only
      split <;> rfl
  have hl : y.1.location = ⟨0, mpc.horizon.intervals.n * 2⟩ := by
    rw [hy, afterOps_append]
    refine (form_location _ _).trans ?_
    unfold ZeroVariables.locate
    rw [hid ss]
    exact (if_neg (show ¬ copId.length = 0 by decide)).trans h.cop
  rw [← hy] at k1 k2 k3 hI
  obtain ⟨i1, i2⟩ := hI
  rw [hl] at k2 k3 i1 i2
  simp only at k2 k3 i1 i2
  have hr : rows (⟨.gib0, problemSize mpc, y.2⟩ : Ctr ℝ) = 2 * mpc.horizon.intervals.n := i1.trans (Nat.mul_comm _ _)
  refine ⟨⟨trivial, k2.trans i1.symm, fun i hi => ?_⟩, hr, fun x i hi => ?_⟩
  · show y.2.idx.e i < problemSize mpc
    have hi' : i < y.2.idx.n := hi
    rw [i2 i (by omega)]
    unfold problemSize
    omega
  · show y.2.gains.e i * x (y.2.idx.e i) - 0 = gain * x i
    rw [k3 i (by omega), i2 i (by omega), Nat.zero_add, sub_zero]
    rfl

/-- **C81.** Solutions whose steps are within their bounds meet the bounds on the first step, which C80 asks for. -/
theorem C81_first {H : Horizon} {x : ℕ → ℝ} (hx : StepsWithin H x) : MeetsFirstBounds H x := by
  rintro s ⟨k, hk, hs⟩ i
  exact hx 0 k s hk hs i

end

/-- The first update of the default walk, with two steps in the horizon: all tasks can be formed. -/
example (nan : ℝ) (junkH : ℕ → Interval) (junk : ℕ → ℕ → ℕ → ℕ → ℝ) (junkI : ℕ → ℕ → ℕ) (w : WalkParameters) :
    ∃ model mpc, Ready model mpc ∧ mpc.horizon.intervals.n = 16 ∧ 2 ≤ mpc.horizon.variable_steps.length := by
  obtain ⟨q, hq⟩ : ∃ q, MPCParameters.make 16 100 100 100 = .ok q := ⟨_, rfl⟩
  obtain ⟨s0, h0⟩ := default_start nan (q := q)
  obtain ⟨mpc, hu, hn, -⟩ := C79_continues default_loop hq h0 (.start (nan := nan)) (by decide) junkH junk junkI w
  obtain ⟨side, k, hI⟩ := loop_after default_loop hq h0 (.start (nan := nan))
  obtain ⟨e1, e2, -, e3, -⟩ := C55_derived hq
  have hpar := hI.parameters
  have hN : s0.mpc.parameters.preview_horizon_length < 2 ^ 63 := by rw [hpar, e1]; decide
  have hT : 0 < s0.mpc.parameters.tds_sampling_time_ms := by rw [hpar, e3]; decide
  obtain ⟨-, -, -, l, hl, hW⟩ := C75_matrices hI.machine.reach default_loop.proper hI.machine.inside hN hT hI.height hu
  refine ⟨s0.model, mpc, C81_ready hI.machine.reach default_loop.proper hI.machine.inside hN hT hI.height hu, hn, ?_⟩
  rw [hpar, e1, e2] at hl hW
  have hm : PreviewReturns s0.fsm (16 * 100) (.ok [⟨.ds, .lss, .undefined, .first, 300, 300⟩, ⟨.tds, .lss, .ds, .intermediate, 100, 100⟩,
      ⟨.rss, .lss, .ds, .intermediate, 700, 700⟩, ⟨.tds, .rss, .rss, .intermediate, 100, 100⟩,
      ⟨.lss, .rss, .rss, .intermediate, 400, 700⟩]) := by
    obtain ⟨f, e, hf⟩ : ∃ f, FSM.construct FSMParams.default = .ok f ∧ PreviewReturns f (16 * 100) (.ok
        [⟨.ds, .lss, .undefined, .first, 300, 300⟩, ⟨.tds, .lss, .ds, .intermediate, 100, 100⟩,
        ⟨.rss, .lss, .ds, .intermediate, 700, 700⟩, ⟨.tds, .rss, .rss, .intermediate, 100, 100⟩,
        ⟨.lss, .rss, .rss, .intermediate, 400, 700⟩]) := ⟨_, rfl, 10, rfl⟩
    cases e.symm.trans h0.machine
    exact hf
  cases preview_unique hl hm
  have := hW.allSteps 1 (by decide)
  omega

end Humoto.Wpg
