import Verif.Spec.PepperProgram
import Verif.Lemmas.WpgGuess
import Verif.Props.PepperProblem

/-!
# The programs of Pepper: guesses of the active set contain no undefined entries; the state at the end of an iteration
-/

namespace Humoto.Pepper

open Spec

variable {K : Type} [Field K] [LinearOrder K] [IsStrictOrderedRing K]

theorem decided_bounds {env : TaskEnv K} {c : Ctr K} {a g : ActiveSetC} (h : boundsGuess env c a = .ok g) (ha : Decided a) : Decided g := by
  unfold boundsGuess at h
  simp only at h
  split at h
  · cases h; exact decided_initWith (by decide)
  split at h
  · cases h; exact decided_initWith (by decide)
  · obtain ⟨_, _, h⟩ := bind_eq_ok.1 h
    exact decided_shift h ha (by decide)

section
variable {mpc : Mpc K} {x0 : Vec K} {o : ProblemSetup K} {Q : PepperTask → Task (ProblemEnv K) K → Prop}

/-- The guess of a task. -/
theorem decided_task (h : PepperReady mpc x0) {z : ZeroVariables K} {t t' : Task (ProblemEnv K) K} {k : PepperTask} (hk : TaskOf o z Q t k)
    {junk : ℕ → ℕ → ℕ → K} {junkI : ℕ → ℕ → ℕ} (ha : Decided t.actual)
    (e : t.formAll (TaskEnv.of mpc).structure_.nvars ⟨TaskEnv.of mpc, z, junk, junkI⟩ true = .ok t') : Decided t'.guess := by
  obtain ⟨t1, et, hf⟩ := task_form h hk junk junkI
  unfold Task.formAll at e
  rw [et, ok_bind] at e
  obtain ⟨t2, e2, e⟩ := bind_eq_ok.1 e
  obtain ⟨_, _, e⟩ := bind_eq_ok.1 e
  cases e
  have e2 : t1.guessActiveSet _ = .ok t' := e2
  have hg := hf.guessFn.trans hk.guessFn
  rw [← hf.actual] at ha
  unfold Task.guessActiveSet at e2
  split at e2
  · exact decided_default e2 ha
  · next f hfn =>
    obtain ⟨g, eg, e2⟩ := bind_eq_ok.1 e2
    cases e2
    rw [hg] at hfn
    cases k with
    | acceleration => cases hfn; exact decided_bounds eg ha
    | cop => cases hfn; exact decided_bounds eg ha
    | body => cases hfn; exact decided_bounds eg ha
    | velocity => cases hfn; exact decided_bounds eg ha
    | copCentering => cases hfn
    | baseJerk => cases hfn
    | bodyJerk => cases hfn
    | reference =>
      have hfn : (if o.mode = .maintainPosition then basePositionTask o else baseVelocityTask o).guessFn = some f := hfn
      split at hfn <;> cases hfn

/-- The guess of the problem. -/
theorem pepper_guess (h : PepperReady mpc x0) {p p' : Problem K} (hp : PepperShaped o Q p) {junk : ℕ → ℕ → ℕ → K} {junkI : ℕ → ℕ → ℕ}
    (hQ : ∀ k t, Q k t → ActualFits mpc t.actual k ∧ Decided t.actual) (e : p.form junk junkI true mpc = .ok p') :
    ∃ a, p'.hierarchy.guessActiveSet = .ok a ∧ a.map List.length = p'.hierarchy.levels.map Level.nConstraints ∧ ∀ c ∈ a, Decided c := by
  obtain ⟨-, ef⟩ := pepper_formed h hp e
  refine decided_hierarchy ef hp.reach fun L hL ti hti => ?_
  obtain ⟨i, hi, rfl⟩ := List.getElem_of_mem hL
  have hf := hierarchy_forms ef
  have hi' : i < p.hierarchy.levels.length := hf.length_eq ▸ hi
  have eL := hf.get hi' hi
  have hT := List.Forall₂.get hp.shape hi' (hp.shape.length_eq ▸ hi')
  rw [List.get_eq_getElem, List.get_eq_getElem] at eL
  rw [List.get_eq_getElem, List.get_eq_getElem] at hT
  have hall := form_forall2 eL
  obtain ⟨j, hj, rfl⟩ := List.getElem_of_mem hti
  have hj' : j < (p.hierarchy.levels[i]).tasks.length := hall.length_eq ▸ hj
  have ej := hall.get hj' hj
  have hTj := hT.get hj' (hT.length_eq ▸ hj')
  rw [List.get_eq_getElem, List.get_eq_getElem] at ej hTj
  obtain ⟨h1, h2⟩ := hQ _ _ hTj.kept
  obtain ⟨t', e', hl⟩ := task_formAll (guessing := true) h hTj junk junkI h1
  cases e'.symm.trans ej
  exact ⟨hl rfl, decided_task h hTj h2 e'⟩

end

/-! ### The state at the end of an iteration -/

/-- The state at the end of the first interval is computed in the same way as the states within intervals. -/
theorem next_eq {c : Mpc K} {model : Model K} {iv : Interval K} (hi : c.intervals[0]? = some iv) (hT : iv.T ≠ 0)
    (hb : 2 ≤ c.base_controls.n) (hd : 2 ≤ c.body_controls.n) : c.initializeNextModelState model = c.modelStateAt model 0 iv.T := by
  have e1 : c.previousTheta model 0 = .ok (model.state.base_state.rpy 2) := rfl
  have e2 : c.precedingState model 0 = .ok model.getMPCState := rfl
  unfold Mpc.initializeNextModelState Mpc.modelStateAt
  simp only
  rw [vecAt_ok hi, ok_bind, ok_bind, e1, ok_bind, e2, ok_bind, segment_ok (by omega), ok_bind, segment_ok (by omega), ok_bind]
  simp only [ok_bind]
  unfold Model.getNextState
  congr 1
  field_simp
  ring

/-- The masses are the default ones, see C69. -/
theorem modelStateAt_masses {c : Mpc K} {model : Model K} {i : ℕ} {offset : K} {s : ModelState K} (h : c.modelStateAt model i offset = .ok s) :
    s.base_mass = 1634234 / 100000 ∧ s.body_mass = 123389 / 10000 := by
  unfold Mpc.modelStateAt at h
  simp only [bind_eq_ok] at h
  obtain ⟨_, _, _, _, _, _, _, _, _, _, _, _, _, _, h⟩ := h
  unfold Model.getNextStateFrom at h
  obtain ⟨_, _, h⟩ := bind_eq_ok.1 h
  cases h
  exact ⟨rfl, rfl⟩

/-- The end of an iteration which advances by `v.step` milliseconds. -/
theorem advance_ok {v : ProgramKind} {q : MPCParameters} (hq : PepperParameters v q) {s : Program K} (hpar : s.mpc.parameters = q)
    (hflag : s.mpc.solution_is_parsed = false) (hc : Consistent s.mpc s.model.getMPCState)
    (hl : s.mpc.intervals.length = q.preview_horizon_length) (hTm : ∀ iv ∈ s.mpc.intervals, iv.T_ms = q.sampling_time_ms ∧
      iv.T = (q.sampling_time_ms : K) / 1000) (hs : SolutionFor s.mpc.intervals.length s.solution) :
    ∃ c st iv, s.advance v = .ok { s with mpc := c, model := s.model.updateState st } ∧ s.mpc.intervals[0]? = some iv ∧
      StateWithin iv (s.model.state.base_state.rpy 2) ((v.step q : K) / 1000) s.model.getMPCState
        (controlAt s.mpc.intervals.length (entries s.solution) 0) st ∧
      (st.base_mass = 1634234 / 100000 ∧ st.body_mass = 123389 / 10000) ∧ c.parameters = s.mpc.parameters ∧
      c.matrices = s.mpc.matrices := by
  have hN : 0 < s.mpc.intervals.length := hl ▸ hq.horizon
  have hiv : s.mpc.intervals[0]? = some s.mpc.intervals[0] := List.getElem?_eq_getElem hN
  generalize s.mpc.intervals[0] = iv at hiv
  obtain ⟨t1, t2⟩ := hTm iv (List.mem_of_getElem? hiv)
  have h0 : (q.sampling_time_ms : K) / 1000 ≠ 0 := by
    have : (q.sampling_time_ms : K) ≠ 0 := by exact_mod_cast hq.sampling.ne'
    exact div_ne_zero this (by norm_num)
  have hT : ∀ iv ∈ s.mpc.intervals, iv.T ≠ 0 := fun iv hiv => by rw [(hTm iv hiv).2]; exact h0
  have hX := simulation_simulates hT (x0 := s.model.getMPCState) rfl (entries s.solution)
  obtain ⟨c, e, hP, i1, i2, i3, i4⟩ := C71_profiles hc hs hX
  obtain ⟨-, -, -, nb, nd⟩ := hP.sizes
  rw [← i1] at hP hX hiv
  obtain ⟨st, es, hst⟩ := modelStateAt_ok hP hX (by rw [i2, hpar, i1, hl]) hiv (by rw [t2]; exact h0) (prev := s.model.state.base_state.rpy 2)
    rfl ((v.step q : K) / 1000)
  refine ⟨c, st, iv, ?_, i1 ▸ hiv, ?_, modelStateAt_masses es, i2, i3⟩
  · unfold Program.advance
    unfold ProgramKind.step at es
    cases hv : v.subsampling with
    | true =>
      rw [if_pos rfl, e, ok_bind]
      rw [hv, if_pos rfl] at es
      have hoff : intervalByOffsetMs 0 c.intervals c.parameters.subsampling_time_ms = .ok (0, q.subsampling_time_ms) := by
        rw [i2, hpar]
        refine ((C58_milliseconds c.intervals q.subsampling_time_ms).1 0 _).2 ⟨?_, ?_, Nat.zero_le _, ?_, fun j hj => absurd hj (by omega)⟩
        · rw [List.length_map, i1]; exact hN
        · simp [startOf]
        · obtain ⟨l, hl⟩ : ∃ l, c.intervals = iv :: l := by
            cases hci : c.intervals with
            | nil => rw [hci] at hiv; cases hiv
            | cons a l => rw [hci] at hiv; cases hiv; exact ⟨l, rfl⟩
          rw [hl]
          have := hq.step.2
          unfold ProgramKind.step at this
          rw [hv, if_pos rfl] at this
          simpa [startOf, t1] using this
      have : c.getModelStateMs s.model c.parameters.subsampling_time_ms = .ok st := by
        unfold Mpc.getModelStateMs
        rw [assertThat_true i4, ok_bind, hoff, ok_bind]
        exact es
      rw [this]
      rfl
    | false =>
      rw [if_neg (by decide)]
      rw [hv, if_neg (by decide), ← t2] at es
      unfold Mpc.parseAndGetNextModelState
      rw [assertThat_true hflag, ok_bind, e, ok_bind, next_eq hiv (by rw [t2]; exact h0) (by omega) (by omega), es]
      rfl
  · have hX0 : simulation c.intervals s.model.getMPCState (entries s.solution) 0 = s.model.getMPCState := rfl
    rw [hX0, i1] at hst
    exact hst

end Humoto.Pepper
