import Verif.Lemmas.PepperPlain

/-!
# What QuadProg++ and qpmad do with the problems of Pepper
-/

namespace Humoto.Pepper

open Spec Bridge

section
variable {o : ProblemSetup ℝ} {model : Model ℝ} {mpc : Mpc ℝ} {p : Problem ℝ}

/-- Inputs are accepted. -/
theorem plain_inputs (hu : PepperUpdated model mpc) (hp : PepperFormed o mpc p) :
    qpCheckInputs SolverParameters.default p.hierarchy = .ok () := by
  obtain ⟨P, env, g, L0, L1, h1, h2, h3, h4, h5⟩ := pepper_solvable hu hp
  refine ((C18_checkInputs h1 h2 _).1).2 ⟨rfl, .inr (by rw [h3]; rfl), fun L hl ti hti _ => ?_⟩
  rw [h3] at hl
  cases hl
  exact (h5.minimise ti hti).1

theorem quadprog_answers (hr : o.baseJerkGain ≠ 0 ∧ o.bodyJerkGain ≠ 0) {ext : QuadProgArgs ℝ → QuadProgStatus × List ℝ}
    (hext : TrustedQuadProg ext) : Answers (quadprogSolver ext) o (PepperQuadProgFails ext o) := by
  intro model mpc p hu hp u sol hs s hpar
  obtain ⟨q, sol', k1, k2, k3⟩ := C86_quadprog hu hp u.objective u.constraints s.mem le_rfl (.inr hr) hext hs
  obtain ⟨P, env, g, L0, L1, h1, h2, h3, h4, h5⟩ := pepper_solvable hu hp
  obtain ⟨q', a, j1, j2, j3, -, j5, j6⟩ := C50_translation h1 h2 h3 (by rw [h3]; exact h5.inRange) h5.minimise u.objective u.constraints
    s.mem (le_refl (0 : ℝ))
  cases k1.symm.trans j1
  have hfeas := feasible_iff (x0 := model.getMPCState) rfl (pepper_ready hu).sane.times h4
  have hc := plain_inputs hu hp
  have hnv : sol.structure_.nvars = 4 * mpc.intervals.length := by rw [hs.structure_, nvars_solutionStructure]
  rw [← hpar] at hc
  rw [← hnv] at k1
  have e1 : (quadprogSolver ext u).checkInputs p.hierarchy s = (.ok (), s) := by
    show (qpCheckInputs s.params p.hierarchy, s) = _
    rw [hc]
  have e2 : (quadprogSolver ext u).init p.hierarchy sol.structure_ s = (.ok (), ⟨s.params, q⟩) := by
    simp [quadprogSolver, quadprogBackend, changing, k1]
  have hreg : regularizeIf (0 : ℝ) q.1 = .ok q.1 := by
    unfold regularizeIf
    rw [assertThat_true le_rfl, ok_bind, if_neg (lt_irrefl _)]
    rfl
  have e3 : (quadprogSolver ext u).solveHierarchy sol p.hierarchy ⟨s.params, q⟩ = (.ok sol', ⟨s.params, q⟩) := by
    simp [quadprogSolver, quadprogBackend, changing, k2, hreg]
    rfl
  have hcrash : s.params.crashOnAnyFailure = true := by rw [hpar]; rfl
  by_cases hst : sol'.status = .ok
  · left
    obtain ⟨m1, m2⟩ := k3 hst
    refine ⟨sol', ⟨s.params, q⟩, ?_, hpar, m1, fun X hX => ⟨(m2 X hX).1, fun y Y hY hA _ => (m2 X hX).2 y Y hY hA trivial⟩⟩
    simp only [Backend.solve, SM.bind_apply, e1, e2, e3, Backend.checkResults, hst]
    simp [SM.pure_apply]
  · right
    refine ⟨⟨s.params, q⟩, ?_, a, j3, fun x => (j5 x).trans (hfeas x), fun x y X Y hX hY => ?_, fun e => hst ?_⟩
    · simp only [Backend.solve, SM.bind_apply, e1, e2, e3, Backend.checkResults, hcrash]
      simp [hst]
    · rw [j6, j6, ← h4.cost x X hX, ← h4.cost y Y hY]
      ring
    · have := (j2 ext sol).symm.trans k2
      rw [← Except.ok.inj this]
      simp [e]

theorem qpmad_answers (hr : o.baseJerkGain ≠ 0 ∧ o.bodyJerkGain ≠ 0) {ext : QpmadArgs ℝ → QpmadStatus × List ℝ} (hext : TrustedQpmad ext) :
    Answers (qpmadSolver ext) o
      (fun ivs x0 => (∀ x, PepperModerate ivs x → ¬ PepperFeasible ivs x0 x) ∨ PepperQpmadFails ext o ivs x0) := by
  intro model mpc p hu hp u sol hs s hpar
  have hc := plain_inputs hu hp
  rw [← hpar] at hc
  have hnv : sol.structure_.nvars = 4 * mpc.intervals.length := by rw [hs.structure_, nvars_solutionStructure]
  have e1 : (qpmadSolver ext u).checkInputs p.hierarchy s = (.ok (), s) := by
    show (qpCheckInputs s.params p.hierarchy, s) = _
    rw [hc]
  obtain ⟨P, env, g, L0, L1, h1, h2, h3, h4, h5⟩ := pepper_solvable hu hp
  have hfeas := feasible_iff (x0 := model.getMPCState) rfl (pepper_ready hu).sane.times h4
  rcases C86_qpmad hu hp u.objective u.constraints s.mem le_rfl (.inr hr) hext hs with ⟨q, sol', k1, k2, k3⟩ | ⟨k1, k2⟩
  · have k0 := k1
    rw [← hnv] at k1
    have e2 : (qpmadSolver ext u).init p.hierarchy sol.structure_ s = (.ok (), ⟨s.params, q⟩) := by
      simp [qpmadSolver, qpmadBackend, changing, k1]
    have hreg : regularizeIf (0 : ℝ) q.1 = .ok q.1 := by
      unfold regularizeIf
      rw [assertThat_true le_rfl, ok_bind, if_neg (lt_irrefl _)]
      rfl
    have e3 : (qpmadSolver ext u).solveHierarchy sol p.hierarchy ⟨s.params, q⟩ = (.ok sol', ⟨s.params, q⟩) := by
      simp [qpmadSolver, qpmadBackend, changing, k2, hreg]
      rfl
    have hcrash : s.params.crashOnAnyFailure = true := by rw [hpar]; rfl
    by_cases hst : sol'.status = .ok
    · left
      obtain ⟨m1, m2⟩ := k3 hst
      refine ⟨sol', ⟨s.params, q⟩, ?_, hpar, m1, m2⟩
      simp only [Backend.solve, SM.bind_apply, e1, e2, e3, Backend.checkResults, hst]
      simp [SM.pure_apply]
    · right
      refine ⟨⟨s.params, q⟩, ?_, .inr ?_⟩
      · simp only [Backend.solve, SM.bind_apply, e1, e2, e3, Backend.checkResults, hcrash]
        simp [hst]
      · rcases ilualu_init h1 h2 h3 (by rw [h3]; exact h5.inRange) h5.minimise h5.simple u.objective u.constraints s.mem.1 s.mem.2 false with
          ⟨q', j1, j2, j3, j4, j5, j6, j7, j8, j9, j10, j11⟩ | ⟨hbad, -⟩
        · have j1 : qpmadInitialize u.objective u.constraints s.mem p.hierarchy (4 * mpc.intervals.length) = .ok q' := j1
          cases k0.symm.trans j1
          refine ⟨qpmadArgs q.1 q.2, ⟨j2.rows, j2.cols, j2.n, j6, j7, j3, j4, j5⟩, fun x hx => ?_, fun x hx hM => ?_, fun x y X Y hX hY => ?_,
            fun e => hst ?_⟩
          · obtain ⟨x1, x2, x3⟩ := hx
            exact (hfeas x).1 (j10 _ x3 (fun v hv => ⟨x1 v hv, x2 v (show v < q.2.ub.n by rw [j7]; exact hv)⟩))
          · obtain ⟨y1, y2⟩ := j11 x ((hfeas x).2 hx) ⟨fun ti hti => h5.within ti hti x, hM⟩
            exact ⟨fun v hv => (y2 v hv).1, fun v hv => (y2 v (by rw [← j7]; exact hv)).2, y1⟩
          · have hv : ∀ x, lowerQuadratic q.1.H x / 2 + linear q.1.g x =
                leastSquares L1.tasks x / 2 - leastSquares L1.tasks (fun _ => 0) / 2 := by
              intro x
              linear_combination j2.value x
            show 2 * ((lowerQuadratic q.1.H x / 2 + linear q.1.g x) - (lowerQuadratic q.1.H y / 2 + linear q.1.g y)) = _
            rw [hv, hv, ← h4.cost x X hX, ← h4.cost y Y hY]
            ring
          · have : qpmadSolve ext 0 q sol = .ok { sol with x := (ext (qpmadArgs q.1 q.2)).2, status := qpmadStatus (ext (qpmadArgs q.1 q.2)).1 } := by
              unfold qpmadSolve
              rw [hreg]
              rfl
            rw [← Except.ok.inj (this.symm.trans k2)]
            simp [e, qpmadStatus]
        · have hbad : qpmadInitialize u.objective u.constraints s.mem p.hierarchy (4 * mpc.intervals.length) = .error .thrown := hbad
          cases k0.symm.trans hbad
  · right
    rw [← hnv] at k1
    have e2 : (qpmadSolver ext u).init p.hierarchy sol.structure_ s = (.error .thrown, s) := by
      simp [qpmadSolver, qpmadBackend, changing, k1]
    refine ⟨s, ?_, .inl fun x hx hf => k2 x _ hx (simulation_simulates (pepper_ready hu).sane.times rfl x)
      (hf _ (simulation_simulates (pepper_ready hu).sane.times rfl x))⟩
    simp only [Backend.solve, SM.bind_apply, e1, e2]

end

end Humoto.Pepper
