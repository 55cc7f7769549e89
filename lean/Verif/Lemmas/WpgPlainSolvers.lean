import Verif.Lemmas.WpgPlain

/-!
# What QuadProg++ and qpmad do with the problems of a walk
-/

namespace Humoto.Wpg

open Spec Spec.Wpg Bridge

section
variable {o : ProblemSetup} {model : Model} {mpc : Mpc} {p : Problem}

/-- Inputs are accepted. -/
theorem plain_inputs (hg : o.terminal = true → o.terminalGain ≠ 0) (hu : Updated model mpc) (hp : FormedProblem o model mpc p) :
    qpCheckInputs SolverParameters.default p.hierarchy = .ok () := by
  obtain ⟨P, env, g, L0, L1, h1, h2, h3, h4, h5⟩ := formed_solvable hg hu hp
  refine ((C18_checkInputs h1 h2 _).1).2 ⟨rfl, .inr (by rw [h3]; rfl), fun L hl ti hti _ => ?_⟩
  rw [h3] at hl
  cases hl
  exact (h5.minimise ti hti).1

theorem solution_nvars (hu : Updated model mpc) {sol : Solution ℝ} (hs : SolutionFor mpc.horizon sol) :
    sol.structure_.nvars = problemSize mpc := by
  have hR : Ready model mpc := updated_ready hu
  rw [hs.structure_, ← hR.structure_, hR.nvars]

theorem quadprog_answers (hg : o.terminal = true → o.terminalGain ≠ 0) (hr : RegularSetup o)
    {ext : QuadProgArgs ℝ → QuadProgStatus × List ℝ} (hext : TrustedQuadProg ext) :
    Answers (quadprogSolver ext) o (QuadProgFails ext o) := by
  intro model mpc p hu hp u sol hs s hpar
  obtain ⟨q, sol', k1, k2, k3⟩ := C82_quadprog hg hu hp u.objective u.constraints s.mem le_rfl (.inr hr) hext hs
  obtain ⟨P, env, g, L0, L1, h1, h2, h3, h4, h5⟩ := formed_solvable hg hu hp
  obtain ⟨q', a, j1, j2, j3, -, j5, j6⟩ := C50_translation h1 h2 h3 (by rw [h3]; exact h5.inRange) h5.minimise u.objective u.constraints
    s.mem (le_refl (0 : ℝ))
  cases k1.symm.trans j1
  have hc := plain_inputs hg hu hp
  rw [← hpar] at hc
  rw [← solution_nvars hu hs] at k1
  have e1 : (quadprogSolver ext u).checkInputs p.hierarchy s = (.ok (), s) := by
    show (qpCheckInputs s.params p.hierarchy, s) = _
    rw [hc]
  have e2 : (quadprogSolver ext u).init p.hierarchy sol.structure_ s = (.ok (), ⟨s.params, q⟩) := by
    simp [quadprogSolver, quadprogBackend, changing, k1]
  have hreg : regularizeIf (0 : ℝ) q.1 = .ok q.1 := by
    unfold regularizeIf
    rw [assertThat_true le_rfl, ok_bind, if_neg (lt_irrefl _)]
    rfl
  have e3 : (quadprogSolver ext u).solveHierarchy sol p.hierarchy ⟨s.params, q⟩ = (.ok sol', ⟨s.params, q⟩) := by
    simp [quadprogSolver, quadprogBackend, changing, k2, hreg]
    rfl
  have hcrash : s.params.crashOnAnyFailure = true := by rw [hpar]; rfl
  by_cases hst : sol'.status = .ok
  · left
    obtain ⟨m1, m2⟩ := k3 hst
    refine ⟨sol', ⟨s.params, q⟩, ?_, hpar, m1, m2.allowed, fun c y d hc hy _ hd => m2.least c y d hc hy trivial hd⟩
    simp only [Backend.solve, SM.bind_apply, e1, e2, e3, Backend.checkResults, hst]
    simp [SM.pure_apply]
  · right
    refine ⟨⟨s.params, q⟩, ?_, a, j3, fun x => (j5 x).trans (h4.allowed x), fun x y c d hc hd => ?_, fun e => hst ?_⟩
    · simp only [Backend.solve, SM.bind_apply, e1, e2, e3, Backend.checkResults, hcrash]
      simp [hst]
    · rw [j6, j6, (h4.cost x c).1 hc, (h4.cost y d).1 hd]
      ring
    · have := (j2 ext sol).symm.trans k2
      rw [← Except.ok.inj this]
      simp [e]

theorem qpmad_answers (hg : o.terminal = true → o.terminalGain ≠ 0) (hr : RegularSetup o)
    {ext : QpmadArgs ℝ → QpmadStatus × List ℝ} (hext : TrustedQpmad ext) :
    Answers (qpmadSolver ext) o
      (fun H model => (∀ x, ModerateSolution H x → ¬ AllowedMotion o H model x) ∨ QpmadFails ext o H model) := by
  intro model mpc p hu hp u sol hs s hpar
  have hc := plain_inputs hg hu hp
  rw [← hpar] at hc
  have e1 : (qpmadSolver ext u).checkInputs p.hierarchy s = (.ok (), s) := by
    show (qpCheckInputs s.params p.hierarchy, s) = _
    rw [hc]
  rcases C82_qpmad hg hu hp u.objective u.constraints s.mem le_rfl (.inr hr) hext hs with ⟨q, sol', k1, k2, k3⟩ | ⟨k1, k2⟩
  · obtain ⟨P, env, g, L0, L1, h1, h2, h3, h4, h5⟩ := formed_solvable hg hu hp
    have k0 := k1
    rw [← solution_nvars hu hs] at k1
    have e2 : (qpmadSolver ext u).init p.hierarchy sol.structure_ s = (.ok (), ⟨s.params, q⟩) := by
      simp [qpmadSolver, qpmadBackend, changing, k1]
    have hreg : regularizeIf (0 : ℝ) q.1 = .ok q.1 := by
      unfold regularizeIf
      rw [assertThat_true le_rfl, ok_bind, if_neg (lt_irrefl _)]
      rfl
    have e3 : (qpmadSolver ext u).solveHierarchy sol p.hierarchy ⟨s.params, q⟩ = (.ok sol', ⟨s.params, q⟩) := by
      simp [qpmadSolver, qpmadBackend, changing, k2, hreg]
      rfl
    have hcrash : s.params.crashOnAnyFailure = true := by rw [hpar]; rfl
    by_cases hst : sol'.status = .ok
    · left
      obtain ⟨m1, m2⟩ := k3 hst
      refine ⟨sol', ⟨s.params, q⟩, ?_, hpar, m1, m2⟩
      simp only [Backend.solve, SM.bind_apply, e1, e2, e3, Backend.checkResults, hst]
      simp [SM.pure_apply]
    · right
      refine ⟨⟨s.params, q⟩, ?_, .inr ?_⟩
      · simp only [Backend.solve, SM.bind_apply, e1, e2, e3, Backend.checkResults, hcrash]
        simp [hst]
      · rcases ilualu_init h1 h2 h3 (by rw [h3]; exact h5.inRange) h5.minimise h5.simple u.objective u.constraints s.mem.1 s.mem.2 false with
          ⟨q', j1, j2, j3, j4, j5, j6, j7, j8, j9, j10, j11⟩ | ⟨hbad, -⟩
        · have j1 : qpmadInitialize u.objective u.constraints s.mem p.hierarchy (problemSize mpc) = .ok q' := j1
          cases k0.symm.trans j1
          refine ⟨qpmadArgs q.1 q.2, ⟨j2.rows, j2.cols, j2.n, j6, j7, j3, j4, j5⟩, fun x hx => ?_, fun x hx hM => ?_, fun x y c d hc hd => ?_,
            fun e => hst ?_⟩
          · obtain ⟨x1, x2, x3⟩ := hx
            exact (h4.allowed x).1 (j10 _ x3 (fun v hv => ⟨x1 v hv, x2 v (show v < q.2.ub.n by rw [j7]; exact hv)⟩))
          · obtain ⟨y1, y2⟩ := j11 x ((h4.allowed x).2 hx) ⟨fun ti hti => h5.within ti hti x, hM⟩
            exact ⟨fun v hv => (y2 v hv).1, fun v hv => (y2 v (by rw [← j7]; exact hv)).2, y1⟩
          · have hv : ∀ x, lowerQuadratic q.1.H x / 2 + linear q.1.g x =
                leastSquares L1.tasks x / 2 - leastSquares L1.tasks (fun _ => 0) / 2 := by
              intro x
              linear_combination j2.value x
            show 2 * ((lowerQuadratic q.1.H x / 2 + linear q.1.g x) - (lowerQuadratic q.1.H y / 2 + linear q.1.g y)) = c - d
            rw [hv, hv, (h4.cost x c).1 hc, (h4.cost y d).1 hd]
            ring
          · have : qpmadSolve ext 0 q sol = .ok { sol with x := (ext (qpmadArgs q.1 q.2)).2, status := qpmadStatus (ext (qpmadArgs q.1 q.2)).1 } := by
              unfold qpmadSolve
              rw [hreg]
              rfl
            rw [← Except.ok.inj (this.symm.trans k2)]
            simp [e, qpmadStatus]
        · have hbad : qpmadInitialize u.objective u.constraints s.mem p.hierarchy (problemSize mpc) = .error .thrown := hbad
          cases k0.symm.trans hbad
  · right
    rw [← solution_nvars hu hs] at k1
    have e2 : (qpmadSolver ext u).init p.hierarchy sol.structure_ s = (.error .thrown, s) := by
      simp [qpmadSolver, qpmadBackend, changing, k1]
    refine ⟨s, ?_, .inl k2⟩
    simp only [Backend.solve, SM.bind_apply, e1, e2]

end

end Humoto.Wpg
