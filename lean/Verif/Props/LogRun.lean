import Verif.Spec.LogRun
import Verif.Props.LogTree
import Verif.Props.WpgProgram
import Verif.Props.PepperProgram

/-!
# C104: logs of programs which run
-/

namespace Humoto.LogTree

open LogName LogName.Spec LogText LogText.Spec Bridge

theorem fits_of_shape {E K κ : Type} {P : Hierarchy E K} {R : TaskInfo E K → κ → Prop} {kinds : List (List κ)}
    (h : List.Forall₂ (fun (L : Level E K) ks => List.Forall₂ R L.tasks ks) P.levels kinds) (h1 : kinds.length < 2 ^ 64)
    (h2 : ∀ ks ∈ kinds, ks.length < 2 ^ 64) : Spec.Fits P := by
  refine ⟨h.length_eq ▸ h1, ?_⟩
  clear h1
  generalize P.levels = l at h
  induction h with
  | nil => intro L hL; cases hL
  | cons h _ ih =>
    intro L hL
    rcases List.mem_cons.1 hL with rfl | hL
    · rw [h.length_eq]
      exact h2 _ (by simp)
    · exact ih (fun ks hks => h2 ks (by simp [hks])) L hL

section
open Humoto.Wpg Humoto.Spec Humoto.Spec.Wpg

/-- There are at most twice as many walk states as intervals. -/
theorem walkStates_length {c : Stance} {p : FSMParams} {f : FSM} (h : StanceReachable c p f) (hp : Proper p)
    (hf : f.time < f.cur.duration) {mpc mpc' : Wpg.Mpc} (hN : mpc.parameters.preview_horizon_length < 2 ^ 63) {model : Wpg.Model} {nan : ℝ}
    {junkH : ℕ → Wpg.Interval} {junk : ℕ → ℕ → ℕ → ℕ → ℝ} {junkI : ℕ → ℕ → ℕ} {w : WalkParameters}
    (hu : UpdateReturns nan junkH junk junkI model f w mpc (.ok (mpc', .ok))) :
    mpc'.horizon.intervals.n = mpc.parameters.preview_horizon_length ∧
      mpc'.horizon.walk_states.length ≤ 2 * mpc.parameters.preview_horizon_length := by
  obtain ⟨H, m, h1, h2, rfl⟩ := update_ok hu
  obtain ⟨l, hl, hc, hW, hF⟩ := formed_of h hp hf hN h1
  have hr : ReachesLast mpc.parameters.preview_horizon_length mpc.parameters.sampling_time_ms l := by
    by_contra hr
    rw [(matrices_of_formed hF junk junkI model).2 hr] at h2
    cases h2
  refine ⟨hW.size, ?_⟩
  show H.walk_states.length ≤ _
  rw [hF.lengths, hF.length.2.1 hr]
  have hs : H.variable_steps.length + 1 ≤ mpc.parameters.preview_horizon_length := by
    have hnd : (0 :: H.variable_steps).Nodup :=
      List.nodup_cons.2 ⟨fun h => absurd (hW.range 0 h).1 (by omega), hW.sorted.imp fun h => Nat.ne_of_lt h⟩
    have hsub : 0 :: H.variable_steps ⊆ List.range mpc.parameters.preview_horizon_length := fun k hk => by
      rcases List.mem_cons.1 hk with rfl | hk
      · exact List.mem_range.2 hF.pos
      · exact List.mem_range.2 (hW.range k hk).2
    simpa using (hnd.subperm hsub).length_le
  have hfs : firstSupport l ≤ 1 := by
    unfold firstSupport
    split
    · split <;> omega
    · omega
  omega

/-- C104: whatever the walking program does, with any solver, any parameters and any number of iterations, its log can be read back, and
exactly what was logged is found. -/
theorem C104_walking_run {num : ℝ → Str} (hn : ∀ x, Token (num x)) {p : FSMParams} {N T : ℕ} {q : MPCParameters} {o : Wpg.ProblemSetup} {nan : ℝ}
    {ext : Qpoases ℝ} (hp : LoopParameters p N T) (hq : MPCParameters.make N T T T = .ok q) (hg : o.terminal = true → o.terminalGain ≠ 0)
    (hext : TrustedSolver ext) {s0 : Wpg.Program} (h0 : ProgramStart p q o s0) (steps : List WpgStep) (hl : steps.length ≤ 2 ^ 32)
    (h : ∀ i x, steps[i]? = some x → Spec.WalkLogged ext nan T s0 i x) :
    ∃ env, load (write (logWpgProgram num steps)) = some env ∧ Exactly env (Spec.wpgProgram num steps) := by
  refine C104_walking hn steps hl fun x hx => ?_
  obtain ⟨i, hi⟩ := List.getElem?_of_mem hx
  obtain ⟨⟨a, u, w, mpc, ha, hu, hs⟩, hlab, h1, h2⟩ := h i x hi
  obtain ⟨⟨side, k, hh, hI⟩, -⟩ := program_after hp hq hg hext h0 ha
  have hpar : (loopOf a).mpc.parameters = q := hI.loop.parameters
  obtain ⟨e1, -⟩ := C55_derived hq
  have hN : a.mpc.parameters.preview_horizon_length = N := by
    rw [show a.mpc.parameters = q from hpar]; exact e1
  have hw := walkStates_length hI.loop.machine.reach hp.proper hI.loop.machine.inside
    (by rw [hN]; exact hp.horizon.2) (mpc := a.mpc) hu
  rcases solve_step hp hq hg hext hI hu with ⟨s1, e, hS⟩ | ⟨e, -⟩
  swap
  · rw [hs] at e; cases e
  rw [hs] at e
  cases e
  have hNb := hp.horizon.2
  rw [hN] at hw
  refine ⟨?_, hlab, ?_, ?_, h1, h2⟩
  · refine fits_of_shape hS.problem.shape (by simp [walkTasks]) fun ks hks => ?_
    simp only [walkTasks, List.mem_cons, List.not_mem_nil, or_false] at hks
    rcases hks with rfl | rfl
    · split <;> simp
    · simp
  · rw [hS.controller, hw.1]; omega
  · rw [hS.controller]; omega

end

section
open Humoto.Wpg Humoto.Spec Humoto.Spec.Wpg

/-- An iteration which was made has logged something. -/
theorem logged_of_iteration {ext : Qpoases ℝ} {nan : ℝ} {T : ℕ} {u : Wpg.Memory} {w : WalkParameters} {s s' : Wpg.Program}
    (h : IterationReturns ext nan T u w s (.ok (some s'))) : ∃ mpc s1,
      UpdateReturns nan u.horizon u.matrices u.indices s.model s.fsm w s.mpc (.ok (mpc, .ok)) ∧ s.solveProblem ext u mpc = .ok s1 := by
  obtain ⟨fuel, h⟩ := h
  unfold Wpg.Program.iterate at h
  split at h
  · cases h
  · cases h
  · rename_i mpc hu
    split at h
    · cases h
    · rename_i s1 hs
      exact ⟨mpc, s1, ⟨fuel, hu⟩, hs⟩
  · cases h

/-- After `n` iterations there are `n` parts of the log. -/
theorem logged_of_after {ext : Qpoases ℝ} {nan : ℝ} {T : ℕ} {s0 s : Wpg.Program} {n : ℕ} (h : ProgramAfter ext nan T s0 n s) :
    ∃ steps : List WpgStep, steps.length = n ∧ ∀ i x, steps[i]? = some x → Spec.WalkLogged ext nan T s0 i x := by
  induction h with
  | start => exact ⟨[], rfl, fun i x hx => by simp at hx⟩
  | @step n a b u w ha hs ih =>
    obtain ⟨steps, hl, h⟩ := ih
    obtain ⟨mpc, s1, hu, hs1⟩ := logged_of_iteration hs
    refine ⟨steps ++ [⟨s1, fun _ _ => ⟨"TaskCoMVelocity".toList, 0, .nothing⟩, 0, 0, 0, 0, 0, [], []⟩], by simp [hl], fun i x hx => ?_⟩
    by_cases hi : i < steps.length
    · rw [List.getElem?_append_left hi] at hx
      exact h i x hx
    · rw [List.getElem?_append_right (by omega)] at hx
      obtain ⟨h0, hx⟩ := List.getElem?_eq_some_iff.1 hx
      have hin : i = n := by simp at h0; omega
      subst hin
      simp only [List.getElem_singleton] at hx
      subst hx
      exact ⟨⟨a, u, w, mpc, ha, hu, hs1⟩, fun _ _ => ⟨by simp, trivial⟩, by simp, by simp⟩

/-- The default walk: the log of all 74 iterations can be read back. -/
example {num : ℝ → Str} (hn : ∀ x, Token (num x)) (nan : ℝ) (u : ℕ → Wpg.Memory) (w : WalkParameters) : ∃ ext s0 steps,
    (∀ i x, steps[i]? = some x → Spec.WalkLogged ext nan 100 s0 i x) ∧ steps.length = 74 ∧
    ∃ env, load (write (logWpgProgram num steps)) = some env ∧ Exactly env (Spec.wpgProgram num steps) := by
  obtain ⟨ext, h1, h2⟩ := exists_solver
  obtain ⟨q, hq⟩ : ∃ q, MPCParameters.make 16 100 100 100 = .ok q := ⟨_, rfl⟩
  obtain ⟨s0, h0, hm⟩ := default_program nan (q := q) false false
  have hf : SaneFeet s0.model.params := by rw [hm]; exact feet20_sane
  obtain ⟨s, -, hs, -⟩ := C84_completes (nan := nan) default_loop hq rfl h1 h2 h0 hf u w
  obtain ⟨steps, hl, h⟩ := logged_of_after hs
  have hl : steps.length = 74 := hl
  exact ⟨ext, s0, steps, h, hl, C104_walking_run hn default_loop hq (fun e => by cases e) h1 h0 steps (by omega) h⟩

end

section
open Humoto.Pepper Humoto.Spec
variable {K : Type} [Field K] [LinearOrder K] [IsStrictOrderedRing K]

/-- C104: whatever the program of Pepper does, its log can be read back, and exactly what was logged is found. -/
theorem C104_pepper_run {num : K → Str} (hn : ∀ x, Token (num x)) {v : ProgramKind} {q : Pepper.MPCParameters} {o : Pepper.ProblemSetup K}
    {m : Pepper.MotionParameters K} {ext : Qpoases K} {tr : Trig K} (hq : PepperParameters v q) (hext : TrustedSolver ext)
    {s0 : Pepper.Program K} (h0 : PepperStart q o m s0) (steps : List (MgStep K)) (hl : steps.length < 2 ^ 64)
    (h : ∀ i x, steps[i]? = some x → Spec.PepperLogged v ext tr s0 i x) :
    ∃ env, load (write (logMgProgram num steps)) = some env ∧ Exactly env (Spec.mgProgram num steps) := by
  refine C104_pepper hn steps hl fun x hx => ?_
  obtain ⟨i, hi⟩ := List.getElem?_of_mem hx
  obtain ⟨⟨a, u, mpc, m', ha, hu, hs⟩, hlab⟩ := h i x hi
  obtain ⟨⟨last, hI⟩, -⟩ := pepper_after_inv hq hext h0 ha
  obtain ⟨mpc', st, hu', -, hok⟩ := pepper_update hq hI u tr
  rw [hu] at hu'
  cases hu'
  obtain ⟨hpar, -, -, hH, -, hU⟩ := hok rfl
  rcases pepper_solve hq hext hI hpar hH.1 hU (u := u) m' with ⟨s1, e, hS⟩ | ⟨e, -⟩
  swap
  · rw [hs] at e; cases e
  rw [hs] at e
  cases e
  refine ⟨?_, hlab, ?_⟩
  · have hsh : ∃ Q, PepperShaped o Q x.program.problem := by
      have := hS.problem
      unfold ProblemInv at this
      split at this
      · exact ⟨_, this.2⟩
      · exact ⟨_, pepper_after this⟩
    obtain ⟨Q, hsh⟩ := hsh
    refine fits_of_shape hsh.shape (by simp [pepperTasks]) fun ks hks => ?_
    simp only [pepperTasks, List.mem_cons, List.not_mem_nil, or_false] at hks
    rcases hks with rfl | rfl <;> simp
  · rw [hS.controller, hH.1]
    have h1 := hq.representable
    have h2 := hq.sampling
    nlinarith

end

end Humoto.LogTree
