import Verif.Spec.QpoasesSolver
import Verif.Props.BridgesSolve
import Verif.Props.Solver
import Mathlib.Topology.Algebra.Order.Field
import Mathlib.Topology.Instances.Real.Lemmas
import Mathlib.Topology.Order.Compact

/-!
# The solver which uses qpOASES: C83
-/

namespace Humoto.Bridge

open Spec Finset

set_option linter.unusedSectionVars false

variable {E K : Type} [Field K] [LinearOrder K] [IsStrictOrderedRing K]

/-- The bounds which `initialize` leaves. -/
theorem bounds_of_init {P P' : Hierarchy E K} {nv : ℕ} {env : E} {g : Bool} (h : P.form nv env g = .ok P')
    (hr : ∀ L ∈ P.levels, Reachable L) {L0 L1 : Level E K} (hL : P'.levels = [L0, L1])
    (hi : ∀ L ∈ P'.levels, ∀ ti ∈ L.tasks, InRange ti.task.ctr)
    (hI : ∀ ti ∈ L0.tasks, ti.task.ctr.ctype.isSimple = true → ti.task.ctr.ctype.hasILUCopy = true)
    {z : ℕ → ℕ → K} {zc : Junk K} {old q : QPObjective K × QPConstraintsILUALU K}
    (hq : qpoasesInitialize z zc old P' nv = .ok q) : BoundsOf L0 nv q.2 := by
  obtain ⟨M0, hr0, h0⟩ := hierarchy_level h hr (L' := L0) (by simp [hL])
  exact boundsOf hr0 h0 (hi L0 (by simp [hL])) hI (init_constraints hL hq)

/-- The solution which is returned with an answer of qpOASES. -/
def answered (sol : Solution K) (r : QpoasesAnswer K) : Solution K :=
  { sol with x := (List.range sol.structure_.nvars).map r.x ++ sol.x.drop sol.structure_.nvars, status := qpoasesStatus r.status }

theorem answered_eq {sol : Solution K} (hx : sol.structure_.nvars ≤ sol.x.length) (q : QPObjective K × QPConstraintsILUALU K) (r : QpoasesAnswer K) :
    qpoasesSolve (fun _ => (r.status, r.x)) q sol = .ok (answered sol r) := by
  unfold qpoasesSolve
  simp only
  rw [require_true hx, ok_bind]
  rfl

/-- The stages of all entry points. -/
structure Stages (B : Backend (Hierarchy E K) ActiveSetH K (QpoasesMem K)) (ext : Qpoases K) (P : Hierarchy E K) (sol : Solution K)
    (e : Entry ActiveSetH K) (p : SolverParameters) (m : QpoasesMem K) (q : QPObjective K × QPConstraintsILUALU K) : Prop where
  check : B.checkInputs P ⟨p, m⟩ = (.ok (), ⟨p, m⟩)
  init : B.init P sol.structure_ ⟨p, m⟩ = (.ok (), ⟨p, ⟨q, none, none, none⟩⟩)
  guess : ∀ g, B.setSolutionGuess g ⟨p, ⟨q, none, none, none⟩⟩ = (.ok (), ⟨p, ⟨q, some g.x, none, none⟩⟩)
  set : ∀ a, Entry.activeSetGuess e = some a → ∃ gs, ∀ gx, B.setActiveSet a P ⟨p, ⟨q, gx, none, none⟩⟩ = (.ok (), ⟨p, ⟨q, gx, some gs, none⟩⟩)
  solve : ∀ (gx : Option (List K)) gs, (∀ g ∈ gx, sol.structure_.nvars ≤ g.length) → B.solveHierarchy sol P ⟨p, ⟨q, gx, gs, none⟩⟩ =
    (.ok (answered sol (ext (qpoasesArgs sol.structure_.nvars q) (gx.map fun g i => g.getD i 0) gs)),
      ⟨p, ⟨q, none, none, some (ext (qpoasesArgs sol.structure_.nvars q) (gx.map fun g i => g.getD i 0) gs)⟩⟩)
  get : ∀ r a, getActiveSet q.2 r.bounds r.constraints P = .ok a →
    B.getActiveSet P ⟨p, ⟨q, none, none, some r⟩⟩ = (.ok a, ⟨p, ⟨q, none, none, some r⟩⟩)

theorem checkResults_answered {p : SolverParameters} {m : QpoasesMem K} {sol : Solution K} {r : QpoasesAnswer K} (hcrash : p.crashOnAnyFailure = true) :
    Backend.checkResults (answered sol r) ⟨p, m⟩ = (if r.status = .successfulReturn then .ok () else .error .thrown, ⟨p, m⟩) := by
  unfold Backend.checkResults answered
  cases r.status <;> simp [qpoasesStatus, hcrash]

theorem stages_solve {B : Backend (Hierarchy E K) ActiveSetH K (QpoasesMem K)} {ext : Qpoases K} {P : Hierarchy E K} {L0 : Level E K}
    {sol : Solution K} {e : Entry ActiveSetH K} {s : SolverState (QpoasesMem K)} {q : QPObjective K × QPConstraintsILUALU K}
    (h : Stages B ext P sol e (Entry.parameters s.params e) s.mem q) (hfit : GuessesFit L0 sol.structure_.nvars e)
    (hcrash : (Entry.parameters s.params e).crashOnAnyFailure = true) :
    ∃ gx gs, (gx = (Entry.solutionGuess e).map fun g i => g.x.getD i 0) ∧
      ((ext (qpoasesArgs sol.structure_.nvars q) gx gs).status ≠ .successfulReturn → ∃ s', B.solve sol P e s = (.error .thrown, s')) ∧
      ((ext (qpoasesArgs sol.structure_.nvars q) gx gs).status = .successfulReturn → ∀ a,
        getActiveSet q.2 (ext (qpoasesArgs sol.structure_.nvars q) gx gs).bounds (ext (qpoasesArgs sol.structure_.nvars q) gx gs).constraints P = .ok a →
        ∃ s', B.solve sol P e s = (.ok (answered sol (ext (qpoasesArgs sol.structure_.nvars q) gx gs),
          if Entry.returnsActiveSet e then some a else none), s') ∧ s'.params = Entry.parameters s.params e) := by
  obtain ⟨h1, h2, h3, h4, h5, h6⟩ := h
  obtain ⟨hf1, -⟩ := hfit
  obtain ⟨p, m⟩ := s
  have k5 : ∀ gs, _ := fun gs => h5 none gs (fun g hg => by cases hg)
  have k6 : ∀ g, Entry.solutionGuess e = some g → ∀ gs, _ := fun g hg gs => h5 (some g.x) gs (fun g' hg' => by
    cases hg'
    exact hf1 g hg)
  cases e <;> simp only [Entry.parameters, Entry.solutionGuess, Entry.activeSetGuess, Entry.returnsActiveSet, Option.map_none, Option.map_some] at *
  case plain =>
    refine ⟨none, none, rfl, fun hs => ?_, fun hs a ha => ?_⟩ <;>
      simp [Backend.solve, SM.bind_apply, SM.pure_apply, h1, h2, k5, checkResults_answered hcrash, hs]
  case params p' =>
    refine ⟨none, none, rfl, fun hs => ?_, fun hs a ha => ?_⟩ <;>
      simp [Backend.solve, SM.bind_apply, SM.pure_apply, Backend.setParams, h1, h2, k5, checkResults_answered hcrash, hs]
  case guess g =>
    refine ⟨some fun i => g.x.getD i 0, none, rfl, fun hs => ?_, fun hs a ha => ?_⟩ <;>
      simp only [Backend.solve, SM.bind_apply, SM.pure_apply, h1, h2, h3, k6 g rfl, checkResults_answered hcrash, Option.map_some, hs, if_true, if_false] <;> simp
  case activeSetInOut a0 =>
    obtain ⟨gs, h4⟩ := h4 a0 rfl
    refine ⟨none, some gs, rfl, fun hs => ?_, fun hs a ha => ?_⟩
    · simp [Backend.solve, SM.bind_apply, SM.pure_apply, h1, h2, h4, k5, checkResults_answered hcrash, hs]
    · simp [Backend.solve, SM.bind_apply, SM.pure_apply, h1, h2, h4, k5, checkResults_answered hcrash, hs, h6 _ a ha]
  case activeSetIn a0 =>
    obtain ⟨gs, h4⟩ := h4 a0 rfl
    refine ⟨none, some gs, rfl, fun hs => ?_, fun hs a ha => ?_⟩ <;>
      simp [Backend.solve, SM.bind_apply, SM.pure_apply, h1, h2, h4, k5, checkResults_answered hcrash, hs]
  case activeSetOut =>
    refine ⟨none, none, rfl, fun hs => ?_, fun hs a ha => ?_⟩
    · simp [Backend.solve, SM.bind_apply, SM.pure_apply, h1, h2, k5, checkResults_answered hcrash, hs]
    · simp [Backend.solve, SM.bind_apply, SM.pure_apply, h1, h2, k5, checkResults_answered hcrash, hs, h6 _ a ha]
  case guessActiveSetInOut g a0 =>
    obtain ⟨gs, h4⟩ := h4 a0 rfl
    refine ⟨some fun i => g.x.getD i 0, some gs, rfl, fun hs => ?_, fun hs a ha => ?_⟩
    · simp only [Backend.solve, SM.bind_apply, SM.pure_apply, h1, h2, h3, h4, k6 g rfl, checkResults_answered hcrash, Option.map_some, hs, if_false]
      simp
    · simp only [Backend.solve, SM.bind_apply, SM.pure_apply, h1, h2, h3, h4, k6 g rfl, checkResults_answered hcrash, Option.map_some, hs, h6 _ a ha, if_true]
      simp
  case guessActiveSetIn g a0 =>
    obtain ⟨gs, h4⟩ := h4 a0 rfl
    refine ⟨some fun i => g.x.getD i 0, some gs, rfl, fun hs => ?_, fun hs a ha => ?_⟩ <;>
      simp only [Backend.solve, SM.bind_apply, SM.pure_apply, h1, h2, h3, h4, k6 g rfl, checkResults_answered hcrash, Option.map_some, hs, if_true, if_false] <;> simp
  case guessActiveSetOut g =>
    refine ⟨some fun i => g.x.getD i 0, none, rfl, fun hs => ?_, fun hs a ha => ?_⟩
    · simp only [Backend.solve, SM.bind_apply, SM.pure_apply, h1, h2, h3, k6 g rfl, checkResults_answered hcrash, Option.map_some, hs, if_false]
      simp
    · simp only [Backend.solve, SM.bind_apply, SM.pure_apply, h1, h2, h3, k6 g rfl, checkResults_answered hcrash, Option.map_some, hs, h6 _ a ha, if_true]
      simp

theorem stages_of (ext : Qpoases K) (z : ℕ → ℕ → K) (zc : Junk K) {P : Hierarchy E K} {L0 : Level E K} {sol : Solution K} {e : Entry ActiveSetH K}
    {p : SolverParameters} {m : QpoasesMem K} {q : QPObjective K × QPConstraintsILUALU K} (hc : qpCheckInputs p P = .ok ())
    (hq : qpoasesInitialize z zc m.problem P sol.structure_.nvars = .ok q) (hb : BoundsOf L0 sol.structure_.nvars q.2)
    (hfit : GuessesFit L0 sol.structure_.nvars e) (hx : sol.structure_.nvars ≤ sol.x.length) :
    Stages (qpoasesBackend ext z zc) ext P sol e p m q := by
  refine ⟨?_, ?_, fun g => rfl, fun a ha => ?_, fun gx gs hg => ?_, fun r a ha => ?_⟩
  · simp [qpoasesBackend, hc]
  · simp [qpoasesBackend, changing, QpoasesMem.initialize, hq]
  · obtain ⟨c, h1, h2, h3⟩ := hfit.active a ha
    obtain ⟨gc, gb, h4, -⟩ := C49_guess hb h1 h2 h3
    refine ⟨(gc, gb), fun gx => ?_⟩
    simp [qpoasesBackend, changing, QpoasesMem.setActiveSet, h4]
  · have h := answered_eq hx q (ext (qpoasesArgs sol.structure_.nvars q) (gx.map fun g i => g.getD i 0) gs)
    show changing (fun m : QpoasesMem K => m.solve ext sol) _ = _
    unfold changing QpoasesMem.solve
    simp only
    rw [require_true hg, ok_bind, h]
    rfl
  · simp [qpoasesBackend, QpoasesMem.getActiveSet, ha]

theorem init_fails {ext : Qpoases K} {z : ℕ → ℕ → K} {zc : Junk K} {P : Hierarchy E K} {sol : Solution K} {e : Entry ActiveSetH K}
    {s : SolverState (QpoasesMem K)} (hc : qpCheckInputs (Entry.parameters s.params e) P = .ok ()) {f : Fault}
    (hq : qpoasesInitialize z zc s.mem.problem P sol.structure_.nvars = .error f) :
    ∃ s', (qpoasesBackend ext z zc).solve sol P e s = (.error f, s') := by
  have h1 : (qpoasesBackend ext z zc).checkInputs P ⟨Entry.parameters s.params e, s.mem⟩ = (.ok (), ⟨Entry.parameters s.params e, s.mem⟩) := by
    simp [qpoasesBackend, hc]
  have h2 : (qpoasesBackend ext z zc).init P sol.structure_ ⟨Entry.parameters s.params e, s.mem⟩ = (.error f, ⟨Entry.parameters s.params e, s.mem⟩) := by
    simp [qpoasesBackend, changing, QpoasesMem.initialize, hq]
  generalize qpoasesBackend ext z zc = B at *
  obtain ⟨p, m⟩ := s
  cases e <;> simp only [Entry.parameters] at * <;> simp [Backend.solve, SM.bind_apply, Backend.setParams, h1, h2]

/-- Activations which are reported are not undefined. -/
theorem reported_decided {P P' : Hierarchy E K} {nv : ℕ} {env : E} {g : Bool} (h : P.form nv env g = .ok P')
    (hr : ∀ L ∈ P.levels, Reachable L) {L0 L1 : Level E K} (hL : P'.levels = [L0, L1])
    (hi : ∀ L ∈ P'.levels, ∀ ti ∈ L.tasks, InRange ti.task.ctr)
    (hI : ∀ ti ∈ L0.tasks, ti.task.ctr.ctype.isSimple = true → ti.task.ctr.ctype.hasILUCopy = true)
    {z : ℕ → ℕ → K} {zc : Junk K} {old q : QPObjective K × QPConstraintsILUALU K}
    (hq : qpoasesInitialize z zc old P' nv = .ok q) {wb wc : ℕ → K} (hwb : ∀ v, v < nv → WorkingValue (wb v))
    (hwc : ∀ i, i < q.2.general.A.rows → WorkingValue (wc i)) :
    ∃ a, getActiveSet q.2 wb wc P' = .ok a ∧ a.map List.length = [L0.nConstraints, L1.nConstraints] ∧
      ∀ c ∈ a, ∀ x ∈ c, x ≠ .undefined := by
  have hb := bounds_of_init h hr hL hi hI hq
  have hwc : ∀ i, i < L0.nGeneral → WorkingValue (wc i) := fun i hi => hwc i (by rw [hb.nC]; exact hi)
  obtain ⟨-, s0, k1, k2, k3, k4⟩ := report_rows h hr hL hi hI hq hwb hwc
  refine ⟨_, k1, by simp [k2], fun c hc x hx => ?_⟩
  rcases List.mem_cons.1 hc with rfl | hc
  · obtain ⟨i, hi', rfl⟩ := List.getElem_of_mem hx
    have hn : L0.nConstraints = L0.nGeneral + L0.nSimple := rfl
    by_cases hlt : i < L0.nGeneral
    · obtain ⟨a, ha, hra⟩ := k3 i hlt
      rw [List.getElem?_eq_getElem hi'] at ha
      cases ha
      obtain ⟨r1, r2, r3⟩ := hra
      intro hu
      rw [hu] at r1 r2 r3
      rcases hwc i hlt with e | e | e
      · cases r1.2 e
      · cases r2.2 e
      · cases r3.2 e
    · have ha := k4 (i - L0.nGeneral) (by omega)
      rw [show L0.nGeneral + (i - L0.nGeneral) = i by omega, List.getElem?_eq_getElem hi'] at ha
      rw [Option.some.inj ha]
      unfold boundAct
      split
      · split <;> decide
      · split
        · decide
        · split <;> decide
  · cases List.mem_singleton.1 hc
    rw [List.eq_of_mem_replicate hx]
    decide

/-- The problem which is given to qpOASES describes the hierarchy. -/
theorem qpoases_describes {P P' : Hierarchy E K} {nv : ℕ} {env : E} {g : Bool} (h : P.form nv env g = .ok P')
    (hr : ∀ L ∈ P.levels, Reachable L) {L0 L1 : Level E K} (hL : P'.levels = [L0, L1])
    (hi : ∀ L ∈ P'.levels, ∀ ti ∈ L.tasks, InRange ti.task.ctr) (hm : ∀ ti ∈ L1.tasks, CanMinimise ti.task.ctr)
    (hI : ∀ ti ∈ L0.tasks, ti.task.ctr.ctype.isSimple = true → ti.task.ctr.ctype.hasILUCopy = true)
    {z : ℕ → ℕ → K} {zc : Junk K} {old q : QPObjective K × QPConstraintsILUALU K}
    (hq : qpoasesInitialize z zc old P' nv = .ok q) :
    QpoasesDescribes (qpoasesArgs nv q) nv (LevelSatisfied L0) (Moderate L0 nv) (fun x c => c = leastSquares L1.tasks x)
      (BoundsVariables L0) := by
  rcases ilualu_init h hr hL hi hm hI z zc old.1 old.2 true with
    ⟨q', k1, k2, k3, k4, k5, k6, k7, k8, k9, k10, k11⟩ | ⟨hbad, -⟩
  · cases hq.symm.trans k1
    obtain ⟨hacc, hobj, hfeas⟩ := qpoases_args k2 k3 k8 k9
    refine ⟨rfl, hacc, fun x hx => ?_, fun x hx hM => ?_, fun x y c d hc hd => ?_, fun hB => ?_⟩
    · obtain ⟨h1, h2⟩ := (hfeas x).1 hx
      exact k10 x h1 h2
    · exact (hfeas x).2 (k11 x hx hM)
    · rw [hobj, hobj, hc, hd]
      have h1 := k2.full rfl x
      have h2 := k2.full rfl y
      linarith
    · obtain ⟨ti, hti, hs, hrow⟩ := hB
      have hb := bounds_of_init h hr hL hi hI hq
      obtain ⟨M0, hr0, h0⟩ := hierarchy_level h hr (L' := L0) (by simp [hL])
      obtain ⟨-, -, -, -, -, -, -, hS, -⟩ := C07_layout hr0 h0
      have hpos : q.2.bounds.idx.n > 0 := by
        rw [hb.nS, hS]
        refine lt_of_lt_of_le (Nat.pos_of_ne_zero hrow) (List.single_le_sum (fun _ _ => Nat.zero_le _) _ (List.mem_map.2 ⟨ti, ?_, rfl⟩))
        exact List.mem_filter.2 ⟨hti, hs⟩
      simp [qpoasesArgs, hpos]
  · cases hq.symm.trans hbad

/-- **C83.** For each entry point of the solver, with any guesses of the right size: either the answer is an optimal solution of the
hierarchy, together with an active set of its size without undefined entries if one is asked for, and the parameters of the solver are
those which were given; or there is an exception, for one of two reasons: there is no solution within the library infinity, or qpOASES was
given a correct description of the hierarchy and has not reported success. -/
theorem C83_solve {P P' : Hierarchy E K} {nv : ℕ} {env : E} {g : Bool} (h : P.form nv env g = .ok P')
    (hr : ∀ L ∈ P.levels, Reachable L) {L0 L1 : Level E K} (hL : P'.levels = [L0, L1])
    (hi : ∀ L ∈ P'.levels, ∀ ti ∈ L.tasks, InRange ti.task.ctr) (hm : ∀ ti ∈ L1.tasks, CanMinimise ti.task.ctr)
    (hI : ∀ ti ∈ L0.tasks, ti.task.ctr.ctype.isSimple = true → ti.task.ctr.ctype.hasILUCopy = true)
    {ext : Qpoases K} (hext : TrustedSolver ext) (z : ℕ → ℕ → K) (zc : Junk K) {sol : Solution K}
    (hn : sol.structure_.nvars = nv) (hx : sol.x.length = nv) {e : Entry ActiveSetH K} (hfit : GuessesFit L0 nv e)
    {s : SolverState (QpoasesMem K)} (hp : Entry.parameters s.params e = SolverParameters.default) :
    (∃ sol' a s', (qpoasesBackend ext z zc).solve sol P' e s = (.ok (sol', a), s') ∧ s'.params = SolverParameters.default ∧
      SolverAnswer L0 L1 nv sol sol' (Entry.returnsActiveSet e) a) ∨
    (∃ s', (qpoasesBackend ext z zc).solve sol P' e s = (.error .thrown, s') ∧
      ((∀ x, Moderate L0 nv x → ¬ LevelSatisfied L0 x) ∨
        ∃ a gs, QpoasesDescribes a nv (LevelSatisfied L0) (Moderate L0 nv) (fun x c => c = leastSquares L1.tasks x) (BoundsVariables L0) ∧
          (ext a ((Entry.solutionGuess e).map fun g i => g.x.getD i 0) gs).status ≠ .successfulReturn)) := by
  subst hn
  have hc : qpCheckInputs (Entry.parameters s.params e) P' = .ok () := by
    refine ((C18_checkInputs h hr _).1).2 ⟨by rw [hp]; rfl, .inr (by rw [hL]; rfl), fun L hl ti hti _ => ?_⟩
    rw [hL] at hl
    cases hl
    exact (hm ti hti).1
  have hcrash : (Entry.parameters s.params e).crashOnAnyFailure = true := by rw [hp]; rfl
  rcases hq : qpoasesInitialize z zc s.mem.problem P' sol.structure_.nvars with f | q
  · right
    rcases C67_qpoases h hr hL hi hm hI z zc s.mem.problem (hext.optimal none none) sol rfl hx with ⟨q, _, hq', -⟩ | ⟨hq', hno⟩
    · cases hq.symm.trans hq'
    · cases hq.symm.trans hq'
      obtain ⟨s', hs'⟩ := init_fails (ext := ext) (sol := sol) hc hq
      exact ⟨s', hs', .inl fun x hx => hno x hx.2⟩
  · have hb := bounds_of_init h hr hL hi hI hq
    have hS := stages_of ext z zc hc hq hb hfit (le_of_eq hx.symm)
    obtain ⟨gx, gs, hgx, h1, h2⟩ := stages_solve hS hfit hcrash
    by_cases hst : (ext (qpoasesArgs sol.structure_.nvars q) gx gs).status = .successfulReturn
    · left
      obtain ⟨a, ha, hl, hd⟩ := reported_decided h hr hL hi hI hq (hext.bounds _ gx gs hst) (hext.constraints _ gx gs hst)
      obtain ⟨s', hs', hps⟩ := h2 hst a ha
      refine ⟨_, _, s', hs', hps.trans hp, ?_⟩
      rcases C67_qpoases h hr hL hi hm hI z zc s.mem.problem (hext.optimal gx gs) sol rfl hx with ⟨q', sol', hq', m1, m2, m3, m4⟩ | ⟨hq', -⟩
      · cases hq.symm.trans hq'
        have m1' : qpoasesSolve (fun _ => ((ext (qpoasesArgs sol.structure_.nvars q) gx gs).status,
            (ext (qpoasesArgs sol.structure_.nvars q) gx gs).x)) q sol = .ok sol' := m1
        rw [answered_eq (le_of_eq hx.symm)] at m1'
        cases m1'
        have hok : (answered sol (ext (qpoasesArgs sol.structure_.nvars q) gx gs)).status = .ok := by
          unfold answered
          rw [hst]
          rfl
        refine ⟨m2, m3, hok, m4 hok, ?_, fun b hb => ?_⟩
        · cases Entry.returnsActiveSet e <;> rfl
        · cases hre : Entry.returnsActiveSet e
          · rw [hre] at hb; cases hb
          · rw [hre] at hb
            cases hb
            exact ⟨hl, hd⟩
      · cases hq.symm.trans hq'
    · right
      obtain ⟨s', hs'⟩ := h1 hst
      refine ⟨s', hs', .inr ⟨_, gs, qpoases_describes h hr hL hi hm hI hq, ?_⟩⟩
      rw [← hgx]
      exact hst

/-- **C83.** If feasible problems with bounds on the variables are solved by qpOASES, then a hierarchy with constraints on single variables,
which has a solution within the library infinity, is solved. -/
theorem C83_complete {P P' : Hierarchy E K} {nv : ℕ} {env : E} {g : Bool} (h : P.form nv env g = .ok P')
    (hr : ∀ L ∈ P.levels, Reachable L) {L0 L1 : Level E K} (hL : P'.levels = [L0, L1])
    (hi : ∀ L ∈ P'.levels, ∀ ti ∈ L.tasks, InRange ti.task.ctr) (hm : ∀ ti ∈ L1.tasks, CanMinimise ti.task.ctr)
    (hI : ∀ ti ∈ L0.tasks, ti.task.ctr.ctype.isSimple = true → ti.task.ctr.ctype.hasILUCopy = true)
    {ext : Qpoases K} (hext : TrustedSolver ext) (hcomplete : CompleteSolver ext) (z : ℕ → ℕ → K) (zc : Junk K) {sol : Solution K}
    (hn : sol.structure_.nvars = nv) (hx : sol.x.length = nv) {e : Entry ActiveSetH K} (hfit : GuessesFit L0 nv e)
    {s : SolverState (QpoasesMem K)} (hp : Entry.parameters s.params e = SolverParameters.default) (hB : BoundsVariables L0)
    {x : ℕ → K} (hsat : LevelSatisfied L0 x) (hmod : Moderate L0 nv x) :
    ∃ sol' a s', (qpoasesBackend ext z zc).solve sol P' e s = (.ok (sol', a), s') ∧ s'.params = SolverParameters.default ∧
      SolverAnswer L0 L1 nv sol sol' (Entry.returnsActiveSet e) a := by
  rcases C83_solve h hr hL hi hm hI hext z zc hn hx hfit hp with h' | ⟨s', -, hno | ⟨a, gs, hd, hs⟩⟩
  · exact h'
  · exact absurd hsat (hno x hmod)
  · exact absurd (hcomplete a _ gs hd.accepted (hd.bounds hB).1 (hd.bounds hB).2 ⟨x, hd.complete x hsat hmod⟩) hs

/-- **C83.** A guess of the active set with an undefined entry on the first level is rejected. -/
theorem C83_undefined {P P' : Hierarchy E K} {nv : ℕ} {env : E} {g : Bool} (h : P.form nv env g = .ok P')
    (hr : ∀ L ∈ P.levels, Reachable L) {L0 L1 : Level E K} (hL : P'.levels = [L0, L1])
    (hi : ∀ L ∈ P'.levels, ∀ ti ∈ L.tasks, InRange ti.task.ctr) (hm : ∀ ti ∈ L1.tasks, CanMinimise ti.task.ctr)
    (hI : ∀ ti ∈ L0.tasks, ti.task.ctr.ctype.isSimple = true → ti.task.ctr.ctype.hasILUCopy = true)
    (ext : Qpoases K) (z : ℕ → ℕ → K) (zc : Junk K) {sol : Solution K}
    (hn : sol.structure_.nvars = nv) {a : ActiveSetH} {c : ActiveSetC} (ha : a[0]? = some c) (hl : c.length = L0.nConstraints)
    (hu : .undefined ∈ c) {s : SolverState (QpoasesMem K)} (hp : s.params = SolverParameters.default) :
    ∃ s', (qpoasesBackend ext z zc).solve sol P' (.activeSetIn a) s = (.error .thrown, s') := by
  subst hn
  have hc : qpCheckInputs s.params P' = .ok () := by
    refine ((C18_checkInputs h hr _).1).2 ⟨by rw [hp]; rfl, .inr (by rw [hL]; rfl), fun L hl ti hti _ => ?_⟩
    rw [hL] at hl
    cases hl
    exact (hm ti hti).1
  rcases hq : qpoasesInitialize z zc s.mem.problem P' sol.structure_.nvars with f | q
  · rcases ilualu_init h hr hL hi hm hI z zc s.mem.problem.1 s.mem.problem.2 true with ⟨q, hq', -⟩ | ⟨hq', -⟩
    · cases hq.symm.trans hq'
    · cases hq.symm.trans hq'
      exact init_fails (e := .activeSetIn a) hc hq
  · have hb := bounds_of_init h hr hL hi hI hq
    have h4 := C49_guess_reject hb ha hl hu
    have h1 : (qpoasesBackend ext z zc).checkInputs P' s = (.ok (), s) := by simp [qpoasesBackend, hc]
    have h2 : (qpoasesBackend ext z zc).init P' sol.structure_ s = (.ok (), ⟨s.params, ⟨q, none, none, none⟩⟩) := by
      simp [qpoasesBackend, changing, QpoasesMem.initialize, hq]
    have h3 : (qpoasesBackend ext z zc).setActiveSet a P' ⟨s.params, ⟨q, none, none, none⟩⟩ =
        (.error .thrown, ⟨s.params, ⟨q, none, none, none⟩⟩) := by
      simp [qpoasesBackend, changing, QpoasesMem.setActiveSet, h4]
    generalize qpoasesBackend ext z zc = B at *
    simp [Backend.solve, SM.bind_apply, h1, h2, h3]

/-- **C83.** The size of the guess of the solution is not checked: if it has less entries than there are variables, then qpOASES reads
beyond its end. -/
theorem C83_short_guess {P P' : Hierarchy E K} {nv : ℕ} {env : E} {g : Bool} (h : P.form nv env g = .ok P')
    (hr : ∀ L ∈ P.levels, Reachable L) {L0 L1 : Level E K} (hL : P'.levels = [L0, L1])
    (hi : ∀ L ∈ P'.levels, ∀ ti ∈ L.tasks, InRange ti.task.ctr) (hm : ∀ ti ∈ L1.tasks, CanMinimise ti.task.ctr)
    (hI : ∀ ti ∈ L0.tasks, ti.task.ctr.ctype.isSimple = true → ti.task.ctr.ctype.hasILUCopy = true)
    (ext : Qpoases K) (z : ℕ → ℕ → K) (zc : Junk K) {sol : Solution K} (hn : sol.structure_.nvars = nv)
    {x : ℕ → K} (hsat : LevelSatisfied L0 x) (hmod : Moderate L0 nv x) {w : Solution K} (hw : w.x.length < nv)
    {s : SolverState (QpoasesMem K)} (hp : s.params = SolverParameters.default) :
    ∃ s', (qpoasesBackend ext z zc).solve sol P' (.guess w) s = (.error .ub, s') := by
  subst hn
  have hc : qpCheckInputs s.params P' = .ok () := by
    refine ((C18_checkInputs h hr _).1).2 ⟨by rw [hp]; rfl, .inr (by rw [hL]; rfl), fun L hl ti hti _ => ?_⟩
    rw [hL] at hl
    cases hl
    exact (hm ti hti).1
  rcases ilualu_init h hr hL hi hm hI z zc s.mem.problem.1 s.mem.problem.2 true with ⟨q, hq, -⟩ | ⟨-, hno⟩
  · have hq : qpoasesInitialize z zc s.mem.problem P' sol.structure_.nvars = .ok q := hq
    have h1 : (qpoasesBackend ext z zc).checkInputs P' s = (.ok (), s) := by simp [qpoasesBackend, hc]
    have h2 : (qpoasesBackend ext z zc).init P' sol.structure_ s = (.ok (), ⟨s.params, ⟨q, none, none, none⟩⟩) := by
      simp [qpoasesBackend, changing, QpoasesMem.initialize, hq]
    have h3 : (qpoasesBackend (E := E) ext z zc).setSolutionGuess w (⟨s.params, ⟨q, none, none, none⟩⟩ : SolverState (QpoasesMem K)) =
        (.ok (), ⟨s.params, ⟨q, some w.x, none, none⟩⟩) := rfl
    have h4 : (qpoasesBackend ext z zc).solveHierarchy sol P' (⟨s.params, ⟨q, some w.x, none, none⟩⟩ : SolverState (QpoasesMem K)) =
        (.error .ub, ⟨s.params, ⟨q, some w.x, none, none⟩⟩) := by
      show changing (fun m : QpoasesMem K => m.solve ext sol) _ = _
      unfold changing QpoasesMem.solve
      simp only
      rw [require_false (by simp; omega)]
      rfl
    generalize qpoasesBackend ext z zc = B at *
    exact ⟨⟨s.params, ⟨q, some w.x, none, none⟩⟩, by simp [Backend.solve, SM.bind_apply, h1, h2, h3, h4]⟩
  · exact absurd hsat (hno x hmod.2)

/-! ### The hypotheses are met -/

/-- A feasible problem with bounds on all variables has an optimal point. -/
theorem qpoases_minimum (a : QpoasesArgs ℝ) {lb ub : ℕ → ℝ} (hlb : a.lb = some lb) (hub : a.ub = some ub)
    (hf : ∃ x, QpoasesFeasible a x) :
    ∃ x, QpoasesFeasible a x ∧ ∀ y, QpoasesFeasible a y → qpoasesObjective a x ≤ qpoasesObjective a y := by
  classical
  let cut : (ℕ → ℝ) → ℕ → ℝ := fun x v => if v < a.nV then x v else 0
  have hcut : ∀ x v, v < a.nV → cut x v = x v := fun x v hv => if_pos hv
  have hrow : ∀ (A : ℕ → ℝ) k x, ∑ j ∈ Finset.range a.nV, A (k * a.nV + j) * cut x j =
      ∑ j ∈ Finset.range a.nV, A (k * a.nV + j) * x j := fun A k x =>
    Finset.sum_congr rfl fun j hj => by rw [hcut x j (Finset.mem_range.1 hj)]
  have hobj : ∀ x, qpoasesObjective a (cut x) = qpoasesObjective a x := fun x => by
    unfold qpoasesObjective
    congr 1
    · congr 1
      refine Finset.sum_congr rfl fun i hi => Finset.sum_congr rfl fun j hj => ?_
      rw [hcut x i (Finset.mem_range.1 hi), hcut x j (Finset.mem_range.1 hj)]
    · exact Finset.sum_congr rfl fun i hi => by rw [hcut x i (Finset.mem_range.1 hi)]
  have hfeas : ∀ x, QpoasesFeasible a x → QpoasesFeasible a (cut x) := by
    intro x ⟨h1, h2, h3⟩
    refine ⟨fun l hl v hv => ?_, fun l hl v hv => ?_, fun A hA => ⟨fun l hl k hk => ?_, fun l hl k hk => ?_⟩⟩
    · rw [hcut x v hv]; exact h1 l hl v hv
    · rw [hcut x v hv]; exact h2 l hl v hv
    · rw [hrow]; exact (h3 A hA).1 l hl k hk
    · rw [hrow]; exact (h3 A hA).2 l hl k hk
  let box : Set (ℕ → ℝ) := Set.pi Set.univ fun v => if v < a.nV then Set.Icc (lb v) (ub v) else {0}
  have hbox : IsCompact box := isCompact_univ_pi fun v => by
    split
    · exact isCompact_Icc
    · exact isCompact_singleton
  have hin : ∀ x, QpoasesFeasible a x → cut x ∈ box := by
    intro x ⟨h1, h2, _⟩ v _
    show cut x v ∈ (if v < a.nV then Set.Icc (lb v) (ub v) else {0})
    by_cases hv : v < a.nV
    · rw [if_pos hv, hcut x v hv]
      exact ⟨h1 _ hlb v hv, h2 _ hub v hv⟩
    · rw [if_neg hv]
      exact if_neg hv
  have hclosed : IsClosed {x | QpoasesFeasible a x} := by
    have e : {x | QpoasesFeasible a x} =
        (⋂ (l : ℕ → ℝ) (_ : a.lb = some l) (v : ℕ) (_ : v < a.nV), {x | l v ≤ x v}) ∩
        ((⋂ (l : ℕ → ℝ) (_ : a.ub = some l) (v : ℕ) (_ : v < a.nV), {x | x v ≤ l v}) ∩
        (⋂ (A : ℕ → ℝ) (_ : a.A = some A),
          (⋂ (l : ℕ → ℝ) (_ : a.lbA = some l) (k : ℕ) (_ : k < a.nC),
            {x | l k ≤ ∑ j ∈ Finset.range a.nV, A (k * a.nV + j) * x j}) ∩
          (⋂ (l : ℕ → ℝ) (_ : a.ubA = some l) (k : ℕ) (_ : k < a.nC),
            {x | ∑ j ∈ Finset.range a.nV, A (k * a.nV + j) * x j ≤ l k}))) := by
      ext x
      simp [QpoasesFeasible]
    rw [e]
    refine IsClosed.inter ?_ (IsClosed.inter ?_ ?_)
    · exact isClosed_iInter fun l => isClosed_iInter fun _ => isClosed_iInter fun v => isClosed_iInter fun _ =>
        isClosed_le continuous_const (continuous_apply v)
    · exact isClosed_iInter fun l => isClosed_iInter fun _ => isClosed_iInter fun v => isClosed_iInter fun _ =>
        isClosed_le (continuous_apply v) continuous_const
    · refine isClosed_iInter fun A => isClosed_iInter fun _ => IsClosed.inter ?_ ?_
      · exact isClosed_iInter fun l => isClosed_iInter fun _ => isClosed_iInter fun v => isClosed_iInter fun _ =>
          isClosed_le continuous_const (by fun_prop)
      · exact isClosed_iInter fun l => isClosed_iInter fun _ => isClosed_iInter fun v => isClosed_iInter fun _ =>
          isClosed_le (by fun_prop) continuous_const
  have hcont : Continuous (qpoasesObjective a) := by
    unfold qpoasesObjective
    fun_prop
  obtain ⟨x0, hx0⟩ := hf
  obtain ⟨x, hx, hmin⟩ := (hbox.inter_right hclosed).exists_isMinOn ⟨cut x0, hin x0 hx0, hfeas x0 hx0⟩ hcont.continuousOn
  refine ⟨x, hx.2, fun y hy => ?_⟩
  rw [← hobj y]
  exact hmin ⟨hin y hy, hfeas y hy⟩

/-- A solver which is able to do what is expected from qpOASES. -/
theorem exists_solver : ∃ ext : Qpoases ℝ, TrustedSolver ext ∧ CompleteSolver ext := by
  classical
  let good : QpoasesArgs ℝ → (ℕ → ℝ) → Prop := fun a x =>
    QpoasesFeasible a x ∧ ∀ y, QpoasesFeasible a y → qpoasesObjective a x ≤ qpoasesObjective a y
  refine ⟨fun a _ _ => if h : ∃ x, good a x then ⟨.successfulReturn, h.choose, fun _ => 0, fun _ => 0⟩
    else ⟨.other, fun _ => 0, fun _ => 0, fun _ => 0⟩, ⟨?_, ?_, ?_⟩, ?_⟩
  · intro g s a h1 h2 h3 h4
    by_cases h : ∃ x, good a x
    · have := h.choose_spec
      simpa only [dif_pos h] using this
    · simp [dif_neg h] at h4
  · intro a g s _ v _
    split <;> simp [WorkingValue]
  · intro a g s _ v _
    split <;> simp [WorkingValue]
  · intro a g s _ hl hu hf
    obtain ⟨lb, hlb⟩ := Option.isSome_iff_exists.1 hl
    obtain ⟨ub, hub⟩ := Option.isSome_iff_exists.1 hu
    simp only
    rw [dif_pos (qpoases_minimum a hlb hub hf)]

/-- Two bounds above a least squares level, a guess of the solution and a guess of the active set. -/
example : exampleBounded.form 2 () true = .ok exampleBoundedFormed ∧ (∀ L ∈ exampleBounded.levels, Reachable L) ∧
    exampleBoundedFormed.levels = [exampleSimpleFormed, exampleLevelGIB] ∧
    (∀ L ∈ exampleBoundedFormed.levels, ∀ ti ∈ L.tasks, InRange ti.task.ctr) ∧
    (∀ ti ∈ exampleLevelGIB.tasks, CanMinimise ti.task.ctr) ∧
    (∀ ti ∈ exampleSimpleFormed.tasks, ti.task.ctr.ctype.isSimple = true → ti.task.ctr.ctype.hasILUCopy = true) ∧
    BoundsVariables exampleSimpleFormed ∧ LevelSatisfied exampleSimpleFormed (fun i => if i = 0 then 2 else 0) ∧
    GuessesFit exampleSimpleFormed 2 (.guessActiveSetInOut ⟨⟨2, []⟩, [2, 0], .undefined⟩
      [[.lowerBound, .inactive, .upperBound], [.equality, .equality]]) := by
  refine ⟨rfl, ?_, rfl, ?_, exampleLevelGIB_minimise, ?_, ?_, ?_, ?_, ?_⟩
  · intro L hL
    simp only [exampleBounded, List.mem_cons, List.not_mem_nil, or_false] at hL
    rcases hL with rfl | rfl
    · exact exampleSimple_reachable
    · exact .push _ .empty
  · intro L hL
    simp only [exampleBoundedFormed, List.mem_cons, List.not_mem_nil, or_false] at hL
    rcases hL with rfl | rfl
    · exact exampleSimpleFormed_inRange
    · exact exampleLevels_inRange exampleLevelGIB (by simp)
  · intro ti hti _
    simp only [exampleSimpleFormed, List.mem_cons, List.not_mem_nil, or_false] at hti
    rcases hti with rfl | rfl <;> rfl
  · exact ⟨_, List.mem_cons_self, rfl, by decide⟩
  · intro ti hti
    simp only [exampleSimpleFormed, List.mem_cons, List.not_mem_nil, or_false] at hti
    rcases hti with rfl | rfl
    · intro i hi
      have hi : i = 0 := by have : i < 1 := hi; omega
      subst hi
      exact ⟨fun l hl => by cases hl; decide, fun u hu => by cases hu⟩
    · intro i hi
      have hi : i = 0 ∨ i = 1 := by have : i < 2 := hi; omega
      rcases hi with rfl | rfl <;> exact ⟨fun l hl => by cases hl; decide, fun u hu => by cases hu; decide⟩
  · rintro g ⟨⟩
    decide
  · rintro a ⟨⟩
    exact ⟨_, rfl, rfl, by decide⟩

end Humoto.Bridge
