import Verif.Lemmas.PepperProblem
import Verif.Props.BridgesSolve

/-!
# Pepper: what the optimization problem means (C86)
-/

namespace Humoto.Pepper

open Spec Bridge

variable {K : Type} [Field K] [LinearOrder K] [IsStrictOrderedRing K]

/-- A successful update prepares the controller. -/
theorem pepper_ready {model : Model K} {mpc : Mpc K} (h : PepperUpdated model mpc) : PepperReady mpc model.getMPCState := by
  obtain ⟨junk, tr, dflt, old, M, hT, hN, hNT, hM, hS, hm, hb, h⟩ := h
  have hc : SizedFor old 0 ∨ SizedFor old old.parameters.preview_horizon_length := by
    rcases hM with rfl | rfl
    · exact .inl hS
    · exact .inr hS
  have key : ∀ q, HorizonFor tr old.parameters model q mpc.intervals → Consistent mpc model.getMPCState → PepperReady mpc model.getMPCState := by
    intro q h1 h2
    refine ⟨h2, sane_of_update h1 hT hN hm, fun iv hiv a => ?_⟩
    obtain ⟨i, hi⟩ := List.getElem?_of_mem hiv
    obtain ⟨m, theta, -, -, h3⟩ := h1.2 i iv hi
    rw [h3.body_bounds]
    exact hb a
  rcases h with ⟨m, hpm, h⟩ | ⟨q, hq, h⟩
  · obtain ⟨c', st, h1, -, -, -, h2⟩ := C71_update junk tr dflt hpm model hT hN hNT hc
    cases h.symm.trans h1
    exact key _ (h2 rfl).1 (h2 rfl).2
  · have hT' : old.parameters.sampling_time_ms < 2 ^ 63 := lt_of_le_of_lt (Nat.le_mul_of_pos_left _ hN) hNT
    obtain ⟨c', st, h1, -, -, -, h2⟩ := C71_queue junk tr dflt hq model hT hT' hN hc
    cases h.symm.trans h1
    exact key _ (h2 rfl).1 (h2 rfl).2

theorem setup_mode {o : ProblemSetup K} {P : Hierarchy (ProblemEnv K) K} {p : Problem K} (h : setupHierarchy o P = .ok p) :
    o.mode ≠ .undefined := by
  intro hm
  rw [pepper_undefined hm P] at h
  cases h

/-- The invariant of problems which are formed without guesses. -/
theorem pepper_after {o : ProblemSetup K} {p : Problem K} (h : PepperProblemAfter o p) : PepperShaped o (fun _ t => t.guess = []) p := by
  induction h with
  | @setup P p h =>
    obtain ⟨p', e, h'⟩ := pepper_setup o (setup_mode h) P
    cases h.symm.trans e
    exact h'.mono fun _ _ h => h.1
  | @form p p' junk junkI model mpc _ hu h ih =>
    exact (pepper_formed (pepper_ready hu) ih h).1.mono fun _ _ ⟨_, h1, h2⟩ => (h2.guess rfl).trans h1
  | process _ h ih =>
    refine (pepper_process ih h).mono fun _ _ ⟨t, h, ⟨x, hx⟩, _⟩ => ?_
    rw [hx]
    exact h

/-- The active sets have sizes of the problem which was formed last. -/
def LastSizes (n : Option ℕ) (_ : PepperTask) (t : Task (ProblemEnv K) K) : Prop :=
  match n with
  | none => t.actual = []
  | some N => t.actual.length = 2 * N

/-- The invariant of problems of a loop. -/
theorem pepper_solved {o : ProblemSetup K} {n : Option ℕ} {p : Problem K} (hp : PepperSolvedAfter o n p) : PepperShaped o (LastSizes n) p := by
  induction hp with
  | @setup P p h =>
    obtain ⟨p', e, h'⟩ := pepper_setup o (setup_mode h) P
    cases h.symm.trans e
    exact h'.mono fun _ _ h => h.2
  | @cycle n p p' p'' junk junkI model mpc s _ hu hf hs ih =>
    obtain ⟨h1, h2⟩ := pepper_formed (pepper_ready hu) ih hf
    have hl := hierarchy_locations ih.reach h2
    refine (pepper_process h1 hs).mono fun k t ⟨t1, ⟨_, _, hF⟩, ⟨x, hx⟩, ht, _⟩ => ?_
    show t.actual.length = 2 * mpc.intervals.length
    rw [ht hl, hx]
    exact hF.motion.rows

/-- What the theorems on solvers need besides the meaning of the levels. -/
structure PepperSolvable (o : ProblemSetup K) (mpc : Mpc K) (L0 L1 : Level (ProblemEnv K) K) : Prop where
  inRange : ∀ L ∈ [L0, L1], ∀ ti ∈ L.tasks, InRange ti.task.ctr
  minimise : ∀ ti ∈ L1.tasks, CanMinimise ti.task.ctr
  simple : ∀ ti ∈ L0.tasks, ti.task.ctr.ctype.isSimple = true → ti.task.ctr.ctype.hasILUCopy = true
  determined : o.baseJerkGain ≠ 0 → o.bodyJerkGain ≠ 0 → Determined L1.tasks (TaskEnv.of mpc).structure_.nvars
  within : ∀ ti ∈ L0.tasks, ∀ x, WithinInfinity ti.task.ctr x
  bounds : BoundsVariables L0

theorem pepper_inRange {c : Ctr K} (h : WellFormed c) : InRange c := by
  obtain ⟨-, h⟩ := h
  obtain ⟨t, nv, d⟩ := c
  cases t <;> first | trivial | exact h | exact h.2 | exact h.2.1

theorem within_two {c : Ctr K} (h : c.ctype = .ilu ∨ c.ctype = .alu ∨ c.ctype = .aslu) (x : ℕ → K) : WithinInfinity c x := by
  obtain ⟨t, nv, d⟩ := c
  rcases h with h | h | h <;> (cases h; exact fun i _ => ⟨fun e => (by cases e), fun e => (by cases e)⟩)

/-- Only the zero solution has no residuals, up to the constant terms. -/
theorem pepper_determined {mpc : Mpc K} {x0 : Vec K} (h : PepperReady mpc x0) (h0 : x0.n = 12) {cb cj : Ctr K} {gb gj : K}
    (hb : MinimisesMotion mpc.intervals x0 cb gb baseJerkQuantity) (hbt : MotionTask mpc.intervals.length .asb cb)
    (hj : MinimisesMotion mpc.intervals x0 cj gj bodyJerkQuantity) (hjt : MotionTask mpc.intervals.length .gib0 cj) (hgb : gb ≠ 0)
    (hgj : gj ≠ 0) {x : ℕ → K} (hx : ∀ i < rows cb, lhs cb x i = 0) (hx' : ∀ i < rows cj, lhs cj x i = 0) :
    ∀ j < 4 * mpc.intervals.length, x j = 0 := by
  have hT := h.sane.times
  have hX := simulation_simulates hT h0 x
  have hX0 := simulation_simulates hT h0 (fun _ => (0 : K))
  set X := simulation mpc.intervals x0 x
  set X0 := simulation mpc.intervals x0 fun _ => (0 : K)
  have hlb : ∀ i, lhs cb (fun _ => 0) i = 0 := by
    intro i
    unfold lhs
    rw [hbt.ctype]
    simp
  have hlj : ∀ i, lhs cj (fun _ => 0) i = 0 := by
    intro i
    unfold lhs
    rw [hjt.ctype]
    simp
  have hjb : ∀ (k : ℕ) iv, mpc.intervals[k]? = some iv → ∀ a : Fin 2,
      baseJerkQuantity iv (X k) (X (k + 1)) a = baseJerkQuantity iv (X0 k) (X0 (k + 1)) a := by
    intro k iv hk a
    have hr : 2 * k + (a : ℕ) < rows cb := by rw [hbt.rows]; exact pair_lt (List.getElem?_eq_some_iff.mp hk).1 a
    have e1 := hb.rows x X hX k iv hk a
    have e2 := hb.rows _ X0 hX0 k iv hk a
    rw [hx _ hr] at e1
    rw [hlb] at e2
    exact mul_left_cancel₀ hgb (e1.symm.trans e2)
  have hjj : ∀ (k : ℕ) iv, mpc.intervals[k]? = some iv → ∀ a : Fin 2, x (2 * mpc.intervals.length + 2 * k + a) = 0 := by
    intro k iv hk a
    have hr : 2 * k + (a : ℕ) < rows cj := by rw [hjt.rows]; exact pair_lt (List.getElem?_eq_some_iff.mp hk).1 a
    have e1 := hj.rows x X hX k iv hk a
    have e2 := hj.rows _ X0 hX0 k iv hk a
    rw [hx' _ hr] at e1
    rw [hlj] at e2
    have e := mul_left_cancel₀ hgj (e1.symm.trans e2)
    have hTk := hT iv (List.mem_of_getElem? hk)
    rw [motion_bodyJerk hX hk hTk, motion_bodyJerk hX0 hk hTk] at e
    exact e
  have hbase : ∀ k ≤ mpc.intervals.length, ∀ a : Fin 2, (X k).e (3 * a + 1) = (X0 k).e (3 * a + 1) ∧
      (X k).e (3 * a + 2) = (X0 k).e (3 * a + 2) := by
    intro k
    induction k with
    | zero => exact fun _ a => ⟨rfl, rfl⟩
    | succ k ih =>
      intro hk a
      have hiv : mpc.intervals[k]? = some mpc.intervals[k] := List.getElem?_eq_getElem hk
      generalize mpc.intervals[k] = iv at hiv
      obtain ⟨i1, i2⟩ := ih (by omega) a
      have hTk := hT iv (List.mem_of_getElem? hiv)
      have hc : ∀ y : ℕ → K, (controlAt mpc.intervals.length y k).e a = y (2 * k + a) := fun y => by fin_cases a <;> rfl
      obtain ⟨-, -, -, s1, -⟩ := hX.2 k iv hiv
      obtain ⟨-, -, -, s0, -⟩ := hX0.2 k iv hiv
      obtain ⟨j1, v1, -, w1, a1⟩ := s1 a a.2
      obtain ⟨j0, v0, -, w0, a0⟩ := s0 a a.2
      rw [hc] at v1 v0
      have hjj : j1 = j0 := by
        rw [motion_baseJerk hX hiv hTk a v1, motion_baseJerk hX0 hiv hTk a v0]
        exact hjb k iv hiv a
      rw [w1, w0, a1, a0, hjj, i1, i2]
      exact ⟨rfl, rfl⟩
  intro j hjl
  by_cases hj2 : j < 2 * mpc.intervals.length
  · obtain ⟨k, a, hk, rfl⟩ := pair_index hj2
    have hiv : mpc.intervals[k]? = some mpc.intervals[k] := List.getElem?_eq_getElem hk
    have e := (hbase (k + 1) hk a).1
    have e1 := motion_velocity hX hiv a
    have e2 := motion_velocity hX0 hiv a
    unfold baseVelocity at e1 e2
    rw [← e1, e, e2]
  · obtain ⟨k, a, hk, e⟩ := pair_index (N := mpc.intervals.length) (i := j - 2 * mpc.intervals.length) (by omega)
    have hiv : mpc.intervals[k]? = some mpc.intervals[k] := List.getElem?_eq_getElem hk
    have := hjj k _ hiv a
    rwa [show 2 * mpc.intervals.length + 2 * k + (a : ℕ) = j by omega] at this

/-- The meaning of a formed problem. -/
theorem pepper_means {o : ProblemSetup K} {mpc : Mpc K} {x0 : Vec K} (h : PepperReady mpc x0) (h0 : x0.n = 12)
    {Q : PepperTask → Task (ProblemEnv K) K → Prop} {guessing : Bool} {p : Problem K}
    (hp : PepperShaped o (fun k t' => ∃ t, Q k t ∧ FormedPepperTask o mpc x0 guessing t t' k) p) :
    ∃ L0 L1, p.hierarchy.levels = [L0, L1] ∧ PepperLevels o mpc.intervals x0 L0 L1 ∧ PepperSolvable o mpc L0 L1 := by
  obtain ⟨L0, L1, hL, h1, h2⟩ := Wpg.forall2_split hp.shape
  obtain ⟨acc, cop, body, vel, e0, hacc, hcop, hbody, hvel⟩ : ∃ acc cop body vel, L0.tasks = [acc, cop, body, vel] ∧
      FormedPepperTask o mpc x0 guessing acc.task acc.task .acceleration ∧ FormedPepperTask o mpc x0 guessing cop.task cop.task .cop ∧
      FormedPepperTask o mpc x0 guessing body.task body.task .body ∧ FormedPepperTask o mpc x0 guessing vel.task vel.task .velocity := by
    generalize L0.tasks = l at h1
    rcases h1 with _ | ⟨a, h1⟩
    rcases h1 with _ | ⟨b, h1⟩
    rcases h1 with _ | ⟨c, h1⟩
    rcases h1 with _ | ⟨d, h1⟩
    cases h1
    obtain ⟨_, -, ha⟩ := a.kept
    obtain ⟨_, -, hb⟩ := b.kept
    obtain ⟨_, -, hc⟩ := c.kept
    obtain ⟨_, -, hd⟩ := d.kept
    exact ⟨_, _, _, _, rfl, ⟨ha.motion, ha.means, fun _ => rfl, rfl⟩, ⟨hb.motion, hb.means, fun _ => rfl, rfl⟩,
      ⟨hc.motion, hc.means, fun _ => rfl, rfl⟩, ⟨hd.motion, hd.means, fun _ => rfl, rfl⟩⟩
  obtain ⟨cc, bj, rf, dj, e1, hcc, hbj, hrf, hdj⟩ : ∃ cc bj rf dj, L1.tasks = [cc, bj, rf, dj] ∧
      FormedPepperTask o mpc x0 guessing cc.task cc.task .copCentering ∧ FormedPepperTask o mpc x0 guessing bj.task bj.task .baseJerk ∧
      FormedPepperTask o mpc x0 guessing rf.task rf.task .reference ∧ FormedPepperTask o mpc x0 guessing dj.task dj.task .bodyJerk := by
    generalize L1.tasks = l at h2
    rcases h2 with _ | ⟨a, h2⟩
    rcases h2 with _ | ⟨b, h2⟩
    rcases h2 with _ | ⟨c, h2⟩
    rcases h2 with _ | ⟨d, h2⟩
    cases h2
    obtain ⟨_, -, ha⟩ := a.kept
    obtain ⟨_, -, hb⟩ := b.kept
    obtain ⟨_, -, hc⟩ := c.kept
    obtain ⟨_, -, hd⟩ := d.kept
    exact ⟨_, _, _, _, rfl, ⟨ha.motion, ha.means, fun _ => rfl, rfl⟩, ⟨hb.motion, hb.means, fun _ => rfl, rfl⟩,
      ⟨hc.motion, hc.means, fun _ => rfl, rfl⟩, ⟨hd.motion, hd.means, fun _ => rfl, rfl⟩⟩
  have hcc' : MinimisesMotion mpc.intervals x0 cc.task.ctr o.copGain copQuantity := hcc.means
  have hbj' : MinimisesMotion mpc.intervals x0 bj.task.ctr o.baseJerkGain baseJerkQuantity := hbj.means
  have hdj' : MinimisesMotion mpc.intervals x0 dj.task.ctr o.bodyJerkGain bodyJerkQuantity := hdj.means
  have hrf' : if o.mode = .maintainPosition then MinimisesMotion mpc.intervals x0 rf.task.ctr o.positionGain positionErrorQuantity
      else MinimisesMotion mpc.intervals x0 rf.task.ctr o.velocityGain velocityErrorQuantity := hrf.means
  have hrc : CanMinimise rf.task.ctr := by
    split at hrf' <;> exact hrf'.canMinimise
  have hwf : ∀ L ∈ [L0, L1], ∀ ti ∈ L.tasks, WellFormed ti.task.ctr := by
    intro L hL ti hti
    simp only [List.mem_cons, List.not_mem_nil, or_false] at hL
    rcases hL with rfl | rfl
    · rw [e0] at hti
      simp only [List.mem_cons, List.not_mem_nil, or_false] at hti
      rcases hti with rfl | rfl | rfl | rfl
      exacts [hacc.motion.wellFormed, hcop.motion.wellFormed, hbody.motion.wellFormed, hvel.motion.wellFormed]
    · rw [e1] at hti
      simp only [List.mem_cons, List.not_mem_nil, or_false] at hti
      rcases hti with rfl | rfl | rfl | rfl
      exacts [hcc.motion.wellFormed, hbj.motion.wellFormed, hrf.motion.wellFormed, hdj.motion.wellFormed]
  refine ⟨L0, L1, hL, ⟨fun x X hX => ?_, fun x X hX => ?_⟩, ⟨?_, ?_, ?_, ?_, ?_, ?_⟩⟩
  · have hLs : LevelSatisfied L0 x ↔ Satisfied acc.task.ctr x ∧ Satisfied cop.task.ctr x ∧ Satisfied body.task.ctr x ∧
        Satisfied vel.task.ctr x := by
      unfold LevelSatisfied
      rw [e0]
      simp
    rw [hLs, hacc.means x X hX, hcop.means x X hX, hbody.means x X hX, hvel.means x X hX]
    exact ⟨fun ⟨a, b, c, d⟩ => ⟨d, a, b, c⟩, fun ⟨d, a, b, c⟩ => ⟨a, b, c, d⟩⟩
  · have hls : leastSquares L1.tasks x = residualSq cc.task.ctr x + (residualSq bj.task.ctr x + (residualSq rf.task.ctr x +
        residualSq dj.task.ctr x)) := by
      unfold leastSquares
      rw [e1]
      simp
    rw [hls, hcc'.cost x X hX, hbj'.cost x X hX, hdj'.cost x X hX]
    unfold pepperCost
    split at hrf'
    · next hm =>
      rw [if_pos hm, hrf'.cost x X hX]
      ring
    · next hm =>
      rw [if_neg hm, hrf'.cost x X hX]
      ring
  · exact fun L hL ti hti => pepper_inRange (hwf L hL ti hti)
  · intro ti hti
    rw [e1] at hti
    simp only [List.mem_cons, List.not_mem_nil, or_false] at hti
    rcases hti with rfl | rfl | rfl | rfl
    exacts [hcc'.canMinimise, hbj'.canMinimise, hrc, hdj'.canMinimise]
  · intro ti hti hsimple
    rw [e0] at hti
    simp only [List.mem_cons, List.not_mem_nil, or_false] at hti
    rcases hti with rfl | rfl | rfl | rfl
    · rw [hacc.motion.ctype] at hsimple; cases hsimple
    · rw [hcop.motion.ctype] at hsimple; cases hsimple
    · rw [hbody.motion.ctype] at hsimple; cases hsimple
    · rw [hvel.motion.ctype]; rfl
  · intro hgb hgj x hx
    rw [formed_nvars h.consistent]
    refine pepper_determined h h0 hbj' hbj.motion hdj' hdj.motion hgb hgj (hx bj ?_) (hx dj ?_) <;> rw [e1] <;> simp
  · intro ti hti x
    rw [e0] at hti
    simp only [List.mem_cons, List.not_mem_nil, or_false] at hti
    rcases hti with rfl | rfl | rfl | rfl
    exacts [within_two (.inr (.inr hacc.motion.ctype)) x, within_two (.inr (.inl hcop.motion.ctype)) x,
      within_two (.inr (.inl hbody.motion.ctype)) x, within_two (.inl hvel.motion.ctype) x]
  · refine ⟨vel, by rw [e0]; simp, by rw [hvel.motion.ctype]; rfl, ?_⟩
    rw [hvel.motion.rows]
    have := h.sane.nonempty
    omega

section
variable {o : ProblemSetup K} {model : Model K} {mpc : Mpc K} {p p' : Problem K}

/-- **C86.** The hierarchy is set up without failure, from whatever was there before, if the mode of the motion is defined; otherwise an
exception is thrown. -/
theorem C86_setup (o : ProblemSetup K) (P : Hierarchy (ProblemEnv K) K) :
    if o.mode = .undefined then setupHierarchy o P = .error .thrown else ∃ p, setupHierarchy o P = .ok p := by
  split
  · next hm => exact pepper_undefined hm P
  · next hm =>
    obtain ⟨p, e, -⟩ := pepper_setup o hm P
    exact ⟨p, e⟩

/-- **C86.** After any history of forming and processing of active sets, without guesses, the problem can be formed after each successful
update; its first level allows exactly the allowed motions, and the objective of its second level is the cost of the motion. -/
theorem C86_form (hp : PepperProblemAfter o p) (hu : PepperUpdated model mpc) (junk : ℕ → ℕ → ℕ → K) (junkI : ℕ → ℕ → ℕ) :
    ∃ p' L0 L1, p.form junk junkI false mpc = .ok p' ∧ p'.hierarchy.levels = [L0, L1] ∧
      PepperLevels o mpc.intervals model.getMPCState L0 L1 := by
  have hw := pepper_after hp
  obtain ⟨p', e⟩ := pepper_form (guessing := false) (pepper_ready hu) hw junk junkI fun _ _ h => h
  obtain ⟨L0, L1, h1, h2, -⟩ := pepper_means (pepper_ready hu) rfl (pepper_formed (pepper_ready hu) hw e).1
  exact ⟨p', L0, L1, e, h1, h2⟩

/-- **C86.** In a loop with guesses of the active set the problem can be formed after each successful update, provided that the number of
intervals is the same as in the preceding iteration, and that there are at least two intervals or an iteration advances by less than an
interval; the problem has the same meaning. -/
theorem C86_guess {n : Option ℕ} (hp : PepperSolvedAfter o n p) (hu : PepperUpdated model mpc)
    (hn : ∀ N ∈ n, N = mpc.intervals.length ∧
      (1 < mpc.intervals.length ∨ mpc.parameters.subsampling_time_ms < mpc.parameters.sampling_time_ms))
    (junk : ℕ → ℕ → ℕ → K) (junkI : ℕ → ℕ → ℕ) :
    ∃ p' L0 L1, p.form junk junkI true mpc = .ok p' ∧ p'.hierarchy.levels = [L0, L1] ∧
      PepperLevels o mpc.intervals model.getMPCState L0 L1 := by
  have hw := pepper_solved hp
  obtain ⟨p', e⟩ := pepper_form (guessing := true) (pepper_ready hu) hw junk junkI (by
    intro k t ht
    show ActualFits mpc t.actual k
    cases n with
    | none =>
      have ht : t.actual = [] := ht
      exact .inl (by rw [ht]; rfl)
    | some N =>
      obtain ⟨h1, h2⟩ := hn N rfl
      have ht : t.actual.length = 2 * N := ht
      exact .inr ⟨by rw [ht, h1], fun _ => h2⟩)
  obtain ⟨L0, L1, h1, h2, -⟩ := pepper_means (pepper_ready hu) rfl (pepper_formed (pepper_ready hu) hw e).1
  exact ⟨p', L0, L1, e, h1, h2⟩

/-- **C86.** Otherwise it may fail: with one interval the second iteration throws. -/
theorem C86_guess_throws (hp : PepperSolvedAfter o (some 1) p) (hu : PepperUpdated model mpc) (hN : mpc.intervals.length = 1)
    (hT : mpc.parameters.sampling_time_ms ≤ mpc.parameters.subsampling_time_ms) (junk : ℕ → ℕ → ℕ → K) (junkI : ℕ → ℕ → ℕ) :
    p.form junk junkI true mpc = .error .thrown :=
  pepper_throws (pepper_ready hu) (pepper_solved hp) junk junkI (fun t ht => by
    have ht : t.actual.length = 2 * 1 := ht
    omega) hN hT

/-- **C86.** An active set of the size of the problem is accepted. -/
theorem C86_process (hu : PepperUpdated model mpc) (hp : PepperFormed o mpc p) {s : ActiveSetH} (hs : PepperActiveSetFor p s) :
    ∃ p', p.processActiveSet s = .ok p' := by
  have key : ∀ {Q : PepperTask → Task (ProblemEnv K) K → Prop} {p1 : Problem K} {junk : ℕ → ℕ → ℕ → K} {junkI : ℕ → ℕ → ℕ} {g : Bool},
      PepperShaped o Q p1 → p1.form junk junkI g mpc = .ok p → ∃ p', p.processActiveSet s = .ok p' := by
    intro Q p1 junk junkI g hw e
    obtain ⟨-, h2⟩ := pepper_formed (pepper_ready hu) hw e
    obtain ⟨P', e'⟩ := hierarchy_process_ok hw.reach h2 hs
    refine ⟨{ p with hierarchy := P' }, ?_⟩
    unfold Problem.processActiveSet
    rw [e']
    rfl
  obtain ⟨p1, junk, junkI, g, ⟨n, hs⟩ | hs, e⟩ := hp
  · exact key (pepper_solved hs) e
  · exact key (pepper_after hs) e

/-- Optimality in terms of the motion. -/
theorem pepper_best {L0 L1 : Level (ProblemEnv K) K} {x0 : Vec K} (hW : PepperLevels o mpc.intervals x0 L0 L1)
    {reg : K} {S T : (ℕ → K) → Prop} {x : ℕ → K} (h : Optimal L0 L1.tasks (4 * mpc.intervals.length) reg S x)
    (hST : ∀ y, T y → S y) : PepperBest o mpc.intervals x0 reg T x := by
  intro X hX
  refine ⟨(hW.allowed x X hX).1 h.1, fun y Y hY hA hT => ?_⟩
  rw [← hW.cost x X hX, ← hW.cost y Y hY]
  exact h.2 y ((hW.allowed y Y hY).2 hA) (hST y hT)

theorem pepper_solvable (hu : PepperUpdated model mpc) (hp : PepperFormed o mpc p') :
    ∃ (P : Hierarchy (ProblemEnv K) K) (env : ProblemEnv K) (g : Bool) (L0 L1 : Level (ProblemEnv K) K),
      P.form (4 * mpc.intervals.length) env g = .ok p'.hierarchy ∧ (∀ L ∈ P.levels, Reachable L) ∧ p'.hierarchy.levels = [L0, L1] ∧
      PepperLevels o mpc.intervals model.getMPCState L0 L1 ∧ PepperSolvable o mpc L0 L1 := by
  have key : ∀ {Q : PepperTask → Task (ProblemEnv K) K → Prop} {p : Problem K} {junk : ℕ → ℕ → ℕ → K} {junkI : ℕ → ℕ → ℕ} {g : Bool},
      PepperShaped o Q p → p.form junk junkI g mpc = .ok p' → ∃ (P : Hierarchy (ProblemEnv K) K) (env : ProblemEnv K) (g : Bool)
      (L0 L1 : Level (ProblemEnv K) K), P.form (4 * mpc.intervals.length) env g = .ok p'.hierarchy ∧ (∀ L ∈ P.levels, Reachable L) ∧
      p'.hierarchy.levels = [L0, L1] ∧ PepperLevels o mpc.intervals model.getMPCState L0 L1 ∧ PepperSolvable o mpc L0 L1 := by
    intro Q p junk junkI g hw e
    obtain ⟨h1, h2⟩ := pepper_formed (pepper_ready hu) hw e
    obtain ⟨L0, L1, h3, h4, h5⟩ := pepper_means (pepper_ready hu) rfl h1
    rw [formed_nvars (pepper_ready hu).consistent] at h2
    exact ⟨_, _, _, L0, L1, h2, hw.reach, h3, h4, h5⟩
  obtain ⟨p, junk, junkI, g, ⟨n, hs⟩ | hs, e⟩ := hp
  · exact key (pepper_solved hs) e
  · exact key (pepper_after hs) e

/-- **C86.** With QuadProg++: an accepted answer has the structure of the problem, its motion is allowed, and no solution with an allowed
motion has a smaller cost. -/
theorem C86_quadprog (hu : PepperUpdated model mpc) (hp : PepperFormed o mpc p') (z : ℕ → ℕ → K) (zc : Junk K)
    (old : QPObjective K × QPConstraintsABAL K) {reg : K} (hreg : 0 ≤ reg) (hpos : 0 < reg ∨ o.baseJerkGain ≠ 0 ∧ o.bodyJerkGain ≠ 0)
    {ext : QuadProgArgs K → QuadProgStatus × List K} (hext : TrustedQuadProg ext) {sol : Solution K}
    (hs : SolutionFor mpc.intervals.length sol) :
    ∃ q sol', quadprogInitialize z zc old p'.hierarchy (4 * mpc.intervals.length) = .ok q ∧ quadprogSolve ext reg q sol = .ok sol' ∧
      (sol'.status = .ok → SolutionFor mpc.intervals.length sol' ∧
        PepperBest o mpc.intervals model.getMPCState reg (fun _ => True) (entries sol')) := by
  obtain ⟨P, env, g, L0, L1, h1, h2, h3, h4, h5⟩ := pepper_solvable hu hp
  obtain ⟨q, sol', k1, k2, k3, -, k4⟩ := C67_quadprog h1 h2 h3 (by rw [h3]; exact h5.inRange) h5.minimise z zc old hreg
    (hpos.imp id fun h => by
      have := h5.determined h.1 h.2
      rwa [formed_nvars (pepper_ready hu).consistent] at this) hext sol
  refine ⟨q, sol', k1, k2, fun hok => ?_⟩
  obtain ⟨k5, k6⟩ := k4 hok
  exact ⟨⟨k3.trans hs.structure_, k5⟩, pepper_best h4 k6 fun _ h => h⟩

/-- **C86.** With qpmad: either the answer is as for QuadProg++, among solutions below the library infinity, or an exception tells that
no such solution is allowed. -/
theorem C86_qpmad (hu : PepperUpdated model mpc) (hp : PepperFormed o mpc p') (z : ℕ → ℕ → K) (zc : Junk K)
    (old : QPObjective K × QPConstraintsILUALU K) {reg : K} (hreg : 0 ≤ reg)
    (hpos : 0 < reg ∨ o.baseJerkGain ≠ 0 ∧ o.bodyJerkGain ≠ 0) {ext : QpmadArgs K → QpmadStatus × List K}
    (hext : TrustedQpmad ext) {sol : Solution K} (hs : SolutionFor mpc.intervals.length sol) :
    (∃ q sol', qpmadInitialize z zc old p'.hierarchy (4 * mpc.intervals.length) = .ok q ∧ qpmadSolve ext reg q sol = .ok sol' ∧
      (sol'.status = .ok → SolutionFor mpc.intervals.length sol' ∧
        PepperBest o mpc.intervals model.getMPCState reg (PepperModerate mpc.intervals) (entries sol'))) ∨
    (qpmadInitialize z zc old p'.hierarchy (4 * mpc.intervals.length) = .error .thrown ∧
      ∀ x X, PepperModerate mpc.intervals x → Simulates mpc.intervals model.getMPCState x X → ¬ PepperAllowed mpc.intervals X) := by
  obtain ⟨P, env, g, L0, L1, h1, h2, h3, h4, h5⟩ := pepper_solvable hu hp
  rcases C67_qpmad h1 h2 h3 (by rw [h3]; exact h5.inRange) h5.minimise h5.simple z zc old hreg
    (hpos.imp id fun h => by
      have := h5.determined h.1 h.2
      rwa [formed_nvars (pepper_ready hu).consistent] at this) hext sol with ⟨q, sol', k1, k2, k3, k4⟩ | ⟨k1, k2⟩
  · refine .inl ⟨q, sol', k1, k2, fun hok => ?_⟩
    obtain ⟨k5, k6⟩ := k4 hok
    exact ⟨⟨k3.trans hs.structure_, k5⟩, pepper_best h4 k6 fun y hy => ⟨fun ti hti => h5.within ti hti y, hy⟩⟩
  · exact .inr ⟨k1, fun x X hx hX ha => k2 x hx ((h4.allowed x X hX).2 ha)⟩

/-- **C86.** With qpOASES. -/
theorem C86_qpoases (hu : PepperUpdated model mpc) (hp : PepperFormed o mpc p') (z : ℕ → ℕ → K) (zc : Junk K)
    (old : QPObjective K × QPConstraintsILUALU K) {ext : QpoasesArgs K → QpoasesStatus × (ℕ → K)} (hext : TrustedQpoases ext)
    {sol : Solution K} (hs : SolutionFor mpc.intervals.length sol) :
    (∃ q sol', qpoasesInitialize z zc old p'.hierarchy (4 * mpc.intervals.length) = .ok q ∧ qpoasesSolve ext q sol = .ok sol' ∧
      SolutionFor mpc.intervals.length sol' ∧
      (sol'.status = .ok → PepperBest o mpc.intervals model.getMPCState 0 (PepperModerate mpc.intervals) (entries sol'))) ∨
    (qpoasesInitialize z zc old p'.hierarchy (4 * mpc.intervals.length) = .error .thrown ∧
      ∀ x X, PepperModerate mpc.intervals x → Simulates mpc.intervals model.getMPCState x X → ¬ PepperAllowed mpc.intervals X) := by
  obtain ⟨P, env, g, L0, L1, h1, h2, h3, h4, h5⟩ := pepper_solvable hu hp
  rcases C67_qpoases h1 h2 h3 (by rw [h3]; exact h5.inRange) h5.minimise h5.simple z zc old hext sol
    (by rw [hs.structure_, nvars_solutionStructure]) hs.size with ⟨q, sol', k1, k2, k3, k4, k5⟩ | ⟨k1, k2⟩
  · refine .inl ⟨q, sol', k1, k2, ⟨k3.trans hs.structure_, k4⟩, fun hok => ?_⟩
    exact pepper_best h4 (k5 hok) fun y hy => ⟨fun ti hti => h5.within ti hti y, hy⟩
  · exact .inr ⟨k1, fun x X hx hX ha => k2 x hx ((h4.allowed x X hX).2 ha)⟩

end

/-! ### Examples -/

/-- A robot which stands: the body is over the base. -/
def standingModel (K : Type) [Field K] : Model K where
  state := ModelState.setParameters 1 2 0 3 4
  robot_parameters := ⟨1, 1, 1, 1, 1, boundsOf 1, boundsOf 1, boundsOf 1, boundsOf 1, boundsOf 1, boundsOf 1⟩
  current_base_position := 0

/-- The controller with `N` intervals of a second is updated for the standing robot; if nothing is done, then the robot stands, and this
motion is allowed. -/
theorem standing_updated (N : ℕ) (hN : 0 < N) (hNT : N * 1000 < 2 ^ 63) (junk : ℕ → ℕ → ℕ → ℕ → K) (dflt : Interval K) :
    ∃ mpc X, PepperUpdated (standingModel K) mpc ∧ mpc.intervals.length = N ∧ mpc.parameters = ⟨N, 1000, 1000⟩ ∧
      Simulates mpc.intervals (standingModel K).getMPCState (fun _ => 0) X ∧ PepperAllowed mpc.intervals X := by
  obtain ⟨c, st, h1, h2, h3, h4, h5⟩ := C71_update junk ⟨fun _ => (1 : K), fun _ => 0⟩ dflt
    (m := ⟨0, 0, 0, -1, .maintainVelocity⟩) (Or.inl rfl) (standingModel K) (c := Mpc.make ⟨N, 1000, 1000⟩)
    (show 0 < 1000 by norm_num) hN hNT (Or.inl (sizedFor_make _))
  have hst := h2.mpr (Or.inl ⟨_, List.mem_singleton.mpr rfl, rfl⟩)
  subst hst
  obtain ⟨hH, hC⟩ := h5 rfl
  have hT := horizon_times hH (show 0 < 1000 by norm_num)
  have hX := simulation_simulates hT (x0 := (standingModel K).getMPCState) rfl (fun _ => (0 : K))
  set X := simulation c.intervals (standingModel K).getMPCState fun _ => (0 : K)
  have h0 : ∀ k ≤ c.intervals.length, ∀ a < 4, (X k).e (3 * a) = 0 ∧ (X k).e (3 * a + 1) = 0 ∧ (X k).e (3 * a + 2) = 0 := by
    intro k
    induction k with
    | zero =>
      intro _ a ha
      have : a = 0 ∨ a = 1 ∨ a = 2 ∨ a = 3 := by omega
      rcases this with rfl | rfl | rfl | rfl <;> exact ⟨rfl, rfl, rfl⟩
    | succ k ih =>
      intro hk a ha
      have hiv : c.intervals[k]? = some c.intervals[k] := List.getElem?_eq_getElem hk
      generalize c.intervals[k] = iv at hiv
      obtain ⟨i0, i1, i2⟩ := ih (by omega) a ha
      obtain ⟨-, -, -, s1, s2⟩ := hX.2 k iv hiv
      have hctl : (controlAt c.intervals.length (fun _ => (0 : K)) k).e a = 0 := by
        have : a = 0 ∨ a = 1 ∨ a = 2 ∨ a = 3 := by omega
        rcases this with rfl | rfl | rfl | rfl <;> rfl
      by_cases ha2 : a < 2
      · obtain ⟨j, v, e0, e1, e2⟩ := s1 a ha2
        rw [hctl, i1, i2] at v
        have hj : j = 0 := by
          rw [stepJerk_unique (hT iv (List.mem_of_getElem? hiv)) v]
          ring
        rw [e0, e1, e2, i0, i1, i2, hj]
        unfold positionAt velocityAt accelerationAt
        refine ⟨by ring, by ring, by ring⟩
      · obtain ⟨e0, e1, e2⟩ := s2 a (by omega) ha
        rw [e0, e1, e2, i0, i1, i2, hctl]
        unfold positionAt velocityAt accelerationAt
        refine ⟨by ring, by ring, by ring⟩
  have hwithin : ∀ {b : Fin 2 → Fin 2 → K} {v : Fin 2 → K}, b = boundsOf 1 → (∀ a, v a = 0) → WithinBounds b v := by
    rintro b v rfl hv a
    rw [hv a]
    fin_cases a <;> exact ⟨neg_nonpos.2 zero_le_one, zero_le_one⟩
  have hiv : ∀ (k : ℕ) iv, c.intervals[k]? = some iv → iv.cop_bounds = boundsOf 1 ∧ iv.nominal_base_velocity_bounds = boundsOf 1 ∧
      iv.nominal_base_acceleration_bounds = boundsOf 1 ∧ iv.body_bounds = boundsOf 1 := by
    intro k iv hk
    obtain ⟨m, theta, -, -, hi⟩ := hH.2 k iv hk
    exact ⟨hi.cop_bounds, hi.velocity_bounds, hi.acceleration_bounds, hi.body_bounds⟩
  have hlt : ∀ (k : ℕ) iv, c.intervals[k]? = some iv → k + 1 ≤ c.intervals.length := fun k iv hk => (List.getElem?_eq_some_iff.mp hk).1
  refine ⟨c, X, ⟨junk, _, dflt, Mpc.make ⟨N, 1000, 1000⟩, 0, by norm_num [Mpc.make], hN, hNT, .inl rfl, sizedFor_make _, ?_, ?_,
    .inl ⟨⟨0, 0, 0, -1, .maintainVelocity⟩, Or.inl rfl, h1⟩⟩, hH.1, h3, hX, fun k iv hk => ?_, fun k iv hk => ?_, fun k iv hk => ?_, fun k iv hk => ?_⟩
  · norm_num [standingModel, ModelState.setParameters]
  · intro a
    fin_cases a <;> rfl
  · refine hwithin (hiv k iv hk).2.1 fun a => ?_
    exact (h0 _ (hlt k iv hk) a (by omega)).2.1
  · refine hwithin (hiv k iv hk).2.2.1 fun a => ?_
    exact (h0 _ (hlt k iv hk) a (by omega)).2.2
  · refine hwithin (hiv k iv hk).1 fun a => ?_
    obtain ⟨p0, -, p2⟩ := h0 _ (hlt k iv hk) a (by omega)
    obtain ⟨q0, -, q2⟩ := h0 _ (hlt k iv hk) (a + 2) (by omega)
    show intervalCop iv (X (k + 1)) a = 0
    unfold intervalCop
    rw [p0, p2, q0, q2]
    ring
  · refine hwithin (hiv k iv hk).2.2.2 fun a => ?_
    have e0 : (X (k + 1)).e 0 = 0 := (h0 _ (hlt k iv hk) 0 (by omega)).1
    have e3 : (X (k + 1)).e 3 = 0 := (h0 _ (hlt k iv hk) 1 (by omega)).1
    have e6 : (X (k + 1)).e 6 = 0 := (h0 _ (hlt k iv hk) 2 (by omega)).1
    have e9 : (X (k + 1)).e 9 = 0 := (h0 _ (hlt k iv hk) 3 (by omega)).1
    show bodyOffset iv (X (k + 1)) a = 0
    unfold bodyOffset
    rw [e0, e3, e6, e9]
    ring

/-- Gains in hierarchies.yaml. -/
def exampleSetup (mode : MotionMode) : ProblemSetup ℚ := ⟨mode, 7071 / 10000, 1, 2236 / 100000, 2236 / 100000, 7071 / 10000⟩

/-- Such problems exist: the hierarchy is formed for the standing robot with 15 intervals, with a guess, its active set is processed, and
the second iteration can be made. There are allowed motions. The hypotheses on the gains are met. -/
example (junk : ℕ → ℕ → ℕ → ℕ → ℚ) (junkI : ℕ → ℕ → ℕ) (dflt : Interval ℚ) (P : Hierarchy (ProblemEnv ℚ) ℚ) (mode : MotionMode)
    (hm : mode ≠ .undefined) : ∃ mpc p p' p'' s X, PepperUpdated (standingModel ℚ) mpc ∧ mpc.intervals.length = 15 ∧
      setupHierarchy (exampleSetup mode) P = .ok p ∧ p.form (junk 0) junkI true mpc = .ok p' ∧ PepperFormed (exampleSetup mode) mpc p' ∧
      PepperActiveSetFor p' s ∧ p'.processActiveSet s = .ok p'' ∧ PepperSolvedAfter (exampleSetup mode) (some 15) p'' ∧
      Simulates mpc.intervals (standingModel ℚ).getMPCState (fun _ => 0) X ∧ PepperAllowed mpc.intervals X ∧
      (exampleSetup mode).baseJerkGain ≠ 0 ∧ (exampleSetup mode).bodyJerkGain ≠ 0 := by
  obtain ⟨mpc, X, hu, hn, -, hX, hA⟩ := standing_updated (K := ℚ) 15 (by norm_num) (by norm_num) junk dflt
  obtain ⟨p, hp, -⟩ := pepper_setup (exampleSetup mode) hm P
  obtain ⟨p', L0, L1, hf, -⟩ := C86_guess (.setup hp) hu (fun _ h => by cases h) (junk 0) junkI
  have hF : PepperFormed (exampleSetup mode) mpc p' := ⟨p, _, _, _, .inl ⟨_, .setup hp⟩, hf⟩
  have ha : PepperActiveSetFor p' (p'.hierarchy.levels.map fun L => List.replicate L.nConstraints .inactive) := by
    unfold PepperActiveSetFor
    rw [List.map_map]
    exact List.map_congr_left fun L _ => List.length_replicate ..
  obtain ⟨p'', h''⟩ := C86_process hu hF ha
  exact ⟨mpc, p, p', p'', _, X, hu, hn, hp, hf, hF, ha, h'', hn ▸ .cycle (.setup hp) hu hf h'', hX, hA, by norm_num [exampleSetup],
    by norm_num [exampleSetup]⟩

/-- The case in which forming throws exists. -/
example (junk : ℕ → ℕ → ℕ → ℕ → ℚ) (junkI : ℕ → ℕ → ℕ) (dflt : Interval ℚ) (P : Hierarchy (ProblemEnv ℚ) ℚ) :
    ∃ mpc p, PepperSolvedAfter (exampleSetup .maintainVelocity) (some 1) p ∧ PepperUpdated (standingModel ℚ) mpc ∧
      p.form (junk 0) junkI true mpc = .error .thrown := by
  obtain ⟨mpc, X, hu, hn, hpar, -⟩ := standing_updated (K := ℚ) 1 (by norm_num) (by norm_num) junk dflt
  obtain ⟨p, hp, -⟩ := pepper_setup (exampleSetup .maintainVelocity) (by decide) P
  obtain ⟨p', L0, L1, hf, -⟩ := C86_guess (.setup hp) hu (fun _ h => by cases h) (junk 0) junkI
  obtain ⟨p'', h''⟩ := C86_process hu ⟨p, _, _, _, .inl ⟨_, .setup hp⟩, hf⟩
    (s := p'.hierarchy.levels.map fun L => List.replicate L.nConstraints .inactive) (by
      unfold PepperActiveSetFor
      rw [List.map_map]
      exact List.map_congr_left fun L _ => List.length_replicate ..)
  have hS : PepperSolvedAfter (exampleSetup .maintainVelocity) (some 1) p'' := hn ▸ .cycle (.setup hp) hu hf h''
  exact ⟨mpc, p'', hS, hu, C86_guess_throws hS hu hn (by rw [hpar]) (junk 0) junkI⟩

end Humoto.Pepper
