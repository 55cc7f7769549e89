import Verif.Model.Solver
import Verif.Props.Guess

/-!
# Solver interface: C17, C18
-/

namespace Humoto

namespace Spec

/-- Calls of the methods which a particular solver implements. -/
inductive Call (AS K : Type)
  | checkInputs
  | init
  | setSolutionGuess (g : Solution K)
  | setActiveSet (a : AS)
  | solveHierarchy
  | getActiveSet

/-- The solution guess which is handed to an entry point. -/
def givenGuess {AS K : Type} : Entry AS K → List (Solution K)
  | .guess g | .guessActiveSetInOut g _ | .guessActiveSetIn g _ | .guessActiveSetOut g => [g]
  | _ => []

/-- The active set guess which is handed to an entry point. -/
def givenActiveSet {AS K : Type} : Entry AS K → List AS
  | .activeSetInOut a | .activeSetIn a | .guessActiveSetInOut _ a | .guessActiveSetIn _ a => [a]
  | _ => []

/-- Whether an entry point hands out an active set. -/
def wantsActiveSet {AS K : Type} : Entry AS K → Bool
  | .activeSetInOut _ | .activeSetOut | .guessActiveSetInOut .. | .guessActiveSetOut _ => true
  | _ => false

/-- The parameters an entry point works with. -/
def paramsOf {AS K : Type} (old : SolverParameters) : Entry AS K → SolverParameters
  | .params p => p
  | _ => old

/-- What a user expects to happen if nothing fails. -/
def expected {AS K : Type} (e : Entry AS K) : List (Call AS K) :=
  [.checkInputs, .init] ++ (givenGuess e).map .setSolutionGuess ++ (givenActiveSet e).map .setActiveSet ++
    [.solveHierarchy] ++ (if wantsActiveSet e then [.getActiveSet] else [])

variable {H AS K σ α : Type}

/-- Run a method and write it down. -/
def record (c : Call AS K) (m : SM (SolverState σ) α) : SM (SolverState (σ × List (Call AS K))) α := fun s =>
  let r := m ⟨s.params, s.mem.1⟩
  (r.1, ⟨r.2.params, (r.2.mem, s.mem.2 ++ [c])⟩)

/-- The solver `B` with a record of all calls. -/
def traced (B : Backend H AS K σ) : Backend H AS K (σ × List (Call AS K)) where
  checkInputs h := record .checkInputs (B.checkInputs h)
  init h s := record .init (B.init h s)
  setSolutionGuess g := record (.setSolutionGuess g) (B.setSolutionGuess g)
  setActiveSet a h := record (.setActiveSet a) (B.setActiveSet a h)
  solveHierarchy sol h := record .solveHierarchy (B.solveHierarchy sol h)
  getActiveSet h := record .getActiveSet (B.getActiveSet h)

/-- A method does not replace the parameters of the solver. -/
def KeepsParams (m : SM (SolverState σ) α) : Prop := ∀ s, (m s).2.params = s.params

/-- No method of the solver replaces the parameters. -/
structure Wellbehaved (B : Backend H AS K σ) : Prop where
  checkInputs : ∀ h, KeepsParams (B.checkInputs h)
  init : ∀ h s, KeepsParams (B.init h s)
  setSolutionGuess : ∀ g, KeepsParams (B.setSolutionGuess g)
  setActiveSet : ∀ a h, KeepsParams (B.setActiveSet a h)
  solveHierarchy : ∀ sol h, KeepsParams (B.solveHierarchy sol h)
  getActiveSet : ∀ h, KeepsParams (B.getActiveSet h)

end Spec

open Spec

variable {H AS K σ α β : Type}

/-! ## C17 -/

theorem SM.ok_cases {m : SM σ α} {f : α → SM σ β} {s s' : σ} {b : β} (h : (m >>= f) s = (.ok b, s')) :
    ∃ a s1, m s = (.ok a, s1) ∧ f a s1 = (.ok b, s') := by
  rw [SM.bind_apply] at h
  rcases hm : m s with ⟨_ | a, s1⟩
  · rw [hm] at h; cases h
  · rw [hm] at h; exact ⟨a, s1, rfl, h⟩

theorem SM.params_bind {m : SM (SolverState σ) α} {f : α → SM (SolverState σ) β} (hm : KeepsParams m)
    (hf : ∀ a, KeepsParams (f a)) : KeepsParams (m >>= f) := by
  intro s
  rw [SM.bind_apply]
  have h1 := hm s
  rcases h : m s with ⟨_ | a, s1⟩
  · rw [h] at h1; exact h1
  · rw [h] at h1
    simp only
    rw [hf a s1]; exact h1

theorem checkResults_keeps (sol : Solution K) : KeepsParams (σ := σ) (Backend.checkResults sol) := by
  intro s
  unfold Backend.checkResults
  split <;> rfl

theorem pure_keeps (a : α) : KeepsParams (pure a : SM (SolverState σ) α) := fun _ => rfl

theorem checkResults_ok {sol : Solution K} {s s' : SolverState σ} {u : Unit}
    (h : Backend.checkResults sol s = (.ok u, s')) : s' = s ∧ (s.params.crashOnAnyFailure = true → sol.status = .ok) := by
  unfold Backend.checkResults at h
  split at h
  · cases h
  · rename_i hc
    cases h
    refine ⟨rfl, fun h => ?_⟩
    by_contra hn
    exact hc ⟨h, hn⟩

/-- The parameters of the solver after any call, successful or not, are the ones of the last call which was given some. -/
theorem C17_params {B : Backend H AS K σ} (hB : Wellbehaved B) (sol : Solution K) (h : H) (e : Entry AS K)
    (s : SolverState σ) : (B.solve sol h e s).2.params = paramsOf s.params e := by
  have tail : ∀ (w : Bool) (sol' : Solution K),
      KeepsParams (do
        Backend.checkResults sol'
        let a' ← B.getActiveSet h
        pure (sol', some a') : SM (SolverState σ) _) ∧
      KeepsParams (do
        Backend.checkResults sol'
        pure (sol', (none : Option AS)) : SM (SolverState σ) _) := fun _ sol' =>
    ⟨SM.params_bind (checkResults_keeps _) fun _ => SM.params_bind (hB.getActiveSet h) fun _ => pure_keeps _,
     SM.params_bind (checkResults_keeps _) fun _ => pure_keeps _⟩
  cases e with
  | plain =>
    exact SM.params_bind (hB.checkInputs h) (fun _ => SM.params_bind (hB.init h _) fun _ =>
      SM.params_bind (hB.solveHierarchy _ h) fun _ => (tail true _).2) s
  | params p =>
    have hk : ∀ sol' : Solution K, _ := fun sol' => (tail true sol').2
    exact SM.params_bind (hB.checkInputs h) (fun _ => SM.params_bind (hB.init h sol.structure_) fun _ =>
      SM.params_bind (hB.solveHierarchy sol h) hk) { s with params := p }
  | guess g =>
    exact SM.params_bind (hB.checkInputs h) (fun _ => SM.params_bind (hB.init h _) fun _ =>
      SM.params_bind (hB.setSolutionGuess g) fun _ =>
      SM.params_bind (hB.solveHierarchy _ h) fun _ => (tail true _).2) s
  | activeSetInOut a =>
    exact SM.params_bind (hB.checkInputs h) (fun _ => SM.params_bind (hB.init h _) fun _ =>
      SM.params_bind (hB.setActiveSet a h) fun _ =>
      SM.params_bind (hB.solveHierarchy _ h) fun _ => (tail true _).1) s
  | activeSetIn a =>
    exact SM.params_bind (hB.checkInputs h) (fun _ => SM.params_bind (hB.init h _) fun _ =>
      SM.params_bind (hB.setActiveSet a h) fun _ =>
      SM.params_bind (hB.solveHierarchy _ h) fun _ => (tail true _).2) s
  | activeSetOut =>
    exact SM.params_bind (hB.checkInputs h) (fun _ => SM.params_bind (hB.init h _) fun _ =>
      SM.params_bind (hB.solveHierarchy _ h) fun _ => (tail true _).1) s
  | guessActiveSetInOut g a =>
    exact SM.params_bind (hB.checkInputs h) (fun _ => SM.params_bind (hB.init h _) fun _ =>
      SM.params_bind (hB.setSolutionGuess g) fun _ => SM.params_bind (hB.setActiveSet a h) fun _ =>
      SM.params_bind (hB.solveHierarchy _ h) fun _ => (tail true _).1) s
  | guessActiveSetIn g a =>
    exact SM.params_bind (hB.checkInputs h) (fun _ => SM.params_bind (hB.init h _) fun _ =>
      SM.params_bind (hB.setSolutionGuess g) fun _ => SM.params_bind (hB.setActiveSet a h) fun _ =>
      SM.params_bind (hB.solveHierarchy _ h) fun _ => (tail true _).2) s
  | guessActiveSetOut g =>
    exact SM.params_bind (hB.checkInputs h) (fun _ => SM.params_bind (hB.init h _) fun _ =>
      SM.params_bind (hB.setSolutionGuess g) fun _ =>
      SM.params_bind (hB.solveHierarchy _ h) fun _ => (tail true _).1) s

/-- Every entry point ends with: solve, check the status, and hand out the active set if asked to. -/
theorem solve_tail {B : Backend H AS K σ} {sol : Solution K} {h : H} {e : Entry AS K} {s s' : SolverState σ}
    {r : Solution K × Option AS} (hr : B.solve sol h e s = (.ok r, s')) :
    ∃ s1 s2 s3 u, B.solveHierarchy sol h s1 = (.ok r.1, s2) ∧ Backend.checkResults r.1 s2 = (.ok u, s3) ∧
      (if wantsActiveSet e then ∃ a, B.getActiveSet h s3 = (.ok a, s') ∧ r.2 = some a else r.2 = none ∧ s' = s3) := by
  cases e <;> simp only [Backend.solve] at hr <;>
    repeat (
      have hq := SM.ok_cases hr
      clear hr
      obtain ⟨_, _, _, hr⟩ := hq
    )
  all_goals
    first
    | (rename_i h1 _ _ h2 _ _ h3
       cases hr
       exact ⟨_, _, _, _, h1, h2, _, h3, rfl⟩)
    | (rename_i h1 _ _ h2
       cases hr
       exact ⟨_, _, _, _, h1, h2, rfl, rfl⟩)

/-- An entry point which returns normally with the crash flag set did solve the problem; it returns an active set exactly
if it was asked for one. -/
theorem C17_status {B : Backend H AS K σ} (hB : Wellbehaved B) {sol : Solution K} {h : H} {e : Entry AS K}
    {s s' : SolverState σ} {r : Solution K × Option AS} (hr : B.solve sol h e s = (.ok r, s')) :
    ((paramsOf s.params e).crashOnAnyFailure = true → r.1.status = .ok) ∧ (r.2.isSome = wantsActiveSet e) := by
  have hp := C17_params hB sol h e s
  rw [hr] at hp
  obtain ⟨s1, s2, s3, u, h1, h2, h3⟩ := solve_tail hr
  obtain ⟨e3, hc⟩ := checkResults_ok h2
  by_cases hw : wantsActiveSet e = true
  · rw [if_pos hw] at h3
    obtain ⟨a, h4, h5⟩ := h3
    have := hB.getActiveSet h s3
    rw [h4] at this
    refine ⟨fun hcr => hc ?_, by rw [h5, hw]; rfl⟩
    rw [← hcr, ← hp]
    simp only at this ⊢
    rw [this, e3]
  · rw [if_neg hw] at h3
    refine ⟨fun hcr => hc ?_, by rw [h3.1]; simpa using hw⟩
    rw [← hcr, ← hp, h3.2, e3]

/-- `mt` does what `m` does and writes down an initial part of `cs`, all of it if it succeeds. -/
def Sim (cs : List (Call AS K)) (m : SM (SolverState σ) α) (mt : SM (SolverState (σ × List (Call AS K))) α) : Prop :=
  ∀ p x log, (mt ⟨p, (x, log)⟩).1 = (m ⟨p, x⟩).1 ∧ (mt ⟨p, (x, log)⟩).2.params = (m ⟨p, x⟩).2.params ∧
    (mt ⟨p, (x, log)⟩).2.mem.1 = (m ⟨p, x⟩).2.mem ∧
    ∃ pre, pre <+: cs ∧ (mt ⟨p, (x, log)⟩).2.mem.2 = log ++ pre ∧ (∀ r, (m ⟨p, x⟩).1 = .ok r → pre = cs)

theorem Sim.bind {cs cs' : List (Call AS K)} {m : SM (SolverState σ) α} {mt : SM (SolverState (σ × List (Call AS K))) α}
    {f : α → SM (SolverState σ) β} {ft : α → SM (SolverState (σ × List (Call AS K))) β} (h : Sim cs m mt)
    (hf : ∀ a, Sim cs' (f a) (ft a)) : Sim (cs ++ cs') (m >>= f) (mt >>= ft) := by
  intro p x log
  obtain ⟨h1, h2, h3, pre, h4, h5, h6⟩ := h p x log
  rw [SM.bind_apply, SM.bind_apply]
  rcases hm : m ⟨p, x⟩ with ⟨e | a, ⟨p1, x1⟩⟩ <;> rcases hmt : mt ⟨p, (x, log)⟩ with ⟨e' | a', ⟨p1', ⟨x1', log1⟩⟩⟩ <;>
    simp only [hm, hmt] at h1 h2 h3 h5 h6 ⊢ <;> try cases h1
  · refine ⟨rfl, h2, h3, pre, h4.trans (List.prefix_append _ _), h5, ?_⟩
    intro r hr; cases hr
  · subst h2 h3 h5
    obtain ⟨g1, g2, g3, pre', g4, g5, g6⟩ := hf a p1' x1' (log ++ pre)
    have hpre := h6 a rfl
    refine ⟨g1, g2, g3, cs ++ pre', ?_, ?_, ?_⟩
    · exact (List.prefix_append_right_inj cs).mpr g4
    · rw [g5, hpre, List.append_assoc]
    · intro r hr; rw [g6 r hr]

theorem Sim.record (c : Call AS K) (m : SM (SolverState σ) α) : Sim [c] m (record c m) := fun _ _ _ =>
  ⟨rfl, rfl, rfl, [c], List.prefix_refl _, rfl, fun _ _ => rfl⟩

theorem Sim.pure (a : α) : Sim ([] : List (Call AS K)) (pure a : SM (SolverState σ) α) (pure a) := fun _ _ _ =>
  ⟨rfl, rfl, rfl, [], List.prefix_refl _, by simp [SM.pure_apply], fun _ _ => rfl⟩

theorem Sim.check (sol : Solution K) : Sim ([] : List (Call AS K)) (Backend.checkResults (σ := σ) sol)
    (Backend.checkResults sol) := by
  intro p x log
  unfold Backend.checkResults
  by_cases h : p.crashOnAnyFailure = true ∧ sol.status ≠ .ok
  · refine ⟨?_, ?_, ?_, [], List.prefix_refl _, ?_, fun _ _ => rfl⟩ <;> simp [h]
  · refine ⟨?_, ?_, ?_, [], List.prefix_refl _, ?_, fun _ _ => rfl⟩ <;> simp only [if_neg h, List.append_nil]

theorem Sim.setParams (q : SolverParameters) : Sim ([] : List (Call AS K)) (Backend.setParams (σ := σ) q)
    (Backend.setParams q) := fun _ _ _ =>
  ⟨rfl, rfl, rfl, [], List.prefix_refl _, by simp [Backend.setParams], fun _ _ => rfl⟩

theorem solve_sim (B : Backend H AS K σ) (sol : Solution K) (h : H) (e : Entry AS K) :
    Sim (expected e) (B.solve sol h e) ((traced B).solve sol h e) := by
  cases e with
  | plain =>
    exact Sim.bind (cs := [_]) (.record _ _) fun _ => Sim.bind (cs := [_]) (.record _ _) fun _ =>
      Sim.bind (cs := [_]) (.record _ _) fun _ => Sim.bind (.check _) fun _ => .pure _
  | params p =>
    exact Sim.bind (cs := []) (.setParams _) fun _ => Sim.bind (cs := [_]) (.record _ _) fun _ => Sim.bind (cs := [_]) (.record _ _) fun _ =>
      Sim.bind (cs := [_]) (.record _ _) fun _ => Sim.bind (.check _) fun _ => .pure _
  | guess g =>
    exact Sim.bind (cs := [_]) (.record _ _) fun _ => Sim.bind (cs := [_]) (.record _ _) fun _ =>
      Sim.bind (cs := [_]) (.record _ _) fun _ =>
      Sim.bind (cs := [_]) (.record _ _) fun _ => Sim.bind (.check _) fun _ => .pure _
  | activeSetInOut a =>
    exact Sim.bind (cs := [_]) (.record _ _) fun _ => Sim.bind (cs := [_]) (.record _ _) fun _ =>
      Sim.bind (cs := [_]) (.record _ _) fun _ =>
      Sim.bind (cs := [_]) (.record _ _) fun _ => Sim.bind (.check _) fun _ =>
      Sim.bind (cs := [_]) (.record _ _) fun _ => .pure _
  | activeSetIn a =>
    exact Sim.bind (cs := [_]) (.record _ _) fun _ => Sim.bind (cs := [_]) (.record _ _) fun _ =>
      Sim.bind (cs := [_]) (.record _ _) fun _ =>
      Sim.bind (cs := [_]) (.record _ _) fun _ => Sim.bind (.check _) fun _ => .pure _
  | activeSetOut =>
    exact Sim.bind (cs := [_]) (.record _ _) fun _ => Sim.bind (cs := [_]) (.record _ _) fun _ =>
      Sim.bind (cs := [_]) (.record _ _) fun _ => Sim.bind (.check _) fun _ =>
      Sim.bind (cs := [_]) (.record _ _) fun _ => .pure _
  | guessActiveSetInOut g a =>
    exact Sim.bind (cs := [_]) (.record _ _) fun _ => Sim.bind (cs := [_]) (.record _ _) fun _ =>
      Sim.bind (cs := [_]) (.record _ _) fun _ => Sim.bind (cs := [_]) (.record _ _) fun _ =>
      Sim.bind (cs := [_]) (.record _ _) fun _ => Sim.bind (.check _) fun _ =>
      Sim.bind (cs := [_]) (.record _ _) fun _ => .pure _
  | guessActiveSetIn g a =>
    exact Sim.bind (cs := [_]) (.record _ _) fun _ => Sim.bind (cs := [_]) (.record _ _) fun _ =>
      Sim.bind (cs := [_]) (.record _ _) fun _ => Sim.bind (cs := [_]) (.record _ _) fun _ =>
      Sim.bind (cs := [_]) (.record _ _) fun _ => Sim.bind (.check _) fun _ => .pure _
  | guessActiveSetOut g =>
    exact Sim.bind (cs := [_]) (.record _ _) fun _ => Sim.bind (cs := [_]) (.record _ _) fun _ =>
      Sim.bind (cs := [_]) (.record _ _) fun _ =>
      Sim.bind (cs := [_]) (.record _ _) fun _ => Sim.bind (.check _) fun _ =>
      Sim.bind (cs := [_]) (.record _ _) fun _ => .pure _

/-- The record of the calls: recording changes nothing; the calls are always an initial part of the expected ones, in
this order and with these arguments; they are all made if the entry point returns normally. -/
theorem C17_calls (B : Backend H AS K σ) (sol : Solution K) (h : H) (e : Entry AS K) (p : SolverParameters) (m : σ) :
    ((traced B).solve sol h e ⟨p, (m, [])⟩).1 = (B.solve sol h e ⟨p, m⟩).1 ∧
    ((traced B).solve sol h e ⟨p, (m, [])⟩).2.mem.1 = (B.solve sol h e ⟨p, m⟩).2.mem ∧
    ((traced B).solve sol h e ⟨p, (m, [])⟩).2.mem.2 <+: expected e ∧
    (∀ r, (B.solve sol h e ⟨p, m⟩).1 = .ok r →
      ((traced B).solve sol h e ⟨p, (m, [])⟩).2.mem.2 = expected e) := by
  obtain ⟨h1, _, h3, pre, h4, h5, h6⟩ := solve_sim B sol h e p m []
  rw [List.nil_append] at h5
  exact ⟨h1, h3, by rw [h5]; exact h4, fun r hr => by rw [h5]; exact h6 r hr⟩

/-- With the crash flag, an outcome of the solver other than success becomes an exception and no active set is read;
without it, the solution is handed out with its status. -/
theorem C17_failure {B : Backend H AS K σ} (sol sol' : Solution K) (h : H) (s s1 s2 s3 : SolverState σ)
    (h1 : B.checkInputs h s = (.ok (), s1)) (h2 : B.init h sol.structure_ s1 = (.ok (), s2))
    (h3 : B.solveHierarchy sol h s2 = (.ok sol', s3)) (hf : sol'.status ≠ .ok) :
    (s3.params.crashOnAnyFailure = true →
      B.solve sol h .plain s = (.error .thrown, s3) ∧ B.solve sol h .activeSetOut s = (.error .thrown, s3)) ∧
    (s3.params.crashOnAnyFailure = false → B.solve sol h .plain s = (.ok (sol', none), s3)) := by
  refine ⟨fun hc => ⟨?_, ?_⟩, fun hc => ?_⟩
  · simp [Backend.solve, SM.bind_apply, h1, h2, h3, Backend.checkResults, hc, hf]
  · simp [Backend.solve, SM.bind_apply, h1, h2, h3, Backend.checkResults, hc, hf]
  · simp [Backend.solve, SM.bind_apply, SM.pure_apply, h1, h2, h3, Backend.checkResults, hc]

/-! ## C18 -/

variable {E : Type} [Field K]

/-- A formed hierarchy is accepted by a QP solver exactly if interpretation as a QP is enabled, it has one or two levels,
and all rows of its last level come from equality tasks. In all other cases an exception is raised. -/
theorem C18_checkInputs {P P' : Hierarchy E K} {nv : ℕ} {env : E} {g : Bool} (h : P.form nv env g = .ok P')
    (hr : ∀ L ∈ P.levels, Reachable L) (p : SolverParameters) :
    (qpCheckInputs p P' = .ok () ↔
      p.solveTwoLevelsAsQp = true ∧ (P'.levels.length = 1 ∨ P'.levels.length = 2) ∧
      ∀ L, P'.levels.getLast? = some L → ∀ ti ∈ L.tasks, rows ti.task.ctr ≠ 0 → ti.task.ctr.ctype.isEquality = true) ∧
    (qpCheckInputs p P' = .ok () ∨ qpCheckInputs p P' = .error .thrown) := by
  unfold qpCheckInputs
  by_cases h1 : p.solveTwoLevelsAsQp = true
  swap
  · rw [assertThat_false h1]
    exact ⟨⟨fun h => (by cases h), fun h => absurd h.1 h1⟩, Or.inr rfl⟩
  rw [assertThat_true h1, ok_bind]
  by_cases h2 : P'.levels.length ≤ 2 ∧ P'.levels.length ≥ 1
  swap
  · rw [assertThat_false h2]
    exact ⟨⟨fun h => (by cases h), fun h => absurd (by omega) h2⟩, Or.inr rfl⟩
  rw [assertThat_true h2, ok_bind]
  have hlast : P'.levels[P'.levels.length - 1]? = some P'.levels[P'.levels.length - 1] :=
    List.getElem?_eq_getElem (by omega)
  have hlast' : P'.levels.getLast? = some P'.levels[P'.levels.length - 1] := by
    rw [List.getLast?_eq_getElem?, hlast]
  generalize hL : P'.levels[P'.levels.length - 1] = L at hlast hlast'
  rw [hlast, hlast']
  simp only
  -- the last level is formed
  have hmem : L ∈ P'.levels := List.mem_of_getElem? hlast
  have hf := hierarchy_forms h
  obtain ⟨L0, hr0, h0⟩ : ∃ L0, Reachable L0 ∧ L0.form nv env g = .ok L := by
    have key : ∀ {l l' : List (Level E K)}, List.Forall₂ (fun L L' : Level E K => L.form nv env g = .ok L') l l' →
        (∀ L ∈ l, Reachable L) → L ∈ l' → ∃ L0, Reachable L0 ∧ L0.form nv env g = .ok L := by
      intro l l' hf
      induction hf with
      | nil => intro _ h; cases h
      | cons hab _ ih =>
        intro hr hm
        rcases List.mem_cons.mp hm with rfl | hm
        · exact ⟨_, hr _ (by simp), hab⟩
        · exact ih (fun L hL => hr L (by simp [hL])) hm
    exact key hf hr hmem
  obtain ⟨k1, k2, k3, k4, k5, k6, k7, k8⟩ := form_facts h0
  have hpos : L.nConstraints > 0 := k8
  have htot : L.nConstraints = totalRows L.tasks := (form_consecutive hr0 h0).2
  have heq : L.isEquality = true ↔ ∀ ti ∈ L.tasks, rows ti.task.ctr ≠ 0 → ti.task.ctr.ctype.isEquality = true := by
    unfold Level.isEquality
    rw [decide_eq_true_iff, htot, k6]
    clear * -
    induction L.tasks with
    | nil => simp [totalRows]
    | cons t ts ih =>
      have hle : ∀ ts : List (TaskInfo E K), rowsIf CtrType.isEquality ts ≤ totalRows ts := by
        intro ts
        induction ts with
        | nil => simp [totalRows]
        | cons t ts ih =>
          rw [rowsIf_cons, numRows_eq]
          simp only [totalRows, List.map_cons, List.sum_cons] at ih ⊢
          split <;> omega
      have := hle ts
      rw [rowsIf_cons, numRows_eq]
      simp only [List.mem_cons, forall_eq_or_imp]
      rw [← ih]
      have e : totalRows (t :: ts) = rows t.task.ctr + totalRows ts := by simp [totalRows]
      rw [e]
      have e2 : t.ctype = t.task.ctr.ctype := rfl
      rw [e2]
      by_cases ht : t.task.ctr.ctype.isEquality = true
      · rw [if_pos ht]
        constructor
        · intro h; exact ⟨fun _ => ht, by omega⟩
        · intro h; omega
      · rw [if_neg ht]
        constructor
        · intro h; exact ⟨fun h0 => by omega, by omega⟩
        · rintro ⟨h3, h4⟩
          have : rows t.task.ctr = 0 := by
            by_contra hne; exact ht (h3 hne)
          omega
  by_cases h3 : L.isEquality = true
  · rw [assertThat_true h3, ok_bind, assertThat_true hpos]
    refine ⟨⟨fun _ => ⟨h1, by omega, fun L' hL' => ?_⟩, fun _ => rfl⟩, Or.inl rfl⟩
    cases hL'
    exact heq.mp h3
  · rw [assertThat_false h3]
    refine ⟨⟨fun h => (by cases h), fun h => absurd (heq.mpr (h.2.2 L rfl)) h3⟩, Or.inr rfl⟩

/-! ### The hypotheses are met -/

/-- A solver which always reports the limit of iterations and hands out the active set it was given. -/
def exampleBackend : Backend Unit (List ℕ) ℚ (List ℕ) where
  checkInputs _ := pure ()
  init _ _ := fun s => (.ok (), { s with mem := [] })
  setSolutionGuess _ := pure ()
  setActiveSet a _ := fun s => (.ok (), { s with mem := a })
  solveHierarchy sol _ := pure { sol with status := .maxIter }
  getActiveSet _ := fun s => (.ok s.mem, s)

example : Wellbehaved exampleBackend := ⟨fun _ _ => rfl, fun _ _ _ => rfl, fun _ _ => rfl, fun _ _ _ => rfl,
  fun _ _ _ => rfl, fun _ _ => rfl⟩

/-- The flag decides whether the call returns. -/
example : (exampleBackend.solve ⟨.empty, [], .undefined⟩ () (.activeSetInOut [7]) ⟨⟨true, true⟩, []⟩).1 = .error .thrown ∧
    (exampleBackend.solve ⟨.empty, [], .undefined⟩ () (.activeSetInOut [7]) ⟨⟨false, true⟩, []⟩).1 =
      .ok (⟨.empty, [], .maxIter⟩, some [7]) := ⟨rfl, rfl⟩

/-- The example hierarchy of C12 is accepted, with its levels swapped it is not. -/
example : (do let P ← exampleHierarchy.form 2 () false; qpCheckInputs .default P) = .ok () ∧
    (do let P ← (⟨exampleHierarchy.levels.reverse, []⟩ : Hierarchy Unit ℚ).form 2 () false
        qpCheckInputs .default P) = .error .thrown := ⟨rfl, rfl⟩

end Humoto
