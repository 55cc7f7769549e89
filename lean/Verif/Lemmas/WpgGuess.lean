import Verif.Lemmas.WpgProblem2

/-!
# Walking pattern generator: guesses of the active set contain no undefined entries
-/

namespace Humoto

open Spec

/-- There are no undefined entries. -/
def Decided (s : ActiveSetC) : Prop := ∀ a ∈ s, a ≠ .undefined

theorem decided_initWith {n : ℕ} {a : Act} (h : a ≠ .undefined) : Decided (ActiveSetC.initWith n a) := fun b hb => by
  rw [List.eq_of_mem_replicate hb]
  exact h

theorem decided_copyInto {buf src s : ActiveSetC} {off : ℕ} (h : copyInto buf off src = .ok s) (hb : Decided buf) (hs : Decided src) :
    Decided s := by
  unfold copyInto at h
  split at h
  · cases h
    intro a ha
    rcases List.mem_append.1 ha with ha | ha
    · rcases List.mem_append.1 ha with ha | ha
      · exact hb a (List.mem_of_mem_take ha)
      · exact hs a ha
    · exact hb a (List.mem_of_mem_drop ha)
  · cases h

theorem decided_copyTo {buf src s : ActiveSetC} {l : Location} (h : ActiveSetC.copyTo buf l src = .ok s) (hb : Decided buf) (hs : Decided src) :
    Decided s := by
  unfold ActiveSetC.copyTo at h
  obtain ⟨_, _, h⟩ := bind_eq_ok.1 h
  exact decided_copyInto h hb hs

theorem decided_initFrom {a b s : ActiveSetC} {l : Location} (h : ActiveSetC.initFrom a b l = .ok s) (hb : Decided b) : Decided s := by
  by_cases hc : l.offset + l.length ≤ b.length
  · rw [C03_initFrom _ _ _ hc] at h
    cases h
    exact fun c hc => hb c (List.mem_of_mem_drop (List.mem_of_mem_take hc))
  · unfold ActiveSetC.initFrom at h
    obtain ⟨_, hx, -⟩ := bind_eq_ok.1 h
    exact absurd ((Location.checkLength_iff _ _).1 (assertThat_eq_ok hx)) hc

theorem decided_shift {a s : ActiveSetC} {n : ℕ} {x : Act} (h : a.shift n x = .ok s) (ha : Decided a) (hx : x ≠ .undefined) : Decided s := by
  unfold ActiveSetC.shift at h
  obtain ⟨_, _, h⟩ := bind_eq_ok.1 h
  refine decided_copyInto h (fun c hc => ?_) (decided_initWith hx)
  rcases List.mem_append.1 hc with hc | hc
  · exact ha c (List.mem_of_mem_drop hc)
  · exact ha c (List.mem_of_mem_take hc)

section
variable {E K : Type} [Field K]

theorem decided_default {t t' : Task E K} (h : t.guessDefault = .ok t') (ha : Decided t.actual) : Decided t'.guess := by
  unfold Task.guessDefault at h
  split at h
  · split at h
    · cases h; exact decided_initWith (by decide)
    · cases h; exact decided_initWith (by decide)
  · obtain ⟨_, _, h⟩ := bind_eq_ok.1 h
    cases h
    exact ha

/-- The guess of a level is collected from the guesses of its tasks. -/
theorem decided_level {L L' : Level E K} (hr : Reachable L) {nv : ℕ} {env : E} {g : Bool} (h : L.form nv env g = .ok L')
    (hd : ∀ ti ∈ L'.tasks, ti.task.guess.length = rows ti.task.ctr ∧ Decided ti.task.guess) {s0 : List Act}
    (h0 : s0.length = L'.nConstraints) : ∃ s, L'.guessActiveSet s0 = .ok s ∧ s.length = L'.nConstraints ∧ Decided s := by
  obtain ⟨s, k1, k2, k3⟩ := C14_level hr h h0
  obtain ⟨-, hc, hown, -⟩ := C07_layout hr h
  refine ⟨s, k1, k2, fun a ha => ?_⟩
  obtain ⟨r, hr', rfl⟩ := List.getElem_of_mem ha
  obtain ⟨j, ⟨ti, hj, hti⟩, -⟩ := hown r (by omega)
  have hmem := List.mem_of_getElem? hj
  obtain ⟨hl, hdec⟩ := hd ti hmem
  have hloc := (consecutive_loc hc ti hmem).1
  obtain ⟨o1, o2⟩ := hti
  have hi : r - ti.loc.offset < rows ti.task.ctr := by omega
  have e := k3 ti hmem (r - ti.loc.offset) hi
  rw [show ti.loc.offset + (r - ti.loc.offset) = r by omega, if_neg (by intro e; rw [e] at hl; simp at hl; omega),
    List.getElem?_eq_getElem hr'] at e
  exact hdec _ (List.mem_of_getElem? e.symm)

theorem decided_hierarchy {P P' : Hierarchy E K} {nv : ℕ} {env : E} {g : Bool} (h : P.form nv env g = .ok P')
    (hr : ∀ L ∈ P.levels, Reachable L)
    (hd : ∀ L ∈ P'.levels, ∀ ti ∈ L.tasks, ti.task.guess.length = rows ti.task.ctr ∧ Decided ti.task.guess) :
    ∃ s, P'.guessActiveSet = .ok s ∧ s.map List.length = P'.levels.map Level.nConstraints ∧ ∀ c ∈ s, Decided c := by
  have hcnt : P'.counts = P'.levels.map Level.nConstraints := by
    unfold Hierarchy.form at h
    obtain ⟨_, _, h⟩ := bind_eq_ok.mp h
    obtain ⟨Ls, h1, h⟩ := bind_eq_ok.mp h
    cases h
    rfl
  have key : ∀ (l l' : List (Level E K)), List.Forall₂ (fun L L' : Level E K => L.form nv env g = .ok L') l l' →
      (∀ L ∈ l, Reachable L) → (∀ L ∈ l', ∀ ti ∈ L.tasks, ti.task.guess.length = rows ti.task.ctr ∧ Decided ti.task.guess) →
      ∃ s, (((l'.map Level.nConstraints).map ActiveSetC.init).zip l').mapM
        (fun (p : ActiveSetC × Level E K) => p.2.guessActiveSet p.1) = .ok s ∧
        s.map List.length = l'.map Level.nConstraints ∧ ∀ c ∈ s, Decided c := by
    intro l l' hf
    induction hf with
    | nil => exact fun _ _ => ⟨[], rfl, rfl, fun c hc => by cases hc⟩
    | @cons a b l l' hab _ ih =>
      intro hr hd
      obtain ⟨s, k1, k2, k3⟩ := ih (fun L hL => hr L (by simp [hL])) (fun L hL => hd L (by simp [hL]))
      obtain ⟨s0, m1, m2, m3⟩ := decided_level (hr a (by simp)) hab (hd b (by simp)) (s0 := ActiveSetC.init b.nConstraints)
        (by simp [ActiveSetC.init])
      refine ⟨s0 :: s, ?_, by rw [List.map_cons, List.map_cons, k2, m2], fun c hc => ?_⟩
      · rw [List.map_cons, List.map_cons, List.zip_cons_cons, List.mapM_cons, m1, ok_bind, k1]
        rfl
      · rcases List.mem_cons.1 hc with rfl | hc
        · exact m3
        · exact k3 c hc
  obtain ⟨s, k1, k2⟩ := key _ _ (hierarchy_forms h) hr hd
  refine ⟨s, ?_, k2⟩
  unfold Hierarchy.guessActiveSet ActiveSetH.init
  rw [hcnt, require_true (by simp), ok_bind, List.take_of_length_le (by simp), pure_eq_ok, ok_bind]
  exact k1

end

namespace Wpg

open Spec.Wpg

variable {model : Model} {mpc : Mpc} {o : ProblemSetup} {Q : WalkTask → Task ProblemEnv ℝ → Prop}

theorem decided_footsteps {fix : Bool} {env : TaskEnv} {a g : ActiveSetC} (h : footstepBoundsGuess fix env a = .ok g) (ha : Decided a) :
    Decided g := by
  unfold footstepBoundsGuess at h
  simp only at h
  split at h
  · cases h; exact decided_initWith (by decide)
  split at h
  · cases h; exact decided_initWith (by decide)
  split at h
  · cases h; exact ha
  split at h
  · exact decided_initFrom h ha
  · exact decided_copyTo h (decided_initWith (by decide)) ha

theorem decided_cop {env : TaskEnv} {a g : ActiveSetC} (h : copBoundsGuess env a = .ok g) (ha : Decided a) : Decided g := by
  unfold copBoundsGuess at h
  simp only at h
  split at h
  · cases h; exact decided_initWith (by decide)
  · obtain ⟨_, _, h⟩ := bind_eq_ok.1 h
    exact decided_shift h ha (by decide)

/-- The guess of a task. -/
theorem decided_task (h : Ready model mpc) {z : ZeroVariables ℝ} {t t' : Task ProblemEnv ℝ} {k : WalkTask} (hk : TaskOf o z Q t k)
    {junk : ℕ → ℕ → ℕ → ℝ} {junkI : ℕ → ℕ → ℕ} (ha : Decided t.actual)
    (e : t.formAll (problemSize mpc) ⟨TaskEnv.of model mpc, z, junk, junkI⟩ true = .ok t') : Decided t'.guess := by
  obtain ⟨t1, et, hf⟩ := task_form h hk junk junkI
  unfold Task.formAll at e
  rw [et, ok_bind] at e
  obtain ⟨t2, e2, e⟩ := bind_eq_ok.1 e
  obtain ⟨_, _, e⟩ := bind_eq_ok.1 e
  cases e
  have e2 : t1.guessActiveSet _ = .ok t' := e2
  have hg := hf.guessFn.trans hk.guessFn
  rw [← hf.actual] at ha
  unfold Task.guessActiveSet at e2
  split at e2
  · exact decided_default e2 ha
  · next f hfn =>
    obtain ⟨g, eg, e2⟩ := bind_eq_ok.1 e2
    cases e2
    rw [hg] at hfn
    cases k <;> first | (cases hfn; done) | (cases hfn; first | exact decided_footsteps eg ha | exact decided_cop eg ha)

/-- The guess of the problem. -/
theorem walk_guess (h : Ready model mpc) {p p' : Problem} (hp : WalkProblem o Q p) {junk : ℕ → ℕ → ℕ → ℝ} {junkI : ℕ → ℕ → ℕ}
    (hQ : ∀ k t, Q k t → GuessFits o mpc.horizon true k t ∧ Decided t.actual) (e : p.form junk junkI true model mpc = .ok p') :
    ∃ a, p'.hierarchy.guessActiveSet = .ok a ∧ a.map List.length = p'.hierarchy.levels.map Level.nConstraints ∧ ∀ c ∈ a, Decided c := by
  obtain ⟨-, ef⟩ := walk_formed h hp e
  refine decided_hierarchy ef hp.reach fun L hL ti hti => ?_
  obtain ⟨i, hi, rfl⟩ := List.getElem_of_mem hL
  have hf := hierarchy_forms ef
  have hi' : i < p.hierarchy.levels.length := hf.length_eq ▸ hi
  have eL := hf.get hi' hi
  have hT := List.Forall₂.get hp.shape hi' (hp.shape.length_eq ▸ hi')
  rw [List.get_eq_getElem, List.get_eq_getElem] at eL
  rw [List.get_eq_getElem, List.get_eq_getElem] at hT
  have hall := form_forall2 eL
  obtain ⟨j, hj, rfl⟩ := List.getElem_of_mem hti
  have hj' : j < (p.hierarchy.levels[i]).tasks.length := hall.length_eq ▸ hj
  have ej := hall.get hj' hj
  have hTj := hT.get hj' (hT.length_eq ▸ hj')
  rw [List.get_eq_getElem, List.get_eq_getElem] at ej hTj
  obtain ⟨h1, h2⟩ := hQ _ _ hTj.kept
  obtain ⟨t', e', hl⟩ := task_formAll h hTj junk junkI h1
  cases e'.symm.trans ej
  exact ⟨hl rfl, decided_task h hTj h2 e'⟩

end Wpg

end Humoto
