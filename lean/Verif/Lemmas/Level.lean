import Verif.Lemmas.Blocks

/-!
# Helper lemmas about forming of levels
-/

namespace Humoto

open Spec

set_option linter.unusedSectionVars false

variable {E K : Type}

/-- Simple constraint classes follow general ones. -/
def Ordered (l : List CtrType) : Prop :=
  ∃ gs ss, l = gs ++ ss ∧ (∀ t ∈ gs, t.isSimple = false) ∧ (∀ t ∈ ss, t.isSimple = true)

/-- Class of the constraints of a task. -/
abbrev TaskInfo.ctype (ti : TaskInfo E K) : CtrType := ti.task.ctr.ctype

theorem assertThat_eq_ok {c : Prop} [Decidable c] {u : Unit} (h : assertThat c = .ok u) : c := by
  by_contra hc
  rw [assertThat_false hc] at h
  cases h

theorem formAll_facts {t t' : Task E K} {nv : ℕ} {env : E} {g : Bool} (h : t.formAll nv env g = .ok t') :
    t'.ctr.ctype = t.ctr.ctype ∧ t'.ctr.nvars = nv ∧ t'.ctr.checkConsistency = .ok () ∧
      (t'.guess.length = 0 ∨ t'.guess.length = t'.ctr.numRows) := by
  unfold Task.formAll at h
  obtain ⟨t1, h1, h⟩ := bind_eq_ok.mp h
  obtain ⟨t2, h2, h⟩ := bind_eq_ok.mp h
  obtain ⟨u, h3, h⟩ := bind_eq_ok.mp h
  cases h
  have c1 : t1.ctr.ctype = t.ctr.ctype ∧ t1.ctr.nvars = nv := by
    unfold Task.form at h1
    obtain ⟨d, _, h1⟩ := bind_eq_ok.mp h1
    cases h1
    exact ⟨rfl, rfl⟩
  have c2 : t'.ctr = t1.ctr := by
    cases g with
    | false => cases h2; rfl
    | true =>
      simp only [Task.guessIf, if_true] at h2
      unfold Task.guessActiveSet at h2
      split at h2
      · unfold Task.guessDefault at h2
        split at h2
        · split at h2 <;> (cases h2; rfl)
        · obtain ⟨_, _, h2⟩ := bind_eq_ok.mp h2
          cases h2; rfl
      · obtain ⟨_, _, h2⟩ := bind_eq_ok.mp h2
        cases h2; rfl
  unfold Task.postForm at h3
  obtain ⟨u', h4, h5⟩ := bind_eq_ok.mp h3
  rw [c2]
  rw [c2] at h4 h5
  exact ⟨c1.1, c1.2, h4, assertThat_eq_ok h5⟩

/-- Locations given by the loop of `form`. -/
def Located : ℕ → ℕ → List (TaskInfo E K) → Prop
  | _, _, [] => True
  | g, s, ti :: rest =>
    if ti.ctype.isSimple then
      ti.loc = ⟨s + g, ti.task.ctr.numRows⟩ ∧ Located g (s + ti.task.ctr.numRows) rest
    else ti.loc = ⟨g, ti.task.ctr.numRows⟩ ∧ Located (g + ti.task.ctr.numRows) s rest

/-- What is known about a task after forming. -/
structure FormedTask (nv : ℕ) (ti : TaskInfo E K) : Prop where
  nvars : ti.task.ctr.nvars = nv
  consistent : ti.task.ctr.checkConsistency = .ok ()
  guess : ti.task.guess.length = 0 ∨ ti.task.guess.length = ti.task.ctr.numRows

/-- Number of rows of the tasks in a class. -/
def rowsIf (p : CtrType → Bool) (ts : List (TaskInfo E K)) : ℕ :=
  (ts.map fun ti => if p ti.ctype then ti.task.ctr.numRows else 0).sum

@[simp] theorem rowsIf_nil (p : CtrType → Bool) : rowsIf p ([] : List (TaskInfo E K)) = 0 := rfl
@[simp] theorem rowsIf_cons (p : CtrType → Bool) (ti : TaskInfo E K) (ts : List (TaskInfo E K)) :
    rowsIf p (ti :: ts) = (if p ti.ctype then ti.task.ctr.numRows else 0) + rowsIf p ts := by
  simp [rowsIf]

theorem formLoop_facts {nv : ℕ} {env : E} {g : Bool} {ts : List (TaskInfo E K)} {L L' : Level E K}
    (h : Level.formLoop nv env g L ts = .ok L') :
    ∃ ts', L'.tasks = L.tasks ++ ts' ∧ ts'.map TaskInfo.ctype = ts.map TaskInfo.ctype ∧
      (∀ ti ∈ ts', FormedTask nv ti) ∧ Located L.nGeneral L.nSimple ts' ∧
      L'.nGeneral = L.nGeneral + rowsIf (fun t => !t.isSimple) ts' ∧
      L'.nSimple = L.nSimple + rowsIf CtrType.isSimple ts' ∧
      L'.nEquality = L.nEquality + rowsIf CtrType.isEquality ts' ∧
      L'.nTwoSided = L.nTwoSided + rowsIf CtrType.isTwoSided ts' := by
  induction ts generalizing L with
  | nil =>
    cases h
    exact ⟨[], by simp, rfl, by simp, trivial, by simp, by simp, by simp, by simp⟩
  | cons ti ts ih =>
    unfold Level.formLoop at h
    obtain ⟨t, ht, h⟩ := bind_eq_ok.mp h
    obtain ⟨f1, f2, f3, f4⟩ := formAll_facts ht
    simp only at h
    obtain ⟨ts', k1, k2, k3, k4, k5, k6, k7, k8⟩ := ih h
    clear h ih
    cases hs : t.ctr.ctype.isSimple
    · cases he : t.ctr.ctype.isEquality <;> cases h2 : t.ctr.ctype.isTwoSided <;>
        simp only [hs, he, h2, if_true, Bool.false_eq_true, if_false] at k1 k4 k5 k6 k7 k8
      all_goals
        refine ⟨⟨t, ⟨L.nGeneral, t.ctr.numRows⟩⟩ :: ts', by simp [k1], congrArg₂ List.cons f1 k2, ?_,
          by simp only [Located, TaskInfo.ctype, hs, Bool.false_eq_true, if_false]; exact ⟨True.intro, k4⟩,
          by simp [k5, TaskInfo.ctype, hs]; try omega, by simp [k6, TaskInfo.ctype, hs]; try omega,
          by simp [k7, TaskInfo.ctype, he]; try omega, by simp [k8, TaskInfo.ctype, h2]; try omega⟩
        intro ti' hti'
        rcases List.mem_cons.mp hti' with rfl | hti'
        · exact ⟨f2, f3, f4⟩
        · exact k3 ti' hti'
    · cases he : t.ctr.ctype.isEquality <;> cases h2 : t.ctr.ctype.isTwoSided <;>
        simp only [hs, he, h2, if_true, Bool.false_eq_true, if_false] at k1 k4 k5 k6 k7 k8
      all_goals
        refine ⟨⟨t, ⟨L.nSimple + L.nGeneral, t.ctr.numRows⟩⟩ :: ts', by simp [k1], congrArg₂ List.cons f1 k2, ?_,
          by simp only [Located, TaskInfo.ctype, hs, if_true]; exact ⟨True.intro, k4⟩,
          by simp [k5, TaskInfo.ctype, hs]; try omega, by simp [k6, TaskInfo.ctype, hs]; try omega,
          by simp [k7, TaskInfo.ctype, he]; try omega, by simp [k8, TaskInfo.ctype, h2]; try omega⟩
        intro ti' hti'
        rcases List.mem_cons.mp hti' with rfl | hti'
        · exact ⟨f2, f3, f4⟩
        · exact k3 ti' hti'

theorem form_facts {L L' : Level E K} {nv : ℕ} {env : E} {g : Bool} (h : L.form nv env g = .ok L') :
    L'.tasks.map TaskInfo.ctype = L.tasks.map TaskInfo.ctype ∧ (∀ ti ∈ L'.tasks, FormedTask nv ti) ∧
      Located 0 0 L'.tasks ∧ L'.nGeneral = rowsIf (fun t => !t.isSimple) L'.tasks ∧
      L'.nSimple = rowsIf CtrType.isSimple L'.tasks ∧ L'.nEquality = rowsIf CtrType.isEquality L'.tasks ∧
      L'.nTwoSided = rowsIf CtrType.isTwoSided L'.tasks ∧ 0 < L'.nConstraints := by
  unfold Level.form at h
  obtain ⟨_, _, h⟩ := bind_eq_ok.mp h
  obtain ⟨L1, h1, h⟩ := bind_eq_ok.mp h
  obtain ⟨_, h2, h⟩ := bind_eq_ok.mp h
  cases h
  obtain ⟨ts', k1, k2, k3, k4, k5, k6, k7, k8⟩ := formLoop_facts h1
  simp only [List.nil_append, Nat.zero_add] at *
  rw [k1]
  exact ⟨k2, k3, k4, k5, k6, k7, k8, assertThat_eq_ok h2⟩

theorem ordered_push {L : Level E K} (h : Ordered (L.tasks.map TaskInfo.ctype)) (t : Task E K) :
    Ordered ((L.pushTask t).tasks.map TaskInfo.ctype) := by
  obtain ⟨gs, ss, h1, h2, h3⟩ := h
  unfold Level.pushTask
  cases hs : t.ctr.ctype.isSimple
  · refine ⟨t.ctr.ctype :: gs, ss, by simp [h1], ?_, h3⟩
    intro u hu
    rcases List.mem_cons.mp hu with rfl | hu
    · exact hs
    · exact h2 u hu
  · refine ⟨gs, ss ++ [t.ctr.ctype], by simp [h1], h2, ?_⟩
    intro u hu
    rcases List.mem_append.mp hu with hu | hu
    · exact h3 u hu
    · rw [List.mem_singleton.mp hu]; exact hs

theorem reachable_ordered {L : Level E K} (h : Reachable L) : Ordered (L.tasks.map TaskInfo.ctype) := by
  induction h with
  | empty => exact ⟨[], [], rfl, by simp, by simp⟩
  | push t _ ih => exact ordered_push ih t
  | form _ hf ih => rw [(form_facts hf).1]; exact ih
  | change _ he ih => exact he ▸ ih

variable [Field K]

theorem consecutive_of_located {g s : ℕ} {ts : List (TaskInfo E K)} (h : Located g s ts)
    (ho : Ordered (ts.map TaskInfo.ctype)) (hs : s = 0 ∨ ∀ ti ∈ ts, ti.ctype.isSimple = true) :
    Consecutive (g + s) ts := by
  induction ts generalizing g s with
  | nil => trivial
  | cons ti ts ih =>
    have ho' : Ordered (ts.map TaskInfo.ctype) ∧
        (ti.ctype.isSimple = true → ∀ t ∈ ts, t.ctype.isSimple = true) := by
      obtain ⟨gs, ss, h1, h2, h3⟩ := ho
      cases gs with
      | nil =>
        simp only [List.map_cons, List.nil_append] at h1
        subst h1
        refine ⟨⟨[], _, rfl, by simp, fun t ht => h3 t (by simp [ht])⟩, fun _ t ht => h3 _ ?_⟩
        exact List.mem_cons_of_mem _ (List.mem_map_of_mem ht)
      | cons a gs =>
        simp only [List.map_cons, List.cons_append, List.cons.injEq] at h1
        refine ⟨⟨gs, ss, h1.2, fun t ht => h2 t (by simp [ht]), h3⟩, fun hsi => ?_⟩
        have := h2 a (by simp)
        rw [← h1.1, hsi] at this
        cases this
    unfold Located at h
    split at h
    · rename_i hsi
      refine ⟨?_, ?_⟩
      · rw [h.1, numRows_eq, Nat.add_comm]
      · have := ih h.2 ho'.1 (Or.inr (ho'.2 hsi))
        rwa [numRows_eq, ← Nat.add_assoc] at this
    · rename_i hsi
      have hs0 : s = 0 := by
        rcases hs with hs | hs
        · exact hs
        · exact absurd (hs ti (by simp)) hsi
      subst hs0
      refine ⟨?_, ?_⟩
      · rw [h.1, numRows_eq]; rfl
      · have := ih h.2 ho'.1 (Or.inl rfl)
        rw [numRows_eq] at this
        simpa using this

theorem rowsIf_eq (p : CtrType → Bool) (ts : List (TaskInfo E K)) :
    rowsIf p ts = totalRows (ts.filter fun ti => p ti.ctype) := by
  induction ts with
  | nil => rfl
  | cons ti ts ih =>
    rw [rowsIf_cons, List.filter_cons]
    split
    · rw [ih]; simp [totalRows, numRows_eq]
    · rw [ih]; simp

theorem rowsIf_not (p : CtrType → Bool) (ts : List (TaskInfo E K)) :
    rowsIf (fun t => ! p t) ts + rowsIf p ts = totalRows ts := by
  induction ts with
  | nil => rfl
  | cons ti ts ih =>
    simp only [rowsIf_cons]
    have : totalRows (ti :: ts) = ti.task.ctr.numRows + totalRows ts := by simp [totalRows, numRows_eq]
    rw [this, ← ih]
    cases p ti.ctype <;> simp <;> omega

/-- A level after forming: everything the assembling functions rely on. -/
structure FormedLevel (L : Level E K) (nv : ℕ) : Prop where
  ordered : Ordered (L.tasks.map TaskInfo.ctype)
  consecutive : Consecutive 0 L.tasks
  nvars : ∀ ti ∈ L.tasks, ti.task.ctr.nvars = nv
  wf : ∀ ti ∈ L.tasks, WellFormed ti.task.ctr
  nGeneral : L.nGeneral = totalRows (L.tasks.filter fun ti => ! ti.ctype.isSimple)
  nSimple : L.nSimple = totalRows (L.tasks.filter fun ti => ti.ctype.isSimple)
  nEquality : L.nEquality = totalRows (L.tasks.filter fun ti => ti.ctype.isEquality)
  nTwoSided : L.nTwoSided = totalRows (L.tasks.filter fun ti => ti.ctype.isTwoSided)
  nConstraints : L.nConstraints = totalRows L.tasks
  pos : 0 < L.nConstraints

theorem formedLevel_of_form {L L' : Level E K} (hr : Reachable L) {nv : ℕ} {env : E} {g : Bool}
    (h : L.form nv env g = .ok L') (hi : ∀ ti ∈ L'.tasks, InRange ti.task.ctr) : FormedLevel L' nv := by
  obtain ⟨k1, k2, k3, k4, k5, k6, k7, k8⟩ := form_facts h
  have ho : Ordered (L'.tasks.map TaskInfo.ctype) := by rw [k1]; exact reachable_ordered hr
  refine ⟨ho, by simpa using consecutive_of_located k3 ho (Or.inl rfl), fun ti hti => (k2 ti hti).nvars,
    fun ti hti => wellFormed_of_checkConsistency _ (k2 ti hti).consistent (hi ti hti), ?_, ?_, ?_, ?_, ?_, k8⟩
  · rw [k4, rowsIf_eq (fun t => ! t.isSimple)]
  · rw [k5, rowsIf_eq]
  · rw [k6, rowsIf_eq]
  · rw [k7, rowsIf_eq]
  · rw [Level.nConstraints, k4, k5, rowsIf_not]

end Humoto
