import Verif.Spec.Diagnosis
import Verif.Props.Level

/-!
# C100: violations and active sets of a hierarchy
-/

namespace Humoto

open Spec

set_option linter.unusedSectionVars false

variable {E K : Type} [Field K] [LinearOrder K] [IsStrictOrderedRing K]

theorem fold_violations {nv n : ℕ} (x : Vec K) (hx : x.n = nv) :
    ∀ (ts : List (TaskInfo E K)) (o : ℕ) (v : ViolationsC K), Consecutive o ts → (∀ ti ∈ ts, ti.task.ctr.nvars = nv) →
      (∀ ti ∈ ts, WellFormed ti.task.ctr) → o + totalRows ts ≤ n → v.data.n = n → v.lower.n = n → v.upper.n = n →
      ∃ v', ts.foldlM (fun v ti => ti.task.ctr.computeViolations v ti.loc x) v = .ok v' ∧ v'.data.n = n ∧ v'.lower.n = n ∧
        v'.upper.n = n ∧
        (∀ ti ∈ ts, ∀ i, i < rows ti.task.ctr →
          v'.data.e (ti.loc.offset + i) = ViolationsC.measure (codeDiffs ti.task.ctr x.e i).1 (codeDiffs ti.task.ctr x.e i).2 ∧
          v'.lower.e (ti.loc.offset + i) = (codeDiffs ti.task.ctr x.e i).1 ∧
          v'.upper.e (ti.loc.offset + i) = (codeDiffs ti.task.ctr x.e i).2) ∧
        (∀ i, i < o ∨ o + totalRows ts ≤ i →
          v'.data.e i = v.data.e i ∧ v'.lower.e i = v.lower.e i ∧ v'.upper.e i = v.upper.e i) := by
  intro ts
  induction ts with
  | nil =>
    intro o v _ _ _ _ h1 h2 h3
    exact ⟨v, rfl, h1, h2, h3, by simp, fun _ _ => ⟨rfl, rfl, rfl⟩⟩
  | cons t ts ih =>
    intro o v hc hnv hwf ho h1 h2 h3
    rw [totalRows_cons] at ho
    have hloc := hc.1
    obtain ⟨v1, e1, a1, a2, a3, a4, a5⟩ := computeViolations_exact t.task.ctr (hwf t (by simp)) v t.loc x
      (by rw [hx, hnv t (by simp)]) (by rw [hloc]) (by rw [hloc]; simp only; omega) (by omega) (by omega)
    obtain ⟨v2, e2, b1, b2, b3, b4, b5⟩ := ih (o + rows t.task.ctr) v1 hc.2 (fun ti h => hnv ti (by simp [h]))
      (fun ti h => hwf ti (by simp [h])) (by omega) (by omega) (by omega) (by omega)
    refine ⟨v2, ?_, b1, b2, b3, ?_, ?_⟩
    · rw [List.foldlM_cons, e1, ok_bind, e2]
    · intro ti hti i hi
      rcases List.mem_cons.mp hti with rfl | hti
      · have hoff : ti.loc.offset = o := by rw [hloc]
        obtain ⟨c1, c2, c3⟩ := b5 (ti.loc.offset + i) (Or.inl (by omega))
        rw [c1, c2, c3]
        exact a4 i hi
      · exact b4 ti hti i hi
    · intro i hi
      rw [totalRows_cons] at hi
      obtain ⟨c1, c2, c3⟩ := b5 i (by omega)
      rw [c1, c2, c3]
      exact a5 i (by rw [hloc]; simp only; omega)

theorem fold_activation {nv n : ℕ} (x : Vec K) (hx : x.n = nv) :
    ∀ (ts : List (TaskInfo E K)) (o : ℕ) (s : ActiveSetC), Consecutive o ts → (∀ ti ∈ ts, ti.task.ctr.nvars = nv) →
      (∀ ti ∈ ts, WellFormed ti.task.ctr) → o + totalRows ts ≤ n → s.length = n →
      ∃ s', ts.foldlM (fun s ti => ti.task.ctr.determineActiveSet s ti.loc x) s = .ok s' ∧ s'.length = n ∧
        (∀ ti ∈ ts, ∀ i, i < rows ti.task.ctr → ∃ a, s'[ti.loc.offset + i]? = some a ∧ ActivationCorrect ti.task.ctr x.e i a) ∧
        (∀ i, i < o ∨ o + totalRows ts ≤ i → s'[i]? = s[i]?) := by
  intro ts
  induction ts with
  | nil =>
    intro o s _ _ _ _ h1
    exact ⟨s, rfl, h1, by simp, fun _ _ => rfl⟩
  | cons t ts ih =>
    intro o s hc hnv hwf ho h1
    rw [totalRows_cons] at ho
    have hloc := hc.1
    obtain ⟨s1, e1, a1, a2, a3⟩ := C05_determineActiveSet t.task.ctr (hwf t (by simp)) s t.loc x
      (by rw [hx, hnv t (by simp)]) (by rw [hloc]) (by rw [hloc]; simp only; omega)
    obtain ⟨s2, e2, b1, b2, b3⟩ := ih (o + rows t.task.ctr) s1 hc.2 (fun ti h => hnv ti (by simp [h]))
      (fun ti h => hwf ti (by simp [h])) (by omega) (by omega)
    refine ⟨s2, ?_, b1, ?_, ?_⟩
    · rw [List.foldlM_cons, e1, ok_bind, e2]
    · intro ti hti i hi
      rcases List.mem_cons.mp hti with rfl | hti
      · have hoff : ti.loc.offset = o := by rw [hloc]
        rw [b3 (ti.loc.offset + i) (Or.inl (by omega))]
        exact a2 i hi
      · exact b2 ti hti i hi
    · intro i hi
      rw [totalRows_cons] at hi
      rw [b3 i (by omega)]
      exact a3 i (by rw [hloc]; simp only; omega)

theorem mapM_levels {L' : Type} {f : Level E K → Res L'} : ∀ {Ls : List (Level E K)} {r : List L'}, Ls.mapM f = .ok r →
    r.length = Ls.length ∧ ∀ (l : ℕ) (b : L'), r[l]? = some b → ∃ a, Ls[l]? = some a ∧ f a = .ok b := by
  intro Ls
  induction Ls with
  | nil =>
    intro r h
    cases h
    exact ⟨rfl, by simp⟩
  | cons a Ls ih =>
    intro r h
    rw [List.mapM_cons] at h
    obtain ⟨b, h1, h⟩ := bind_eq_ok.mp h
    obtain ⟨bs, h2, h⟩ := bind_eq_ok.mp h
    cases h
    obtain ⟨k1, k2⟩ := ih h2
    refine ⟨by simp [k1], ?_⟩
    intro l b' hb
    cases l with
    | zero => simp only [List.getElem?_cons_zero, Option.some.injEq] at hb; subst hb; exact ⟨a, by simp, h1⟩
    | succ l => simp only [List.getElem?_cons_succ] at hb ⊢; exact k2 l b' hb

theorem formed_levels {P : Hierarchy E K} {nv : ℕ} (h : FormedHierarchy P nv) :
    P.counts = P.levels.map Level.nConstraints ∧
      ∀ L ∈ P.levels, FormedLevel L nv ∧ ∃ L0 env g, Reachable L0 ∧ L0.form nv env g = .ok L := by
  obtain ⟨P0, env, g, hr, hf, hi⟩ := h
  unfold Hierarchy.form at hf
  obtain ⟨-, -, hf⟩ := bind_eq_ok.mp hf
  obtain ⟨Ls, h1, hf⟩ := bind_eq_ok.mp hf
  cases hf
  refine ⟨rfl, fun L hL => ?_⟩
  obtain ⟨l, hl, e⟩ := List.getElem_of_mem hL
  obtain ⟨L0, k1, k2⟩ := (mapM_levels h1).2 l L (by rw [List.getElem?_eq_getElem hl, e])
  have hm : L0 ∈ P0.levels := List.mem_of_getElem? k1
  exact ⟨formedLevel_of_form (hr L0 hm) k2 (hi L hL), L0, env, g, hr L0 hm, k2⟩

/-- A loop over levels with a vector for each. -/
theorem mapM_zip_ok {A B : Type} (f : A × Level E K → Res B) (Q : ℕ → A → Level E K → B → Prop) :
    ∀ (as : List A) (Ls : List (Level E K)) (k : ℕ), as.length = Ls.length →
      (∀ (l : ℕ) a L, as[l]? = some a → Ls[l]? = some L → ∃ b, f (a, L) = .ok b ∧ Q (k + l) a L b) →
      ∃ r, (as.zip Ls).mapM f = .ok r ∧ r.length = Ls.length ∧
        ∀ (l : ℕ) L, Ls[l]? = some L → ∃ a b, as[l]? = some a ∧ r[l]? = some b ∧ Q (k + l) a L b := by
  intro as
  induction as with
  | nil =>
    intro Ls k h _
    cases Ls with
    | nil => exact ⟨[], rfl, rfl, by simp⟩
    | cons L Ls => simp at h
  | cons a as ih =>
    intro Ls k h hf
    cases Ls with
    | nil => simp at h
    | cons L Ls =>
      obtain ⟨b, e1, q1⟩ := hf 0 a L (by simp) (by simp)
      obtain ⟨r, e2, q2, q3⟩ := ih Ls (k + 1) (by simpa using h) (fun l a' L' h1 h2 => by
        have := hf (l + 1) a' L' (by simpa using h1) (by simpa using h2)
        rw [show k + 1 + l = k + (l + 1) by omega]
        exact this)
      refine ⟨b :: r, ?_, by simp [q2], ?_⟩
      · rw [List.zip_cons_cons, List.mapM_cons, e1, ok_bind, e2, ok_bind]
        rfl
      · intro l L' hl
        cases l with
        | zero =>
          simp only [List.getElem?_cons_zero, Option.some.injEq] at hl
          subst hl
          exact ⟨a, b, by simp, by simp, q1⟩
        | succ l =>
          simp only [List.getElem?_cons_succ] at hl
          obtain ⟨a', b', h1, h2, h3⟩ := q3 l L' hl
          refine ⟨a', b', by simpa using h1, by simpa using h2, ?_⟩
          rw [show k + 1 + l = k + (l + 1) by omega] at h3
          exact h3

/-- All numbers which are computed. -/
theorem violations_all {P : Hierarchy E K} {nv : ℕ} (h : FormedHierarchy P nv) (junk : ℕ → ViolationsJunk K) (x : Vec K) (hx : x.n = nv) :
    ∃ V, P.computeViolations junk x = .ok V ∧ V.length = P.levels.length ∧
      ∀ (l : ℕ) (L : Level E K), P.levels[l]? = some L → ∃ v, V[l]? = some v ∧ v.data.n = L.nConstraints ∧
        v.lower.n = L.nConstraints ∧ v.upper.n = L.nConstraints ∧
        ∀ ti ∈ L.tasks, ∀ i, i < rows ti.task.ctr →
          v.data.e (ti.loc.offset + i) = ViolationsC.measure (codeDiffs ti.task.ctr x.e i).1 (codeDiffs ti.task.ctr x.e i).2 ∧
          v.lower.e (ti.loc.offset + i) = (codeDiffs ti.task.ctr x.e i).1 ∧
          v.upper.e (ti.loc.offset + i) = (codeDiffs ti.task.ctr x.e i).2 := by
  obtain ⟨hc, hL⟩ := formed_levels h
  unfold Hierarchy.computeViolations ViolationsH.init
  rw [hc, require_true (by simp)]
  show ∃ V, (do
    let v ← (Except.ok (((P.levels.map Level.nConstraints).take P.levels.length).mapIdx fun i n => ViolationsC.raw n (junk i)) : Res _)
    (v.zip P.levels).mapM fun (v, L) => L.computeViolations v x) = Except.ok V ∧ _
  rw [ok_bind]
  obtain ⟨r, e1, e2, e3⟩ := mapM_zip_ok (fun p : ViolationsC K × Level E K => p.2.computeViolations p.1 x)
    (fun _ _ L v => v.data.n = L.nConstraints ∧ v.lower.n = L.nConstraints ∧ v.upper.n = L.nConstraints ∧
      ∀ ti ∈ L.tasks, ∀ i, i < rows ti.task.ctr →
        v.data.e (ti.loc.offset + i) = ViolationsC.measure (codeDiffs ti.task.ctr x.e i).1 (codeDiffs ti.task.ctr x.e i).2 ∧
        v.lower.e (ti.loc.offset + i) = (codeDiffs ti.task.ctr x.e i).1 ∧
        v.upper.e (ti.loc.offset + i) = (codeDiffs ti.task.ctr x.e i).2)
    (((P.levels.map Level.nConstraints).take P.levels.length).mapIdx fun i n => ViolationsC.raw n (junk i)) P.levels 0
    (by simp) (by
      intro l a L ha hl
      have hm : L ∈ P.levels := List.mem_of_getElem? hl
      obtain ⟨hf, -⟩ := hL L hm
      have ea : a = ViolationsC.raw L.nConstraints (junk l) := by
        rw [List.getElem?_mapIdx, List.take_of_length_le (by simp), List.getElem?_map, hl] at ha
        simpa using ha.symm
      subst ea
      obtain ⟨v', f1, f2, f3, f4, f5, -⟩ := fold_violations (n := L.nConstraints) x hx L.tasks 0
        (ViolationsC.raw L.nConstraints (junk l)) hf.consecutive hf.nvars hf.wf (by rw [hf.nConstraints]; omega) rfl rfl rfl
      exact ⟨v', f1, f2, f3, f4, f5⟩)
  refine ⟨r, e1, e2, fun l L hl => ?_⟩
  obtain ⟨a, v, -, h2, h3⟩ := e3 l L hl
  exact ⟨v, h2, h3⟩

theorem codeDiffs_eq (c : Ctr K) (x : ℕ → K) (i : ℕ) :
    codeDiffs c x i = (Difference (lhs c x i) (lower c i), Difference (lhs c x i) (upper c i)) := by
  unfold codeDiffs
  cases lower c i <;> cases upper c i <;> rfl

/-! ## C100 -/

/-- **C100.** After forming, violations at each point are computed: for each row of each task on each level the violation of this row and the
differences to its bounds are found at the place of the row, whatever was in memory before. -/
theorem C100_violations (P : Hierarchy E K) (nv : ℕ) (h : FormedHierarchy P nv) (junk : ℕ → ViolationsJunk K) (x : Vec K) (hx : x.n = nv) :
    ∃ V, P.computeViolations junk x = .ok V ∧ V.length = P.levels.length ∧
      (∀ (l : ℕ) (L : Level E K), P.levels[l]? = some L → ∃ v, V.level l = .ok v ∧ v.data.n = L.nConstraints) ∧
      ∀ l ti i r, RowOf P l ti i r → ∃ v d, V.level l = .ok v ∧ v.get r = .ok d ∧
        (¬ IsContradictoryRow ti.task.ctr i → ViolationCorrect ti.task.ctr x.e i d) ∧
        v.getLower r = .ok (Difference (lhs ti.task.ctr x.e i) (lower ti.task.ctr i)) ∧
        v.getUpper r = .ok (Difference (lhs ti.task.ctr x.e i) (upper ti.task.ctr i)) := by
  obtain ⟨V, h1, h2, h3⟩ := violations_all h junk x hx
  obtain ⟨-, hL⟩ := formed_levels h
  refine ⟨V, h1, h2, ?_, ?_⟩
  · intro l L hl
    obtain ⟨v, e, n, -⟩ := h3 l L hl
    exact ⟨v, by simp [ViolationsH.level, e], n⟩
  · rintro l ti i r ⟨⟨L, hl, ht⟩, hi, rfl⟩
    obtain ⟨v, e, n1, n2, n3, hv⟩ := h3 l L hl
    obtain ⟨a1, a2, a3⟩ := hv ti ht i hi
    obtain ⟨hf, -⟩ := hL L (List.mem_of_getElem? hl)
    have hb := consecutive_fits hf.consecutive ti ht
    rw [← hf.nConstraints] at hb
    have hr : ti.loc.offset + i < L.nConstraints := by omega
    refine ⟨v, v.data.e (ti.loc.offset + i), by simp [ViolationsH.level, e], ?_, ?_, ?_, ?_⟩
    · unfold ViolationsC.get
      rw [assertThat_true (by omega), ok_bind, Vec.get_ok (by omega)]
    · intro hc
      rw [a1]
      exact measure_correct _ _ _ hc
    · unfold ViolationsC.getLower
      rw [assertThat_true (by omega), ok_bind, Vec.get_ok (by omega), a2, codeDiffs_eq]
    · unfold ViolationsC.getUpper
      rw [assertThat_true (by omega), ok_bind, Vec.get_ok (by omega), a3, codeDiffs_eq]

/-- **C100.** Each entry of the violations of a level and of its active set belongs to exactly one row of exactly one task. -/
theorem C100_places (P : Hierarchy E K) (nv : ℕ) (h : FormedHierarchy P nv) (l : ℕ) (L : Level E K) (hl : P.levels[l]? = some L) (r : ℕ) :
    r < L.nConstraints ↔ ∃! p : ℕ × ℕ, ∃ ti, L.tasks[p.1]? = some ti ∧ RowOf P l ti p.2 r := by
  obtain ⟨hf, L0, env, g, hr, hform⟩ := (formed_levels h).2 L (List.mem_of_getElem? hl)
  constructor
  · intro hlt
    obtain ⟨k, ⟨ti, hk, ho⟩, hu⟩ := (C07_layout hr hform).2.2.1 r hlt
    have ht : ti ∈ L.tasks := List.mem_of_getElem? hk
    have hb := consecutive_fits hf.consecutive ti ht
    refine ⟨(k, r - ti.loc.offset), ⟨ti, hk, ⟨L, hl, ht⟩, ?_, ?_⟩, ?_⟩
    · have := ho.1; have := ho.2; simp only; omega
    · have := ho.1; simp only; omega
    · rintro ⟨k', i'⟩ ⟨ti', hk', ⟨L', hl', ht'⟩, hi', hr'⟩
      simp only at hk' hi' hr'
      rw [hl] at hl'
      cases hl'
      have hb' := consecutive_fits hf.consecutive ti' ht'
      have : k' = k := hu k' ⟨ti', hk', by unfold Owns; omega⟩
      subst this
      rw [hk] at hk'
      cases hk'
      simp only [Prod.mk.injEq, true_and]
      omega
  · rintro ⟨⟨k, i⟩, ⟨ti, hk, ⟨L', hl', ht'⟩, hi', hr'⟩, -⟩
    simp only at hk hi' hr'
    rw [hl] at hl'
    cases hl'
    have hb' := consecutive_fits hf.consecutive ti ht'
    rw [← hf.nConstraints] at hb'
    omega

/-- **C100.** All violations of a level are zero if and only if all tasks on this level are satisfied (bounds do not contradict each other). -/
theorem C100_satisfied (P : Hierarchy E K) (nv : ℕ) (h : FormedHierarchy P nv) (junk : ℕ → ViolationsJunk K) (x : Vec K) (hx : x.n = nv)
    (l : ℕ) (L : Level E K) (hl : P.levels[l]? = some L) (hc : ∀ ti ∈ L.tasks, ∀ i, i < rows ti.task.ctr → ¬ IsContradictoryRow ti.task.ctr i) :
    ∃ V v, P.computeViolations junk x = .ok V ∧ V.level l = .ok v ∧
      ((∀ r, r < L.nConstraints → v.get r = .ok 0) ↔ LevelSatisfied L x.e) := by
  obtain ⟨V, h1, h2, h3, h4⟩ := C100_violations P nv h junk x hx
  obtain ⟨v, e, n⟩ := h3 l L hl
  refine ⟨V, v, h1, e, ?_⟩
  constructor
  · intro hz ti ht i hi
    have hb := consecutive_fits ((formed_levels h).2 L (List.mem_of_getElem? hl)).1.consecutive ti ht
    rw [← ((formed_levels h).2 L (List.mem_of_getElem? hl)).1.nConstraints] at hb
    obtain ⟨v', d, e', g1, g2, -⟩ := h4 l ti i _ ⟨⟨L, hl, ht⟩, hi, rfl⟩
    rw [e] at e'
    cases e'
    rw [hz _ (by omega)] at g1
    cases g1
    exact (g2 (hc ti ht i hi)).zero.mp rfl
  · intro hs r hr
    obtain ⟨⟨k, i⟩, ⟨ti, hk, hrow⟩, -⟩ := (C100_places P nv h l L hl r).mp hr
    obtain ⟨v', d, e', g1, g2, -⟩ := h4 l ti i r hrow
    have ht : ti ∈ L.tasks := List.mem_of_getElem? hk
    rw [e] at e'
    cases e'
    rw [g1, (g2 (hc ti ht i hrow.2.1)).zero.mpr (hs ti ht i hrow.2.1)]

/-- **C100.** After forming, the active set at each point is determined: each row of each task on each level has a correct activation at its place. -/
theorem C100_active (P : Hierarchy E K) (nv : ℕ) (h : FormedHierarchy P nv) (x : Vec K) (hx : x.n = nv) :
    ∃ s, P.determineActiveSet x = .ok s ∧ SizesOf P s ∧
      ∀ l ti i r, RowOf P l ti i r → ∃ a, EntryAt s l r a ∧ ActivationCorrect ti.task.ctr x.e i a := by
  obtain ⟨hc, hL⟩ := formed_levels h
  have key : ∃ s, P.determineActiveSet x = .ok s ∧ s.length = P.levels.length ∧
      ∀ (l : ℕ) (L : Level E K), P.levels[l]? = some L → ∃ a, s[l]? = some a ∧ a.length = L.nConstraints ∧
        ∀ ti ∈ L.tasks, ∀ i, i < rows ti.task.ctr → ∃ t, a[ti.loc.offset + i]? = some t ∧ ActivationCorrect ti.task.ctr x.e i t := by
    unfold Hierarchy.determineActiveSet ActiveSetH.init
    rw [hc, require_true (by simp)]
    show ∃ s, (do
      let s ← (Except.ok (((P.levels.map Level.nConstraints).take P.levels.length).map ActiveSetC.init) : Res _)
      (s.zip P.levels).mapM fun (s, L) => L.determineActiveSet s x) = Except.ok s ∧ _
    rw [ok_bind]
    obtain ⟨r, e1, e2, e3⟩ := mapM_zip_ok (fun p : ActiveSetC × Level E K => p.2.determineActiveSet p.1 x)
      (fun _ _ L a => a.length = L.nConstraints ∧
        ∀ ti ∈ L.tasks, ∀ i, i < rows ti.task.ctr → ∃ t, a[ti.loc.offset + i]? = some t ∧ ActivationCorrect ti.task.ctr x.e i t)
      (((P.levels.map Level.nConstraints).take P.levels.length).map ActiveSetC.init) P.levels 0
      (by simp) (by
        intro l a L ha hl
        have hm : L ∈ P.levels := List.mem_of_getElem? hl
        obtain ⟨hf, -⟩ := hL L hm
        have ea : a = ActiveSetC.init L.nConstraints := by
          rw [List.getElem?_map, List.take_of_length_le (by simp), List.getElem?_map, hl] at ha
          simpa using ha.symm
        subst ea
        obtain ⟨s', f1, f2, f3, -⟩ := fold_activation (n := L.nConstraints) x hx L.tasks 0
          (ActiveSetC.init L.nConstraints) hf.consecutive hf.nvars hf.wf (by rw [hf.nConstraints]; omega) (by simp [ActiveSetC.init])
        exact ⟨s', f1, f2, f3⟩)
    refine ⟨r, e1, e2, fun l L hl => ?_⟩
    obtain ⟨a, v, -, h2, h3⟩ := e3 l L hl
    exact ⟨v, h2, h3⟩
  obtain ⟨s, k1, k2, k3⟩ := key
  refine ⟨s, k1, ⟨k2, ?_⟩, ?_⟩
  · intro l L a hl ha
    obtain ⟨a', e, n, -⟩ := k3 l L hl
    rw [ha] at e
    cases e
    exact n
  · rintro l ti i r ⟨⟨L, hl, ht⟩, hi, rfl⟩
    obtain ⟨a, e, n, hv⟩ := k3 l L hl
    obtain ⟨t, g1, g2⟩ := hv ti ht i hi
    exact ⟨t, ⟨a, e, g1⟩, g2⟩

/-- **C100.** Violations and the active set agree: a row which is not active is not violated, and the violation of a row which is at or beyond its
lower (upper) bound is the difference to this bound. -/
theorem C100_agree (P : Hierarchy E K) (nv : ℕ) (h : FormedHierarchy P nv) (junk : ℕ → ViolationsJunk K) (x : Vec K) (hx : x.n = nv) :
    ∃ V s, P.computeViolations junk x = .ok V ∧ P.determineActiveSet x = .ok s ∧
      ∀ l ti i r, RowOf P l ti i r → ∃ v d a, V.level l = .ok v ∧ v.get r = .ok d ∧ EntryAt s l r a ∧
        (a = .inactive → d = 0) ∧ (a = .lowerBound → d ≤ 0 ∧ v.getLower r = .ok d) ∧ (a = .upperBound → 0 ≤ d ∧ v.getUpper r = .ok d) := by
  obtain ⟨V, h1, -, -, h4⟩ := C100_violations P nv h junk x hx
  obtain ⟨s, k1, -, k2⟩ := C100_active P nv h x hx
  refine ⟨V, s, h1, k1, fun l ti i r hrow => ?_⟩
  obtain ⟨v, d, e, g1, g2, g3, g4⟩ := h4 l ti i r hrow
  obtain ⟨a, e2, ha⟩ := k2 l ti i r hrow
  refine ⟨v, d, a, e, g1, e2, ?_, ?_, ?_⟩
  · rintro rfl
    obtain ⟨-, b1, b2⟩ := ha.inactive.mp rfl
    have hn : ¬ IsContradictoryRow ti.task.ctr i := fun hc => by cases ha.undefined.mpr hc
    exact (g2 hn).zero.mpr ⟨fun l hl => (b1 l hl).le, fun u hu => (b2 u hu).le⟩
  · rintro rfl
    obtain ⟨-, hn, b, hb, hle⟩ := ha.lowerBound.mp rfl
    rw [g3, hb]
    simp only [Difference]
    rcases lt_or_eq_of_le hle with hlt | heq
    · obtain ⟨c1, c2⟩ := (g2 hn).below b hb hlt
      exact ⟨c2.le, by rw [c1]⟩
    · have : d = 0 := (g2 hn).zero.mpr ⟨fun l hl => by rw [hb] at hl; cases hl; exact heq.ge, fun u hu => by
        by_contra hc
        exact hn ⟨b, u, hb, hu, by rw [← heq]; exact not_le.mp hc⟩⟩
      rw [this, heq, sub_self]
      exact ⟨le_refl _, rfl⟩
  · rintro rfl
    obtain ⟨-, hn, b, hb, hle⟩ := ha.upperBound.mp rfl
    rw [g4, hb]
    simp only [Difference]
    rcases lt_or_eq_of_le hle with hlt | heq
    · obtain ⟨c1, c2⟩ := (g2 hn).above b hb hlt
      exact ⟨c2.le, by rw [c1]⟩
    · have : d = 0 := (g2 hn).zero.mpr ⟨fun l hl => by
        by_contra hc
        exact hn ⟨l, b, hl, hb, by rw [heq]; exact not_le.mp hc⟩, fun u hu => by rw [hb] at hu; cases hu; exact heq.ge⟩
      rw [this, ← heq, sub_self]
      exact ⟨le_refl _, rfl⟩

/-! ## C100: comparison with the active set of a solver -/

theorem activation_unique {c : Ctr K} {x : ℕ → K} {i : ℕ} {a b : Act} (ha : ActivationCorrect c x i a) (hb : ActivationCorrect c x i b) : a = b := by
  cases a with
  | equality => exact (hb.equality.mpr (ha.equality.mp rfl)).symm
  | undefined => exact (hb.undefined.mpr (ha.undefined.mp rfl)).symm
  | lowerBound => exact (hb.lowerBound.mpr (ha.lowerBound.mp rfl)).symm
  | upperBound => exact (hb.upperBound.mpr (ha.upperBound.mp rfl)).symm
  | inactive => exact (hb.inactive.mpr (ha.inactive.mp rfl)).symm

theorem mismatch_iff {c : Ctr K} {x : ℕ → K} {i : ℕ} {d a : Act} (hd : ActivationCorrect c x i d) :
    countsAsMismatch d a (Difference (lhs c x i) (lower c i)) (Difference (lhs c x i) (upper c i)) = false ↔ Tolerated c x i a := by
  unfold countsAsMismatch Tolerated
  by_cases e : d = a
  · subst e
    simp [hd]
  · have hna : ¬ ActivationCorrect c x i a := fun ha => e (activation_unique hd ha)
    rw [if_pos e]
    simp only [hna, false_or]
    have heq : d = .equality ↔ IsEqualityRow c i := hd.equality
    cases a with
    | lowerBound =>
      by_cases hq : d = .equality
      · simp [hq, heq.mp hq]
      · have : ¬ IsEqualityRow c i := fun h => hq (heq.mpr h)
        simp only [hq, this, reduceCtorEq, false_and, or_false, true_and, false_or, not_false_iff, if_true]
        split_ifs with h1 h2
        · exact ⟨fun _ => Or.inl h1, fun _ => rfl⟩
        · exact ⟨fun _ => Or.inr h2, fun _ => rfl⟩
        · exact ⟨fun h => by simp at h, fun h => by tauto⟩
    | upperBound => simp
    | equality => simp
    | inactive => simp
    | undefined => simp

/-- **C100.** The tests count no mismatches if and only if each entry of the active set of the solver is tolerated. -/
theorem C100_mismatch (P : Hierarchy E K) (nv : ℕ) (h : FormedHierarchy P nv) (junk : ℕ → ViolationsJunk K) (x : Vec K) (hx : x.n = nv)
    (actual : ActiveSetH) (hs : SizesOf P actual) :
    ∃ V s n, P.computeViolations junk x = .ok V ∧ P.determineActiveSet x = .ok s ∧ countMismatches s actual V = .ok n ∧
      (n = 0 ↔ ∀ l ti i r, RowOf P l ti i r → ∃ a, EntryAt actual l r a ∧ Tolerated ti.task.ctr x.e i a) := by
  obtain ⟨V, h1, -, h3, h4⟩ := C100_violations P nv h junk x hx
  obtain ⟨s, k1, k3, k2⟩ := C100_active P nv h x hx
  -- all rows of a level up to the given row
  have inner : ∀ l, l < actual.length → ∀ n, ∃ n', forRange (actual.getD l []).length n (fun n k => do
        let ak ← ActiveSetC.get (actual.getD l []) k
        let d ← (match s[l]? with | some d => .ok d | none => .error .thrown)
        let dk ← ActiveSetC.get d k
        let vl ← V.level l
        let lo ← vl.getLower k
        let up ← vl.getUpper k
        pure (if countsAsMismatch dk ak lo up = true then n + 1 else n)) = .ok n' ∧ n ≤ n' ∧
      (n' = n ↔ ∀ ti i r, RowOf P l ti i r → ∃ a, EntryAt actual l r a ∧ Tolerated ti.task.ctr x.e i a) := by
    intro l hl n
    have hl' : l < P.levels.length := by rw [← hs.1]; exact hl
    have hL : P.levels[l]? = some P.levels[l] := List.getElem?_eq_getElem hl'
    have ha : actual[l]? = some actual[l] := List.getElem?_eq_getElem hl
    have hlen : (actual.getD l []).length = P.levels[l].nConstraints := by
      rw [List.getD_eq_getElem?_getD, ha]
      exact hs.2 l _ _ hL ha
    have hget : ∀ k a, EntryAt actual l k a → ActiveSetC.get (actual.getD l []) k = .ok a := by
      rintro k a ⟨t, ht, hk⟩
      rw [List.getD_eq_getElem?_getD, ht]
      simp [ActiveSetC.get, hk]
    have hent : ∀ k a b, EntryAt actual l k a → EntryAt actual l k b → a = b := by
      rintro k a b ⟨t, ht, hk⟩ ⟨t', ht', hk'⟩
      rw [ht] at ht'
      cases ht'
      rw [hk] at hk'
      cases hk'
      rfl
    have hsl : s[l]? = some (s[l]'(by rw [k3.1]; exact hl')) := List.getElem?_eq_getElem _
    refine forRange_post (P := fun k m => n ≤ m ∧ (m = n ↔ ∀ r, r < k → ∀ ti i, RowOf P l ti i r →
        ∃ a, EntryAt actual l r a ∧ Tolerated ti.task.ctr x.e i a)) ?_ ?_ ?_
    · exact ⟨le_refl _, by simp⟩
    · rintro k m hk ⟨m1, m2⟩
      rw [hlen] at hk
      obtain ⟨⟨q, i⟩, ⟨ti, hq, hrow⟩, huniq⟩ := (C100_places P nv h l _ hL k).mp hk
      obtain ⟨v, d, e, -, -, g3, g4⟩ := h4 l ti i k hrow
      obtain ⟨da, e2, hda⟩ := k2 l ti i k hrow
      have ea : ∃ a, EntryAt actual l k a := by
        have hlt : k < actual[l].length := by rw [hs.2 l _ _ hL ha]; exact hk
        exact ⟨actual[l][k], actual[l], ha, List.getElem?_eq_getElem hlt⟩
      obtain ⟨a, ea⟩ := ea
      have ed : ActiveSetC.get (s[l]'(by rw [k3.1]; exact hl')) k = .ok da := by
        obtain ⟨t, ht, hk'⟩ := e2
        rw [hsl] at ht
        cases ht
        simp [ActiveSetC.get, hk']
      have hkey := mismatch_iff (a := a) hda
      have hall : (∀ ti' i', RowOf P l ti' i' k → ∃ a, EntryAt actual l k a ∧ Tolerated ti'.task.ctr x.e i' a) ↔
          Tolerated ti.task.ctr x.e i a := by
        constructor
        · intro H
          obtain ⟨a', e', t⟩ := H ti i hrow
          rw [hent _ _ _ ea e']
          exact t
        · intro t ti' i' hrow'
          obtain ⟨⟨L', hl2, ht'⟩, hi', hr'⟩ := hrow'
          rw [hL] at hl2
          cases hl2
          obtain ⟨q', hq', eq'⟩ := List.getElem_of_mem ht'
          have := huniq (q', i') ⟨ti', by rw [List.getElem?_eq_getElem hq', eq'], ⟨⟨_, hL, ht'⟩, hi', hr'⟩⟩
          simp only [Prod.mk.injEq] at this
          obtain ⟨rfl, rfl⟩ := this
          rw [List.getElem?_eq_getElem hq', eq'] at hq
          cases hq
          exact ⟨a, ea, t⟩
      refine ⟨if countsAsMismatch da a (Difference (lhs ti.task.ctr x.e i) (lower ti.task.ctr i))
          (Difference (lhs ti.task.ctr x.e i) (upper ti.task.ctr i)) = true then m + 1 else m, ?_, ?_, ?_⟩
      · rw [hget _ _ ea, ok_bind, hsl]
        simp only
        rw [ok_bind, ed, ok_bind, e, ok_bind, g3, ok_bind, g4, ok_bind]
        rfl
      · split_ifs <;> omega
      · have split_k : (∀ r, r < k + 1 → ∀ ti i, RowOf P l ti i r →
            ∃ a, EntryAt actual l r a ∧ Tolerated ti.task.ctr x.e i a) ↔
            (∀ r, r < k → ∀ ti i, RowOf P l ti i r → ∃ a, EntryAt actual l r a ∧ Tolerated ti.task.ctr x.e i a) ∧
            Tolerated ti.task.ctr x.e i a := by
          rw [← hall]
          constructor
          · intro H
            exact ⟨fun r hr => H r (by omega), H k (by omega)⟩
          · rintro ⟨H1, H2⟩ r hr
            rcases Nat.lt_succ_iff_lt_or_eq.mp hr with hr | rfl
            · exact H1 r hr
            · exact H2
        rw [split_k, ← m2, ← hkey]
        cases hm : countsAsMismatch da a (Difference (lhs ti.task.ctr x.e i) (lower ti.task.ctr i))
          (Difference (lhs ti.task.ctr x.e i) (upper ti.task.ctr i)) with
        | true => simp; omega
        | false => simp
    · rintro m ⟨m1, m2⟩
      refine ⟨m1, m2.trans ⟨fun H ti i r hrow => ?_, fun H r _ ti i hrow => H ti i r hrow⟩⟩
      refine H r ?_ ti i hrow
      rw [hlen]
      obtain ⟨⟨L', hl2, ht'⟩, hi', rfl⟩ := hrow
      rw [hL] at hl2
      cases hl2
      have hf := ((formed_levels h).2 _ (List.mem_of_getElem? hL)).1
      have hb := consecutive_fits hf.consecutive ti ht'
      rw [← hf.nConstraints] at hb
      omega
  have outer : ∃ n, countMismatches s actual V = .ok n ∧
      (n = 0 ↔ ∀ l, l < actual.length → ∀ ti i r, RowOf P l ti i r → ∃ a, EntryAt actual l r a ∧ Tolerated ti.task.ctr x.e i a) := by
    unfold countMismatches
    refine forRange_post (P := fun k n => (n = 0 ↔ ∀ l, l < k → ∀ ti i r, RowOf P l ti i r →
      ∃ a, EntryAt actual l r a ∧ Tolerated ti.task.ctr x.e i a)) (by simp) ?_ (fun n hn => hn)
    intro l n hl hn
    obtain ⟨n', e, hle, hiff⟩ := inner l hl n
    refine ⟨n', e, ?_⟩
    constructor
    · intro h0
      have hn0 : n = 0 := by omega
      intro l' hl'
      rcases Nat.lt_succ_iff_lt_or_eq.mp hl' with hl' | rfl
      · exact hn.mp hn0 l' hl'
      · exact hiff.mp (by omega)
    · intro H
      have hn0 : n = 0 := hn.mpr fun l' hl' => H l' (by omega)
      have := hiff.mpr (H l (by omega))
      omega
  obtain ⟨n, e, hn⟩ := outer
  refine ⟨V, s, n, h1, k1, e, hn.trans ⟨fun H l ti i r hrow => ?_, fun H l _ => H l⟩⟩
  refine H l ?_ ti i r hrow
  obtain ⟨⟨L', hl2, ht'⟩, -⟩ := hrow
  rw [hs.1]
  exact (List.getElem?_eq_some_iff.mp hl2).1

/-- **C100.** No mismatches are counted if the solver is exact and there are no active bounds which are not in its active set. -/
theorem C100_exact (P : Hierarchy E K) (nv : ℕ) (h : FormedHierarchy P nv) (junk : ℕ → ViolationsJunk K) (x : Vec K) (hx : x.n = nv)
    (actual : ActiveSetH) (hs : SizesOf P actual)
    (he : ∀ l ti i r, RowOf P l ti i r → ∃ a, EntryAt actual l r a ∧ ExactEntry ti.task.ctr x.e i a)
    (hc : ∀ L ∈ P.levels, ∀ ti ∈ L.tasks, ∀ i, i < rows ti.task.ctr → ¬ IsContradictoryRow ti.task.ctr i) :
    ∃ V s, P.computeViolations junk x = .ok V ∧ P.determineActiveSet x = .ok s ∧ countMismatches s actual V = .ok 0 := by
  obtain ⟨V, s, n, h1, h2, h3, h4⟩ := C100_mismatch P nv h junk x hx actual hs
  have : n = 0 := h4.mpr fun l ti i r hrow => by
    obtain ⟨a, ea, hx'⟩ := he l ti i r hrow
    refine ⟨a, ea, ?_⟩
    have h10 : (0 : K) < 1 / 10 ^ 10 := by positivity
    obtain ⟨⟨L, hl, ht⟩, hi, -⟩ := hrow
    have hn := hc L (List.mem_of_getElem? hl) ti ht i hi
    cases a with
    | lowerBound => exact Or.inr (Or.inl ⟨rfl, Or.inr (Or.inl (by rw [show lower ti.task.ctr i = _ from hx']; simpa [Difference] using h10))⟩)
    | upperBound => exact Or.inr (Or.inr ⟨rfl, by rw [show upper ti.task.ctr i = _ from hx']; simpa [Difference] using h10⟩)
    | inactive =>
      obtain ⟨b1, b2, b3⟩ := hx'
      refine Or.inl ⟨by simpa using b1, by simpa using hn, ?_, ?_, by simpa using ⟨b1, b2, b3⟩⟩
      · simp only [reduceCtorEq, false_iff, not_and, not_exists]
        intro _ _ l hl hle
        exact absurd (b2 l hl) (not_lt.mpr hle)
      · simp only [reduceCtorEq, false_iff, not_and, not_exists]
        intro _ _ u hu hle
        exact absurd (b3 u hu) (not_lt.mpr hle)
    | equality =>
      have hq : IsEqualityRow ti.task.ctr i := hx'
      refine Or.inl ⟨by simpa using hq, by simpa using hn, ?_, ?_, ?_⟩ <;> simp [hq]
    | undefined => exact absurd hx' (by simp [ExactEntry])
  exact ⟨V, s, h1, h2, by rw [h3, this]⟩

/-! ## C100: the hypotheses are met, and what does not hold -/

/-- A bound `-1 ≤ x₁` above three tasks. -/
def exampleDiagnosis : Hierarchy Unit ℚ := ⟨[Level.empty.pushTask (exampleTask exampleIL), exampleLevel], [0, 0]⟩

def exampleDiagnosisFormed : Hierarchy Unit ℚ :=
  ⟨[⟨[⟨{ exampleTask exampleIL with guess := [.inactive] }, ⟨0, 1⟩⟩], 0, 1, 0, 0⟩, exampleFormed], [1, 4]⟩

theorem exampleDiagnosis_formed : FormedHierarchy exampleDiagnosisFormed 2 := by
  refine ⟨exampleDiagnosis, (), true, ?_, rfl, ?_⟩
  · intro L hL
    simp only [exampleDiagnosis, List.mem_cons, List.not_mem_nil, or_false] at hL
    rcases hL with rfl | rfl
    · exact .push _ .empty
    · exact exampleLevel_reachable
  · intro L hL
    simp only [exampleDiagnosisFormed, List.mem_cons, List.not_mem_nil, or_false] at hL
    rcases hL with rfl | rfl
    · intro ti hti
      simp only [List.mem_singleton] at hti
      subst hti
      exact exampleFormed_inRange ⟨{ exampleTask exampleIL with guess := [.inactive] }, ⟨3, 1⟩⟩ (by simp [exampleFormed])
    · exact exampleFormed_inRange

/-- The point `(1, -2)`: the bound is violated by `1`, then `x₀ + 2 x₁ - 3 = -6`, `x₀ + x₁ = -1` is below `0`, `x₀ - x₁ = 3` is the equality. -/
def exampleDiagnosisPoint : Vec ℚ := Vec.ofList [1, -2]

example : ∃ V v0 v1 s, exampleDiagnosisFormed.computeViolations (fun _ => (fun _ => 7, fun _ => 7, fun _ => 7)) exampleDiagnosisPoint = .ok V ∧
    V.level 0 = .ok v0 ∧ V.level 1 = .ok v1 ∧ v0.get 0 = .ok (-1) ∧ v1.get 0 = .ok (-6) ∧ v1.get 1 = .ok (-1) ∧ v1.get 2 = .ok 0 ∧
    v1.get 3 = .ok (-1) ∧ v1.getUpper 3 = .ok 0 ∧ v1.get 4 = .error .thrown ∧
    exampleDiagnosisFormed.determineActiveSet exampleDiagnosisPoint = .ok s ∧
    s = [[.lowerBound], [.equality, .lowerBound, .equality, .lowerBound]] := by
  with_unfolding_all exact ⟨_, _, _, _, rfl, rfl, rfl, rfl, rfl, rfl, rfl, rfl, rfl, rfl, rfl, rfl⟩

/-- The entry of the violated bound may be the lower bound or nothing else, the equality may be the lower bound, the other two are mismatches. -/
example : ∃ V s, exampleDiagnosisFormed.computeViolations (fun _ => (fun _ => 7, fun _ => 7, fun _ => 7)) exampleDiagnosisPoint = .ok V ∧
    exampleDiagnosisFormed.determineActiveSet exampleDiagnosisPoint = .ok s ∧
    countMismatches s [[.lowerBound], [.equality, .upperBound, .lowerBound, .inactive]] V = .ok 2 := by
  with_unfolding_all exact ⟨_, _, rfl, rfl, rfl⟩

theorem exampleDiagnosis_sizes (a : Act) (b : ActiveSetC) (hb : b.length = 4) : SizesOf exampleDiagnosisFormed [[a], b] := by
  refine ⟨rfl, ?_⟩
  intro l L t hl ht
  match l with
  | 0 =>
    cases hl
    cases ht
    rfl
  | 1 =>
    cases hl
    cases ht
    exact hb
  | l + 2 => cases hl

example : SizesOf exampleDiagnosisFormed [[.lowerBound], [.equality, .upperBound, .lowerBound, .inactive]] :=
  exampleDiagnosis_sizes _ _ rfl

/-- The bound alone and the equality. -/
def exampleDegenerate : Hierarchy Unit ℚ :=
  ⟨[⟨[⟨{ exampleTask exampleIL with guess := [.inactive] }, ⟨0, 1⟩⟩], 0, 1, 0, 0⟩,
    ⟨[⟨{ exampleTask exampleAB with guess := [.equality] }, ⟨0, 1⟩⟩], 1, 0, 1, 0⟩], [1, 1]⟩

theorem exampleDegenerate_formed : FormedHierarchy exampleDegenerate 2 := by
  refine ⟨⟨[Level.empty.pushTask (exampleTask exampleIL), Level.empty.pushTask (exampleTask exampleAB)], [0, 0]⟩, (), true, ?_, rfl, ?_⟩
  · intro L hL
    simp only [List.mem_cons, List.not_mem_nil, or_false] at hL
    rcases hL with rfl | rfl <;> exact .push _ .empty
  · intro L hL
    simp only [exampleDegenerate, List.mem_cons, List.not_mem_nil, or_false] at hL
    rcases hL with rfl | rfl <;> intro ti hti <;> simp only [List.mem_singleton] at hti <;> subst hti
    · exact exampleFormed_inRange ⟨{ exampleTask exampleIL with guess := [.inactive] }, ⟨3, 1⟩⟩ (by simp [exampleFormed])
    · exact exampleFormed_inRange ⟨{ exampleTask exampleAB with guess := [.equality] }, ⟨0, 1⟩⟩ (by simp [exampleFormed])

/-- Rows of the two tasks. -/
theorem exampleDegenerate_rows {l : ℕ} {ti : TaskInfo Unit ℚ} {i r : ℕ} (h : RowOf exampleDegenerate l ti i r) :
    i = 0 ∧ r = 0 ∧ (l = 0 ∧ ti.task.ctr = exampleIL ∨ l = 1 ∧ ti.task.ctr = exampleAB) := by
  obtain ⟨⟨L, hl, ht⟩, hi, hr⟩ := h
  match l with
  | 0 =>
    cases hl
    simp only [List.mem_singleton] at ht
    subst ht
    have : i < 1 := hi
    exact ⟨by omega, by rw [hr]; show 0 + i = 0; omega, Or.inl ⟨rfl, rfl⟩⟩
  | 1 =>
    cases hl
    simp only [List.mem_singleton] at ht
    subst ht
    have : i < 1 := hi
    exact ⟨by omega, by rw [hr]; show 0 + i = 0; omega, Or.inr ⟨rfl, rfl⟩⟩
  | l + 2 => cases hl

/-- The hypotheses of `C100_exact` are met: at `(3, 0)` the bound is not active. -/
example : ∃ V s, exampleDegenerate.computeViolations (fun _ => (fun _ => 7, fun _ => 7, fun _ => 7)) (Vec.ofList [3, 0]) = .ok V ∧
    exampleDegenerate.determineActiveSet (Vec.ofList [3, 0]) = .ok s ∧ countMismatches s [[.inactive], [.equality]] V = .ok 0 := by
  refine C100_exact exampleDegenerate 2 exampleDegenerate_formed _ _ rfl _ ⟨rfl, ?_⟩ ?_ ?_
  · intro l L t hl ht
    match l with
    | 0 => cases hl; cases ht; rfl
    | 1 => cases hl; cases ht; rfl
    | l + 2 => cases hl
  · intro l ti i r h
    obtain ⟨rfl, rfl, ⟨rfl, e⟩ | ⟨rfl, e⟩⟩ := exampleDegenerate_rows h
    · refine ⟨.inactive, ⟨_, rfl, rfl⟩, ?_⟩
      rw [e]
      have hl : lower exampleIL 0 = some (-1) := rfl
      have hu : upper exampleIL 0 = none := rfl
      have hv : lhs exampleIL (Vec.ofList [(3 : ℚ), 0]).e 0 = 0 := by with_unfolding_all rfl
      refine ⟨?_, ?_, ?_⟩
      · rintro ⟨b, h1, h2⟩
        rw [hu] at h2
        cases h2
      · intro l h1
        rw [hl] at h1
        cases h1
        rw [hv]
        norm_num
      · intro u h1
        rw [hu] at h1
        cases h1
    · refine ⟨.equality, ⟨_, rfl, rfl⟩, ?_⟩
      rw [e]
      exact ⟨3, rfl, rfl⟩
  · intro L hL ti ht i hi
    obtain ⟨l, hl, el⟩ := List.getElem_of_mem hL
    obtain ⟨rfl, -, ⟨-, e⟩ | ⟨-, e⟩⟩ := exampleDegenerate_rows (l := l) (ti := ti) (i := i) (r := ti.loc.offset + i)
      ⟨⟨L, by rw [List.getElem?_eq_getElem hl, el], ht⟩, hi, rfl⟩
    · rw [e]
      rintro ⟨l, u, h1, h2, h3⟩
      cases h2
    · rw [e]
      rintro ⟨l, u, h1, h2, h3⟩
      cases h1
      cases h2
      exact lt_irrefl _ h3

/-- **C100, refuted.** A solution with which all tasks are satisfied and an active set which is right for it are counted as a mismatch: at
`(5, -1)` the bound of the first level is attained, the solver is right not to have it in the active set (its multiplier is zero), and the tests
count one mismatch. -/
theorem C100_degenerate_refuted :
    ¬ ∀ (P : Hierarchy Unit ℚ) (nv : ℕ) (x : Vec ℚ) (actual : ActiveSetH) (V : ViolationsH ℚ) (s : ActiveSetH) (n : ℕ), FormedHierarchy P nv →
      x.n = nv → SizesOf P actual → (∀ L ∈ P.levels, LevelSatisfied L x.e) →
      (∀ l ti i r, RowOf P l ti i r → ∃ a, EntryAt actual l r a ∧ (a = .inactive ∨ a = .equality ∧ IsEqualityRow ti.task.ctr i)) →
      P.computeViolations (fun _ => (fun _ => 0, fun _ => 0, fun _ => 0)) x = .ok V → P.determineActiveSet x = .ok s →
      countMismatches s actual V = .ok n → n = 0 := by
  intro H
  have h : ∃ V s, exampleDegenerate.computeViolations (fun _ => (fun _ => 0, fun _ => 0, fun _ => 0)) (Vec.ofList [5, -1]) = .ok V ∧
      exampleDegenerate.determineActiveSet (Vec.ofList [5, -1]) = .ok s ∧ countMismatches s [[.inactive], [.equality]] V = .ok 1 := by
    with_unfolding_all exact ⟨_, _, rfl, rfl, rfl⟩
  obtain ⟨V, s, h1, h2, h3⟩ := h
  have := H exampleDegenerate 2 (Vec.ofList [5, -1]) [[.inactive], [.equality]] V s 1 exampleDegenerate_formed rfl ⟨rfl, ?_⟩ ?_ ?_ h1 h2 h3
  · cases this
  · intro l L t hl ht
    match l with
    | 0 => cases hl; cases ht; rfl
    | 1 => cases hl; cases ht; rfl
    | l + 2 => cases hl
  · intro L hL ti ht i hi
    obtain ⟨l, hl, el⟩ := List.getElem_of_mem hL
    obtain ⟨rfl, -, ⟨-, e⟩ | ⟨-, e⟩⟩ := exampleDegenerate_rows (l := l) (ti := ti) (i := i) (r := ti.loc.offset + i)
      ⟨⟨L, by rw [List.getElem?_eq_getElem hl, el], ht⟩, hi, rfl⟩
    · rw [e]
      have hv : lhs exampleIL (Vec.ofList [(5 : ℚ), -1]).e 0 = -1 := by with_unfolding_all rfl
      refine ⟨fun l h1 => ?_, fun u h2 => ?_⟩
      · cases h1
        rw [hv]
        exact le_refl (-1 : ℚ)
      · cases h2
    · rw [e]
      have hv : lhs exampleAB (Vec.ofList [(5 : ℚ), -1]).e 0 = 3 := by with_unfolding_all rfl
      refine ⟨fun l h1 => ?_, fun u h2 => ?_⟩
      · cases h1
        rw [hv]
        exact le_refl (3 : ℚ)
      · cases h2
        rw [hv]
        exact le_refl (3 : ℚ)
  · intro l ti i r h
    obtain ⟨rfl, rfl, ⟨rfl, e⟩ | ⟨rfl, e⟩⟩ := exampleDegenerate_rows h
    · exact ⟨.inactive, ⟨_, rfl, rfl⟩, Or.inl rfl⟩
    · exact ⟨.equality, ⟨_, rfl, rfl⟩, Or.inr ⟨rfl, by rw [e]; exact ⟨3, rfl, rfl⟩⟩⟩

/-- **C100, refuted.** The hierarchy must be formed: after `reset`, violations of the old number of constraints are returned although there are no
tasks, and their entries are not initialised. -/
theorem C100_stale_refuted :
    ¬ ∀ (P : Hierarchy Unit ℚ) (nv : ℕ) (junk1 junk2 : ℕ → ViolationsJunk ℚ) (x : Vec ℚ) (V1 V2 : ViolationsH ℚ) (v1 v2 : ViolationsC ℚ)
      (d1 d2 : ℚ), FormedHierarchy P nv → (P.reset 1).computeViolations junk1 x = .ok V1 → (P.reset 1).computeViolations junk2 x = .ok V2 →
      V1.level 0 = .ok v1 → V2.level 0 = .ok v2 → v1.get 0 = .ok d1 → v2.get 0 = .ok d2 → d1 = d2 := by
  intro H
  have := H exampleDegenerate 2 (fun _ => (fun _ => 7, fun _ => 7, fun _ => 7)) (fun _ => (fun _ => 8, fun _ => 8, fun _ => 8)) (Vec.ofList [5, -1])
    _ _ _ _ 7 8 exampleDegenerate_formed rfl rfl rfl rfl rfl rfl
  norm_num at this

/-! ## C100: parts of violations -/

/-- **C100.** `copyTo` puts the violations of a part at its place and changes nothing else, and `copyFrom` with the same location gives them back. -/
theorem C100_copy (v o : ViolationsC K) (l : Location) (hd : v.lower.n = v.data.n ∧ v.upper.n = v.data.n)
    (ho : o.data.n = l.length ∧ o.lower.n = l.length ∧ o.upper.n = l.length) (hl : l.offset + l.length ≤ v.data.n) (w : ViolationsC K)
    (hw : w.data.n = l.length) :
    ∃ v', v.copyTo l o = .ok v' ∧ v'.data.n = v.data.n ∧
      (∀ i, i < l.length → v'.get (l.offset + i) = o.get i ∧ v'.getLower (l.offset + i) = o.getLower i ∧
        v'.getUpper (l.offset + i) = o.getUpper i) ∧
      (∀ i, i < l.offset ∨ l.offset + l.length ≤ i → v'.get i = v.get i ∧ v'.getLower i = v.getLower i ∧ v'.getUpper i = v.getUpper i) ∧
      ∃ w', w.copyFrom v' l = .ok w' ∧ w'.data.n = l.length ∧
        ∀ i, w'.get i = o.get i ∧ w'.getLower i = o.getLower i ∧ w'.getUpper i = o.getUpper i := by
  obtain ⟨o1, o2, o3⟩ := ho
  have hcheck : ∀ n, l.offset + l.length ≤ n → l.checkLength n = true := by
    intro n hn
    rw [Location.checkLength_iff]
    omega
  let put : Vec K → Vec K → Vec K := fun a b =>
    ⟨a.n, fun i => if l.offset ≤ i ∧ i < l.offset + l.length then b.e (i - l.offset) else a.e i⟩
  have hput : ∀ a b : Vec K, l.offset + l.length ≤ a.n → b.n = l.length → a.setSegment l.offset l.length b =
      .ok ⟨a.n, fun i => if l.offset ≤ i ∧ i < l.offset + l.length then b.e (i - l.offset) else a.e i⟩ := fun a b h1 h2 => by
    unfold Vec.setSegment
    rw [if_pos ⟨h1, h2⟩]
  have hin : ∀ (a b : Vec K) i, i < l.length → b.n = l.length → l.offset + l.length ≤ a.n →
      (do assertThat (l.offset + i < a.n)
          (⟨a.n, fun i => if l.offset ≤ i ∧ i < l.offset + l.length then b.e (i - l.offset) else a.e i⟩ : Vec K).get (l.offset + i)) =
      (do assertThat (i < b.n); b.get i) := fun a b i hi hb ha => by
    rw [assertThat_true (by omega), assertThat_true (by omega), ok_bind, ok_bind, Vec.get_ok (by show _ < a.n; omega), Vec.get_ok (by omega)]
    simp [hi]
  have hout : ∀ (a b : Vec K) i, i < l.offset ∨ l.offset + l.length ≤ i →
      (do assertThat (i < a.n)
          (⟨a.n, fun i => if l.offset ≤ i ∧ i < l.offset + l.length then b.e (i - l.offset) else a.e i⟩ : Vec K).get i) =
      (do assertThat (i < a.n); a.get i) := fun a b i hi => by
    unfold Vec.get
    simp only
    rw [if_neg (by omega : ¬ (l.offset ≤ i ∧ i < l.offset + l.length))]
  have hback : ∀ (a b : Vec K) i, b.n = l.length →
      (do assertThat (i < l.length)
          (⟨l.length, fun i => (fun i => if l.offset ≤ i ∧ i < l.offset + l.length then b.e (i - l.offset) else a.e i) (l.offset + i)⟩ :
            Vec K).get i) =
      (do assertThat (i < b.n); b.get i) := fun a b i hb => by
    rw [hb]
    by_cases hi : i < l.length
    · rw [assertThat_true hi, ok_bind, ok_bind, Vec.get_ok hi, Vec.get_ok (by omega)]
      simp [hi]
    · rw [assertThat_false hi]
      rfl
  refine ⟨⟨put v.data o.data, put v.lower o.lower, put v.upper o.upper⟩, ?_, ?_⟩
  · unfold ViolationsC.copyTo
    rw [assertThat_true (hcheck _ hl), ok_bind, hput _ _ hl o1, ok_bind, hput _ _ (by omega) o2, ok_bind, hput _ _ (by omega) o3, ok_bind]
    rfl
  refine ⟨rfl, fun i hi => ⟨hin v.data _ i hi o1 hl, hin v.lower _ i hi o2 (by omega), hin v.upper _ i hi o3 (by omega)⟩,
    fun i hi => ⟨hout v.data o.data i hi, hout v.lower o.lower i hi, hout v.upper o.upper i hi⟩, ?_⟩
  refine ⟨⟨⟨l.length, fun i => (put v.data o.data).e (l.offset + i)⟩, ⟨l.length, fun i => (put v.lower o.lower).e (l.offset + i)⟩,
    ⟨l.length, fun i => (put v.upper o.upper).e (l.offset + i)⟩⟩, ?_, ?_⟩
  · unfold ViolationsC.copyFrom Vec.segment
    rw [assertThat_true (hcheck _ hl), ok_bind, assertThat_true hw.symm, ok_bind, require_true (show _ ≤ v.data.n by omega), ok_bind,
      require_true (show _ ≤ v.lower.n by omega), ok_bind, require_true (show _ ≤ v.upper.n by omega), ok_bind]
    rfl
  exact ⟨rfl, fun i => ⟨hback v.data _ i o1, hback v.lower _ i o2, hback v.upper _ i o3⟩⟩

/-- **C100.** `copyTo` and `copyFrom` with a location which is out of range, and `copyFrom` with a location of another length, are refused. -/
theorem C100_copy_refused (v o : ViolationsC K) (l : Location) :
    (v.data.n < l.offset + l.length → v.copyTo l o = .error .thrown) ∧
    (o.data.n < l.offset + l.length → v.copyFrom o l = .error .thrown) ∧
    (l.length ≠ v.data.n → v.copyFrom o l = .error .thrown) := by
  have hcheck : ∀ n, n < l.offset + l.length → ¬ l.checkLength n = true := by
    intro n hn
    rw [Location.checkLength_iff]
    omega
  refine ⟨fun h => ?_, fun h => ?_, fun h => ?_⟩
  · unfold ViolationsC.copyTo
    rw [assertThat_false (hcheck _ h)]
    rfl
  · unfold ViolationsC.copyFrom
    rw [assertThat_false (hcheck _ h)]
    rfl
  · unfold ViolationsC.copyFrom
    by_cases h1 : l.checkLength o.data.n = true
    · rw [assertThat_true h1, ok_bind, assertThat_false h]
      rfl
    · rw [assertThat_false h1]
      rfl

/-- **C100.** `initialize` from a part of other violations gives this part, whatever the violations were before. -/
theorem C100_initFrom (v o : ViolationsC K) (l : Location) (hd : o.lower.n = o.data.n ∧ o.upper.n = o.data.n)
    (hl : l.offset + l.length ≤ o.data.n) (junk : ViolationsJunk K) :
    ∃ v', v.initFrom o l junk = .ok v' ∧ v'.data.n = l.length ∧
      ∀ i, i < l.length → v'.get i = o.get (l.offset + i) ∧ v'.getLower i = o.getLower (l.offset + i) ∧
        v'.getUpper i = o.getUpper (l.offset + i) := by
  have hcheck : l.checkLength o.data.n = true := by
    rw [Location.checkLength_iff]
    omega
  have key : ∀ w : ViolationsC K, w.data.n = l.length → w.copyFrom o l =
      .ok ⟨⟨l.length, fun i => o.data.e (l.offset + i)⟩, ⟨l.length, fun i => o.lower.e (l.offset + i)⟩,
        ⟨l.length, fun i => o.upper.e (l.offset + i)⟩⟩ := fun w hw => by
    unfold ViolationsC.copyFrom Vec.segment
    rw [assertThat_true hcheck, ok_bind, assertThat_true hw.symm, ok_bind, require_true hl, ok_bind,
      require_true (show _ ≤ o.lower.n by omega), ok_bind, require_true (show _ ≤ o.upper.n by omega), ok_bind]
    rfl
  refine ⟨⟨⟨l.length, fun i => o.data.e (l.offset + i)⟩, ⟨l.length, fun i => o.lower.e (l.offset + i)⟩,
        ⟨l.length, fun i => o.upper.e (l.offset + i)⟩⟩, ?_, rfl, fun i hi => ?_⟩
  · unfold ViolationsC.initFrom
    rw [assertThat_true hcheck, ok_bind]
    split_ifs with h
    · exact key _ rfl
    · exact key _ (by simpa using h)
  · unfold ViolationsC.get ViolationsC.getLower ViolationsC.getUpper
    simp only
    refine ⟨?_, ?_, ?_⟩ <;>
      rw [assertThat_true hi, assertThat_true (by omega), ok_bind, ok_bind, Vec.get_ok (by omega), Vec.get_ok (by omega)]

/-- A part of two rows of violations of four rows. -/
example : ∃ v', (ViolationsC.raw 4 (fun _ => 7, fun _ => 8, fun _ => 9) : ViolationsC ℚ).copyTo ⟨1, 2⟩
    ⟨Vec.ofList [1, 2], Vec.ofList [3, 4], Vec.ofList [5, 6]⟩ = .ok v' ∧ v'.get 0 = .ok 7 ∧ v'.get 1 = .ok 1 ∧ v'.getLower 2 = .ok 4 ∧
    v'.getUpper 3 = .ok 9 := ⟨_, rfl, rfl, rfl, rfl, rfl⟩

end Humoto
