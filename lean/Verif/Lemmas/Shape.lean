import Verif.Lemmas.WpgProblem2

/-!
# Hierarchies with tasks of known kinds

The same as for the walking pattern generator, for any tasks.
-/

namespace Humoto

open Spec

variable {E K κ : Type}

/-- A hierarchy whose tasks are related to the given kinds. -/
structure Shaped (R : Task E K → κ → Prop) (P : Hierarchy E K) (kinds : List (List κ)) : Prop where
  reach : ∀ L ∈ P.levels, Reachable L
  shape : List.Forall₂ (fun (L : Level E K) ks => List.Forall₂ (fun (ti : TaskInfo E K) k => R ti.task k) L.tasks ks) P.levels kinds

theorem Shaped.mono {R R' : Task E K → κ → Prop} (h : ∀ t k, R t k → R' t k) {P : Hierarchy E K} {kinds : List (List κ)}
    (hP : Shaped R P kinds) : Shaped R' P kinds := ⟨hP.reach, hP.shape.imp fun _ _ h' => h'.imp fun _ _ h'' => h _ _ h''⟩

variable [Field K]

/-- A hierarchy which was formed. -/
theorem shaped_formed {R R' : Task E K → κ → Prop} {P P' : Hierarchy E K} {kinds : List (List κ)} (hP : Shaped R P kinds) {nv : ℕ} {env : E}
    {g : Bool} (hR : ∀ t k t', R t k → t.formAll nv env g = .ok t' → R' t' k) (h : P.form nv env g = .ok P') : Shaped R' P' kinds := by
  obtain ⟨hr, hs⟩ := hP
  have hf := hierarchy_forms h
  generalize P.levels = A at *
  generalize hB : P'.levels = B at *
  have key : ∀ (A B : List (Level E K)) (kinds : List (List κ)), (∀ L ∈ A, Reachable L) →
      List.Forall₂ (fun (L : Level E K) ks => List.Forall₂ (fun (ti : TaskInfo E K) k => R ti.task k) L.tasks ks) A kinds →
      List.Forall₂ (fun L L' : Level E K => L.form nv env g = .ok L') A B →
      (∀ L ∈ B, Reachable L) ∧
      List.Forall₂ (fun (L : Level E K) ks => List.Forall₂ (fun (ti : TaskInfo E K) k => R' ti.task k) L.tasks ks) B kinds := by
    intro A B kinds hr hs hf
    induction hs generalizing B with
    | nil => cases hf; exact ⟨fun L hL => (by cases hL), .nil⟩
    | @cons a ks A kinds ha hs ih =>
      cases hf with
      | @cons _ b _ B e hf =>
        obtain ⟨i1, i2⟩ := ih B (fun L hL => hr L (List.mem_cons_of_mem _ hL)) hf
        refine ⟨fun L hL => ?_, .cons ?_ i2⟩
        · rcases List.mem_cons.1 hL with rfl | hL
          · exact .form (hr a (List.mem_cons_self ..)) e
          · exact i1 L hL
        · have hall := form_forall2 e
          clear e i1 i2 ih
          generalize a.tasks = l at *
          generalize b.tasks = l' at *
          induction ha generalizing l' with
          | nil => cases hall; exact .nil
          | @cons t k l ks ht hl ih =>
            cases hall with
            | cons e hrest => exact .cons (hR _ _ _ ht e) (ih _ hrest)
  obtain ⟨h1, h2⟩ := key A B kinds hr hs hf
  exact ⟨by rw [hB]; exact h1, by rw [hB]; exact h2⟩

/-- A hierarchy can be formed if its tasks can, and there is a task with rows on each level. -/
theorem shaped_form {R : Task E K → κ → Prop} {P : Hierarchy E K} {kinds : List (List κ)} (hP : Shaped R P kinds) {nv : ℕ} {env : E} {g : Bool}
    (hk : kinds ≠ []) (hR : ∀ t k, R t k → ∃ t', t.formAll nv env g = .ok t')
    (hpos : ∀ ks ∈ kinds, ∃ k ∈ ks, ∀ t t', R t k → t.formAll nv env g = .ok t' → 0 < rows t'.ctr) :
    ∃ P', P.form nv env g = .ok P' := by
  obtain ⟨-, hs⟩ := hP
  have hlen : 0 < P.levels.length := by
    rw [hs.length_eq]
    exact List.length_pos_iff.2 hk
  have key : ∃ Ls, P.levels.mapM (fun L => L.form nv env g) = .ok Ls := by
    clear hlen hk
    generalize P.levels = A at *
    induction hs with
    | nil => exact ⟨[], rfl⟩
    | @cons a ks A kinds ha hs ih =>
      obtain ⟨Ls, e⟩ := ih fun ks hks => hpos ks (List.mem_cons_of_mem _ hks)
      obtain ⟨L', e'⟩ : ∃ L', a.form nv env g = .ok L' := by
        refine level_form_ok (fun ti hti => ?_) ?_
        · obtain ⟨i, hi, rfl⟩ := List.getElem_of_mem hti
          exact hR _ _ (List.Forall₂.get ha hi (ha.length_eq ▸ hi))
        · obtain ⟨k, hk, hp⟩ := hpos ks (List.mem_cons_self ..)
          obtain ⟨i, hi, hik⟩ := List.getElem_of_mem hk
          have hi' : i < a.tasks.length := ha.length_eq ▸ hi
          refine ⟨_, List.getElem_mem hi', fun t' e => hp _ t' ?_ e⟩
          have hT := List.Forall₂.get ha hi' hi
          rwa [List.get_eq_getElem, List.get_eq_getElem, hik] at hT
      refine ⟨L' :: Ls, ?_⟩
      rw [List.mapM_cons, e', ok_bind, e, ok_bind]
      rfl
  obtain ⟨Ls, e⟩ := key
  refine ⟨⟨Ls, Ls.map Level.nConstraints⟩, ?_⟩
  unfold Hierarchy.form
  rw [assertThat_true hlen, ok_bind, e]
  rfl

/-- A hierarchy cannot be formed if its first task cannot. -/
theorem shaped_throws {R : Task E K → κ → Prop} {P : Hierarchy E K} {k : κ} {ks : List κ} {kinds : List (List κ)}
    (hP : Shaped R P ((k :: ks) :: kinds)) {nv : ℕ} {env : E} {g : Bool} (hR : ∀ t, R t k → t.formAll nv env g = .error .thrown) :
    P.form nv env g = .error .thrown := by
  obtain ⟨-, hs⟩ := hP
  obtain ⟨Ls, cs⟩ := P
  simp only at hs
  cases hs with
  | @cons a _ A _ ha hs =>
    obtain ⟨ts, n1, n2, n3, n4⟩ := a
    simp only at ha
    cases ha with
    | @cons t _ l _ ht hl =>
      have e : Level.form ⟨t :: l, n1, n2, n3, n4⟩ nv env g = .error .thrown := by
        unfold Level.form
        simp only [List.length_cons]
        rw [assertThat_true (Nat.zero_lt_succ _), ok_bind]
        unfold Level.formLoop
        rw [hR _ ht]
        rfl
      unfold Hierarchy.form
      simp only [List.length_cons]
      rw [assertThat_true (Nat.zero_lt_succ _), ok_bind, List.mapM_cons, e]
      rfl

/-- Locations after forming. -/
theorem hierarchy_locations {P P' : Hierarchy E K} (hr : ∀ L ∈ P.levels, Reachable L) {nv : ℕ} {env : E} {g : Bool}
    (h : P.form nv env g = .ok P') : ∀ L ∈ P'.levels, ∀ ti ∈ L.tasks, ti.loc.length = rows ti.task.ctr := by
  have hf := hierarchy_forms h
  intro L hL ti hti
  obtain ⟨i, hi, rfl⟩ := List.getElem_of_mem hL
  have hi' : i < P.levels.length := hf.length_eq ▸ hi
  have e := hf.get hi' hi
  rw [List.get_eq_getElem, List.get_eq_getElem] at e
  obtain ⟨hc, -⟩ := form_consecutive (hr _ (List.getElem_mem hi')) e
  have key : ∀ (l : List (TaskInfo E K)) (n : ℕ), Consecutive n l → ∀ ti ∈ l, ti.loc.length = rows ti.task.ctr := by
    intro l
    induction l with
    | nil => intro _ _ ti hti; cases hti
    | cons a l ih =>
      intro n hn ti hti
      rcases List.mem_cons.1 hti with rfl | hti
      · rw [hn.1]
      · exact ih _ hn.2 ti hti
  exact key _ _ hc ti hti

/-- Processing of an active set changes only the actual active sets of the tasks: they have the sizes of the locations of the tasks. -/
theorem shaped_process {R : Task E K → κ → Prop} {P P' : Hierarchy E K} {kinds : List (List κ)} (hP : Shaped R P kinds) {s : ActiveSetH}
    (h : P.processActiveSet s = .ok P') :
    Shaped (fun t' k => ∃ t : Task E K, R t k ∧ (∃ x, t' = { t with actual := x }) ∧
      ((∀ L ∈ P.levels, ∀ ti ∈ L.tasks, ti.loc.length = rows ti.task.ctr) → t'.actual.length = rows t'.ctr) ∧
      ∀ c ∈ t'.actual, ∃ cc ∈ s, c ∈ cc) P' kinds := by
  unfold Hierarchy.processActiveSet at h
  obtain ⟨_, ha, h⟩ := bind_eq_ok.1 h
  obtain ⟨Ls, hLs, h⟩ := bind_eq_ok.1 h
  cases h
  have hl := assertThat_eq_ok ha
  obtain ⟨hr, hs⟩ := hP
  have key : ∀ (A : List (Level E K)) (kinds : List (List κ)) (s : ActiveSetH) (B : List (Level E K)), (∀ L ∈ A, L ∈ P.levels) →
      List.Forall₂ (fun (L : Level E K) ks => List.Forall₂ (fun (ti : TaskInfo E K) k => R ti.task k) L.tasks ks) A kinds →
      s.length = A.length → ((s.zip A).mapM fun (s, L) => L.processActiveSet s) = .ok B →
      (∀ L ∈ B, Reachable L) ∧ List.Forall₂ (fun (L : Level E K) ks => List.Forall₂ (fun (ti : TaskInfo E K) k =>
        ∃ t : Task E K, R t k ∧ (∃ x, ti.task = { t with actual := x }) ∧
        ((∀ L ∈ P.levels, ∀ ti ∈ L.tasks, ti.loc.length = rows ti.task.ctr) → ti.task.actual.length = rows ti.task.ctr) ∧
        ∀ c ∈ ti.task.actual, ∃ cc ∈ s, c ∈ cc) L.tasks ks) B kinds := by
    intro A kinds s B hA hs
    induction hs generalizing s B with
    | nil =>
      intro _ e
      rw [List.zip_nil_right] at e
      cases e
      exact ⟨fun L hL => (by cases hL), .nil⟩
    | @cons a ks A kinds ha hs ih =>
      intro hl e
      match s, hl with
      | c :: s, hl =>
        rw [List.zip_cons_cons, List.mapM_cons] at e
        obtain ⟨b, eb, e⟩ := bind_eq_ok.1 e
        obtain ⟨B', eB, e⟩ := bind_eq_ok.1 e
        cases e
        obtain ⟨i1, i2⟩ := ih s B' (fun L hL => hA L (List.mem_cons_of_mem _ hL)) (Nat.succ.inj hl) eB
        have ham := hA a (List.mem_cons_self ..)
        have hf := process_level eb
        refine ⟨fun L hL => ?_, .cons ?_ (i2.imp fun _ _ h => h.imp fun _ _ ⟨t, h1, h2, h3, h4⟩ => ⟨t, h1, h2, h3, fun c hc =>
          (h4 c hc).imp fun _ h => ⟨List.mem_cons_of_mem _ h.1, h.2⟩⟩)⟩
        · rcases List.mem_cons.1 hL with rfl | hL
          · refine .change (hr a ham) ?_
            clear ha
            generalize a.tasks = l at hf
            generalize L.tasks = l' at hf
            induction hf with
            | nil => rfl
            | cons hab _ ih =>
              obtain ⟨-, ⟨x, hx⟩, -⟩ := hab
              rw [List.map_cons, List.map_cons, ih, hx]
          · exact i1 L hL
        · have hmem : ∀ ti ∈ a.tasks, (∀ L ∈ P.levels, ∀ ti ∈ L.tasks, ti.loc.length = rows ti.task.ctr) →
              ti.loc.length = rows ti.task.ctr := fun ti hti hh => hh a ham ti hti
          clear i1 i2 eb ih
          generalize a.tasks = l at hf ha hmem
          generalize b.tasks = l' at hf
          induction ha generalizing l' with
          | nil => cases hf; exact .nil
          | @cons t k l ks ht hl ih =>
            cases hf with
            | @cons _ b _ l' hab hrest =>
              obtain ⟨-, ⟨x, hx⟩, hlen, hc⟩ := hab
              refine .cons ⟨t.task, ht, ⟨x, hx⟩, fun hh => ?_, fun d hd => ⟨c, List.mem_cons_self .., hc d hd⟩⟩ (ih (fun ti hti => hmem ti (List.mem_cons_of_mem _ hti)) _ hrest)
              rw [hlen, hmem t (List.mem_cons_self ..) hh, hx]
  obtain ⟨h1, h2⟩ := key P.levels kinds s Ls (fun _ h => h) hs hl hLs
  exact ⟨h1, h2⟩

/-- An active set of the size of the problem is accepted. -/
theorem hierarchy_process_ok {P P' : Hierarchy E K} (hr : ∀ L ∈ P.levels, Reachable L) {nv : ℕ} {env : E} {g : Bool}
    (h : P.form nv env g = .ok P') {s : ActiveSetH} (hs : s.map (·.length) = P'.levels.map (·.nConstraints)) :
    ∃ P'', P'.processActiveSet s = .ok P'' := by
  have hf := hierarchy_forms h
  have hl : s.length = P'.levels.length := by simpa using congrArg List.length hs
  have hm : ∀ (A : List (Level E K)), (∀ L ∈ A, Reachable L) → ∀ (B : List (Level E K)) (s : ActiveSetH),
      List.Forall₂ (fun L L' : Level E K => L.form nv env g = .ok L') A B →
      s.map (·.length) = B.map (·.nConstraints) →
      ∃ C, ((s.zip B).mapM fun (s, L) => L.processActiveSet s) = .ok C := by
    intro A hA B s h
    induction h generalizing s with
    | nil => intro _; exact ⟨[], by rw [List.zip_nil_right]; rfl⟩
    | @cons L L' A B hL _ ih =>
      intro hs
      match s, hs with
      | a :: s, hs =>
        rw [List.map_cons, List.map_cons, List.cons.injEq] at hs
        obtain ⟨C, hC⟩ := ih (fun L hL => hA L (List.mem_cons_of_mem _ hL)) s hs.2
        obtain ⟨L'', hL'', -⟩ := C13_distribute (hA L (List.mem_cons_self ..)) hL hs.1
        refine ⟨L'' :: C, ?_⟩
        rw [List.zip_cons_cons, List.mapM_cons, hC]
        simp only [hL'', ok_bind]
        rfl
  obtain ⟨C, hC⟩ := hm _ hr _ _ hf hs
  refine ⟨{ P' with levels := C }, ?_⟩
  unfold Hierarchy.processActiveSet
  rw [assertThat_true hl, ok_bind, hC]
  rfl

end Humoto
