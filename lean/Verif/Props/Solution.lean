import Verif.Model.Solution
import Verif.Props.ActiveSet
import Verif.Lemmas.Constraints

/-!
# Solution structure and warm start: C15, C16
-/

namespace Humoto

namespace Spec

/-- Number of variables before the part `k` of a sequence of additions. -/
def before (adds : List (String × ℕ)) (k : ℕ) : ℕ := ((adds.take k).map Prod.snd).sum

/-- Total number of variables. -/
def total (adds : List (String × ℕ)) : ℕ := (adds.map Prod.snd).sum

/-- Variable `i` lies within a location. -/
def InLoc (l : Location) (i : ℕ) : Prop := l.offset ≤ i ∧ i < l.offset + l.length

/-- The structures which a user can build. -/
def Built (s : SolutionStructure) : Prop := ∃ adds, s = SolutionStructure.empty.addAll adds

end Spec

open Spec

/-! ## C15 -/

theorem addAll_append (s : SolutionStructure) (a b : List (String × ℕ)) :
    s.addAll (a ++ b) = (s.addAll a).addAll b := by simp [SolutionStructure.addAll]

theorem add_nvars (s : SolutionStructure) (id : String) (n : ℕ) : (s.add id n).nvars = s.nvars + n := by
  unfold SolutionStructure.add
  split <;> rfl

theorem addAll_nvars (s : SolutionStructure) (adds : List (String × ℕ)) :
    (s.addAll adds).nvars = s.nvars + total adds := by
  induction adds generalizing s with
  | nil => rfl
  | cons a adds ih =>
    have : s.addAll (a :: adds) = (s.add a.1 a.2).addAll adds := rfl
    rw [this, ih, add_nvars]
    simp [total]; omega

theorem lookup_append {α : Type} (l m : List (String × α)) (id : String) :
    (l ++ m).lookup id = (l.lookup id).or (m.lookup id) := by
  induction l with
  | nil => simp
  | cons a l ih =>
    rw [List.cons_append, List.lookup_cons, List.lookup_cons, ih]
    cases id == a.1 <;> rfl

theorem add_find (s : SolutionStructure) (id : String) (n : ℕ) (id' : String) :
    (s.add id n).find id' = if id' = id then some ((s.find id).getD ⟨s.nvars, n⟩) else s.find id' := by
  unfold SolutionStructure.add
  cases h : s.find id with
  | none =>
    simp only [SolutionStructure.find, lookup_append, Option.getD_none]
    by_cases hid : id' = id
    · rw [if_pos hid, hid]
      have h' : s.parts.lookup id = none := h
      rw [h']
      simp
    · have hb : (id' == id) = false := by simp [hid]
      rw [if_neg hid]
      simp [List.lookup_cons, hb]
  | some l =>
    simp only [Option.getD_some]
    by_cases hid : id' = id
    · rw [if_pos hid, hid]; exact h
    · rw [if_neg hid]; rfl

/-- Further additions do not move a part. -/
theorem addAll_find_some (s : SolutionStructure) (adds : List (String × ℕ)) (id : String) (l : Location)
    (h : s.find id = some l) : (s.addAll adds).find id = some l := by
  induction adds generalizing s with
  | nil => exact h
  | cons a adds ih =>
    have : s.addAll (a :: adds) = (s.add a.1 a.2).addAll adds := rfl
    rw [this]
    apply ih
    rw [add_find]
    by_cases hid : id = a.1
    · rw [if_pos hid, ← hid, h]; rfl
    · rw [if_neg hid, h]

theorem addAll_find_none (s : SolutionStructure) (adds : List (String × ℕ)) (id : String)
    (h : s.find id = none) (hn : id ∉ adds.map Prod.fst) : (s.addAll adds).find id = none := by
  induction adds generalizing s with
  | nil => exact h
  | cons a adds ih =>
    simp only [List.map_cons, List.mem_cons, not_or] at hn
    have : s.addAll (a :: adds) = (s.add a.1 a.2).addAll adds := rfl
    rw [this]
    apply ih _ _ hn.2
    rw [add_find, if_neg hn.1, h]

/-- Every part of a sequence of additions with distinct names has a location of the requested length, which starts where
the previous part ends. -/
theorem C15_location {adds : List (String × ℕ)} (hd : (adds.map Prod.fst).Nodup) {k : ℕ} {id : String} {n : ℕ}
    (hk : adds[k]? = some (id, n)) :
    (SolutionStructure.empty.addAll adds).location id = ⟨before adds k, n⟩ := by
  obtain ⟨hlt, hget⟩ := List.getElem?_eq_some_iff.mp hk
  have hsplit : adds = adds.take k ++ (id, n) :: adds.drop (k + 1) := by
    conv_lhs => rw [← List.take_append_drop k adds, List.drop_eq_getElem_cons hlt, hget]
  have hnot : id ∉ (adds.take k).map Prod.fst := by
    rw [hsplit, List.map_append, List.nodup_append] at hd
    intro hm
    exact hd.2.2 id hm id (by simp) rfl
  have hfind : (SolutionStructure.empty.addAll adds).find id = some ⟨before adds k, n⟩ := by
    conv_lhs => rw [hsplit, addAll_append]
    have hstep : ∀ s : SolutionStructure, s.addAll ((id, n) :: adds.drop (k + 1)) =
        (s.add id n).addAll (adds.drop (k + 1)) := fun _ => rfl
    rw [hstep]
    apply addAll_find_some
    rw [add_find, if_pos rfl, addAll_find_none _ _ _ rfl hnot, addAll_nvars]
    simp [SolutionStructure.empty, before, total]
  unfold SolutionStructure.location
  rw [hfind]

/-- An unknown name has an empty location. -/
theorem C15_unknown {adds : List (String × ℕ)} {id : String} (h : id ∉ adds.map Prod.fst) :
    (SolutionStructure.empty.addAll adds).location id = ⟨0, 0⟩ := by
  unfold SolutionStructure.location
  rw [addAll_find_none _ _ _ rfl h]

theorem before_succ {adds : List (String × ℕ)} {k : ℕ} {id : String} {n : ℕ} (hk : adds[k]? = some (id, n)) :
    before adds (k + 1) = before adds k + n := by
  unfold before
  rw [List.take_add_one, hk]
  simp

theorem before_mono (adds : List (String × ℕ)) {j k : ℕ} (h : j ≤ k) : before adds j ≤ before adds k := by
  induction h with
  | refl => exact le_refl _
  | @step m _ ih =>
    by_cases hm : m < adds.length
    · have : adds[m]? = some (adds[m].1, adds[m].2) := by simp [hm]
      rw [Nat.succ_eq_add_one, before_succ this]; omega
    · have : before adds (m + 1) = before adds m := by
        unfold before
        rw [List.take_of_length_le (by omega), List.take_of_length_le (by omega)]
      rw [Nat.succ_eq_add_one, this]; exact ih

theorem before_length (adds : List (String × ℕ)) : before adds adds.length = total adds := by
  simp [before, total]

/-- The parts cover all variables and do not overlap: every variable below the number of variables lies in exactly one
part, and no part contains anything else. -/
theorem C15_cover {adds : List (String × ℕ)} (hd : (adds.map Prod.fst).Nodup) :
    (SolutionStructure.empty.addAll adds).nvars = total adds ∧
    (∀ i : ℕ, i < (SolutionStructure.empty.addAll adds).nvars ↔
      ∃ id ∈ adds.map Prod.fst, InLoc ((SolutionStructure.empty.addAll adds).location id) i) ∧
    (∀ id ∈ adds.map Prod.fst, ∀ id' ∈ adds.map Prod.fst, ∀ i : ℕ,
      InLoc ((SolutionStructure.empty.addAll adds).location id) i →
      InLoc ((SolutionStructure.empty.addAll adds).location id') i → id = id') := by
  have hn : (SolutionStructure.empty.addAll adds).nvars = total adds := by
    rw [addAll_nvars]; simp [SolutionStructure.empty]
  have hidx : ∀ id ∈ adds.map Prod.fst, ∃ (k n : ℕ), adds[k]? = some (id, n) := by
    intro id hid
    obtain ⟨⟨id', n⟩, ha, rfl⟩ := List.mem_map.mp hid
    obtain ⟨k, hk⟩ := List.getElem?_of_mem ha
    exact ⟨k, n, hk⟩
  refine ⟨hn, fun i => ⟨fun hi => ?_, ?_⟩, ?_⟩
  · rw [hn] at hi
    have key : ∀ m, m ≤ adds.length → i < before adds m →
        ∃ (k : ℕ) (id : String) (n : ℕ), adds[k]? = some (id, n) ∧ before adds k ≤ i ∧ i < before adds k + n := by
      intro m
      induction m with
      | zero => intro _ h; simp [before] at h
      | succ m ih =>
        intro hm h
        have hme : adds[m]? = some (adds[m].1, adds[m].2) := by
          rw [List.getElem?_eq_getElem (by omega)]
        by_cases hlt : i < before adds m
        · exact ih (by omega) hlt
        · rw [before_succ hme] at h
          exact ⟨m, _, _, hme, by omega, h⟩
    obtain ⟨k, id, n, hk, h1, h2⟩ := key adds.length (le_refl _) (by rw [before_length]; exact hi)
    refine ⟨id, List.mem_map.mpr ⟨(id, n), List.mem_of_getElem? hk, rfl⟩, ?_⟩
    rw [C15_location hd hk]
    exact ⟨h1, h2⟩
  · rintro ⟨id, hid, h1, h2⟩
    obtain ⟨k, n, hk⟩ := hidx id hid
    rw [C15_location hd hk] at h2
    have hlt := (List.getElem?_eq_some_iff.mp hk).1
    have := before_mono adds (j := k + 1) (k := adds.length) (by omega)
    rw [before_length, before_succ hk] at this
    simp only at h2
    omega
  · intro id hid id' hid' i hi hi'
    obtain ⟨k, n, hk⟩ := hidx id hid
    obtain ⟨k', n', hk'⟩ := hidx id' hid'
    rw [C15_location hd hk] at hi
    rw [C15_location hd hk'] at hi'
    simp only [InLoc] at hi hi'
    rcases Nat.lt_trichotomy k k' with h | h | h
    · have := before_mono adds (j := k + 1) (k := k') (by omega)
      rw [before_succ hk] at this
      omega
    · rw [h, hk'] at hk; cases hk; rfl
    · have := before_mono adds (j := k' + 1) (k := k) (by omega)
      rw [before_succ hk'] at this
      omega

/-- A repeated name keeps its first location although the number of variables grows. -/
theorem C15_duplicate (s : SolutionStructure) (id : String) (n m : ℕ) :
    ((s.add id n).add id m).location id = (s.add id n).location id ∧
    ((s.add id n).add id m).nvars = (s.add id n).nvars + m := by
  refine ⟨?_, add_nvars _ _ _⟩
  unfold SolutionStructure.location
  rw [add_find, if_pos rfl, add_find, if_pos rfl]
  rfl

/-! ## C16 -/

/-- Facts about every structure which can be built, with or without repetitions of names. -/
structure Parts (s : SolutionStructure) : Prop where
  find : ∀ id l, (id, l) ∈ s.parts → s.find id = some l
  mem : ∀ id l, s.find id = some l → (id, l) ∈ s.parts
  fits : ∀ id l, (id, l) ∈ s.parts → l.offset + l.length ≤ s.nvars
  apart : ∀ id l id' l' (i : ℕ), (id, l) ∈ s.parts → (id', l') ∈ s.parts → InLoc l i → InLoc l' i → id = id' ∧ l = l'

theorem lookup_mem {l : List (String × Location)} {id : String} {v : Location} (h : l.lookup id = some v) :
    (id, v) ∈ l := by
  induction l with
  | nil => simp at h
  | cons a l ih =>
    rw [List.lookup_cons] at h
    by_cases he : id = a.1
    · have hb : (id == a.1) = true := by simp [he]
      rw [hb] at h
      cases h; rw [he]; simp
    · have : (id == a.1) = false := by simp [he]
      rw [this] at h
      exact List.mem_cons_of_mem _ (ih (by simpa using h))

theorem parts_add {s : SolutionStructure} (h : Parts s) (id : String) (n : ℕ) : Parts (s.add id n) := by
  have hmem : ∀ id' l, (id', l) ∈ (s.add id n).parts →
      (id', l) ∈ s.parts ∨ (s.find id = none ∧ id' = id ∧ l = ⟨s.nvars, n⟩) := by
    intro id' l hm
    unfold SolutionStructure.add at hm
    cases hf : s.find id with
    | none =>
      rw [hf] at hm
      simp only [List.mem_append, List.mem_singleton, Prod.mk.injEq] at hm
      rcases hm with hm | hm
      · exact Or.inl hm
      · exact Or.inr ⟨rfl, hm⟩
    | some v =>
      rw [hf] at hm
      exact Or.inl hm
  refine ⟨?_, fun id' l hf => lookup_mem hf, ?_, ?_⟩
  · intro id' l hm
    rcases hmem id' l hm with hm | ⟨hf, rfl, rfl⟩
    · rw [add_find]
      by_cases he : id' = id
      · rw [if_pos he, ← he, h.find _ _ hm]; rfl
      · rw [if_neg he, h.find _ _ hm]
    · rw [add_find, if_pos rfl, hf]; rfl
  · intro id' l hm
    rw [add_nvars]
    rcases hmem id' l hm with hm | ⟨_, _, rfl⟩
    · have := h.fits _ _ hm; omega
    · exact le_refl _
  · intro id1 l1 id2 l2 i hm1 hm2 hi1 hi2
    rcases hmem _ _ hm1 with h1 | ⟨_, e1, rfl⟩ <;> rcases hmem _ _ hm2 with h2 | ⟨_, e2, rfl⟩
    · exact h.apart _ _ _ _ i h1 h2 hi1 hi2
    · have := h.fits _ _ h1; simp only [InLoc] at hi1 hi2; omega
    · have := h.fits _ _ h2; simp only [InLoc] at hi1 hi2; omega
    · exact ⟨by rw [e1, e2], rfl⟩

theorem parts_of_built {s : SolutionStructure} (h : Built s) : Parts s := by
  obtain ⟨adds, rfl⟩ := h
  have key : ∀ (adds : List (String × ℕ)) (s : SolutionStructure), Parts s → Parts (s.addAll adds) := by
    intro adds
    induction adds with
    | nil => intro s h; exact h
    | cons a adds ih => intro s h; exact ih _ (parts_add h a.1 a.2)
  refine key adds _ ⟨?_, ?_, ?_, ?_⟩ <;> intros <;> simp_all [SolutionStructure.empty, SolutionStructure.find]

variable {K : Type}

/-- What the guess has to be: the old value for a variable of a part which the old solution has with the same length,
zero otherwise. -/
structure WarmStart [Zero K] (s : SolutionStructure) (old new : Solution K) : Prop where
  structure_ : new.structure_ = s
  size : new.x.length = s.nvars
  /-- The part is in both structures with equal length: its values are the old ones. -/
  copied : ∀ id l l', s.find id = some l → old.structure_.find id = some l' → l'.length = l.length →
    ∀ i, i < l.length → new.x[l.offset + i]? = old.x[l'.offset + i]?
  /-- Everything else is zero. -/
  zero : ∀ i, i < s.nvars →
    (∀ id l l', s.find id = some l → old.structure_.find id = some l' → l'.length = l.length → ¬ InLoc l i) →
    new.x[i]? = some 0

/-- Initialisation of a guess from an old solution succeeds and gives exactly the warm start, for all structures which
can be built, every old solution whose vector has the size of its structure and every order of iteration. -/
theorem C16_warmStart [Zero K] {s : SolutionStructure} (hs : Built s) {old : Solution K} (ho : Built old.structure_)
    (hx : old.x.length = old.structure_.nvars) {order : List (String × Location)} (hp : order.Perm s.parts)
    (sol : Solution K) : ∃ new, sol.initializeFrom s order old = .ok new ∧ WarmStart s old new := by
  have ps := parts_of_built hs
  have po := parts_of_built ho
  -- one variable `i` after the parts `done` have been processed
  have key : ∀ (todo done : List (String × Location)) (c : Solution K), (∀ p ∈ todo, p ∈ s.parts) →
      (∀ p ∈ done, p ∈ s.parts) → c.structure_ = s → c.x.length = s.nvars →
      (∀ p ∈ done, ∀ l', old.structure_.find p.1 = some l' → l'.length = p.2.length →
        ∀ i, i < p.2.length → c.x[p.2.offset + i]? = old.x[l'.offset + i]?) →
      (∀ i, i < s.nvars → (∀ p ∈ done, ∀ l', old.structure_.find p.1 = some l' → l'.length = p.2.length →
        ¬ InLoc p.2 i) → c.x[i]? = some 0) →
      ∃ new, todo.foldlM (Solution.copyPart old) c = .ok new ∧ new.structure_ = s ∧ new.x.length = s.nvars ∧
      (∀ p ∈ done ++ todo, ∀ l', old.structure_.find p.1 = some l' → l'.length = p.2.length →
        ∀ i, i < p.2.length → new.x[p.2.offset + i]? = old.x[l'.offset + i]?) ∧
      (∀ i, i < s.nvars → (∀ p ∈ done ++ todo, ∀ l', old.structure_.find p.1 = some l' → l'.length = p.2.length →
        ¬ InLoc p.2 i) → new.x[i]? = some 0) := by
    intro todo
    induction todo with
    | nil =>
      intro done c _ _ h1 h2 h3 h4
      exact ⟨c, rfl, h1, h2, by simpa using h3, by simpa using h4⟩
    | cons p todo ih =>
      intro done c ht hdn h1 h2 h3 h4
      obtain ⟨id, l⟩ := p
      have hpm : (id, l) ∈ s.parts := ht _ (by simp)
      have hfit := ps.fits _ _ hpm
      rw [List.foldlM_cons]
      have happ : done ++ (id, l) :: todo = (done ++ [(id, l)]) ++ todo := by simp
      rw [happ]
      -- the state after this part
      suffices hstep : ∃ c', Solution.copyPart old c (id, l) = .ok c' ∧ c'.structure_ = s ∧ c'.x.length = s.nvars ∧
          (∀ p ∈ done ++ [(id, l)], ∀ l', old.structure_.find p.1 = some l' → l'.length = p.2.length →
            ∀ i, i < p.2.length → c'.x[p.2.offset + i]? = old.x[l'.offset + i]?) ∧
          (∀ i, i < s.nvars → (∀ p ∈ done ++ [(id, l)], ∀ l', old.structure_.find p.1 = some l' →
            l'.length = p.2.length → ¬ InLoc p.2 i) → c'.x[i]? = some 0) by
        obtain ⟨c', e, g1, g2, g3, g4⟩ := hstep
        rw [e, ok_bind]
        exact ih (done ++ [(id, l)]) c' (fun p hp => ht p (by simp [hp]))
          (fun p hp => by
            rcases List.mem_append.mp hp with hp | hp
            · exact hdn p hp
            · rw [List.mem_singleton.mp hp]; exact hpm) g1 g2 g3 g4
      cases hf : old.structure_.find id with
      | none =>
        have hloc : old.structure_.location id = ⟨0, 0⟩ := by unfold SolutionStructure.location; rw [hf]
        have hsame : ∃ c', Solution.copyPart old c (id, l) = .ok c' ∧ c'.structure_ = s ∧ c'.x = c.x := by
          unfold Solution.copyPart
          simp only [hloc]
          by_cases hz : 0 = l.length
          · rw [if_pos hz]
            unfold Solution.getData Solution.setData
            rw [assertThat_true ((Location.checkLength_iff _ _).2 (by simp)), ok_bind, pure_eq_ok, ok_bind,
              assertThat_true ((Location.checkLength_iff _ _).2 (by omega)), ok_bind]
            have : copyInto c.x l.offset (List.take 0 (List.drop 0 old.x)) = .ok c.x := by
              rw [copyInto_ok (by simp; omega)]; simp
            rw [this]
            exact ⟨_, rfl, h1, rfl⟩
          · rw [if_neg hz]; exact ⟨c, rfl, h1, rfl⟩
        obtain ⟨c', e, g1, g2⟩ := hsame
        refine ⟨c', e, g1, by rw [g2]; exact h2, ?_, ?_⟩
        · intro p hp l' hl'
          rcases List.mem_append.mp hp with hp | hp
          · rw [g2]; exact h3 p hp l' hl'
          · rw [List.mem_singleton.mp hp, hf] at hl'; cases hl'
        · intro i hi hno
          rw [g2]
          exact h4 i hi fun p hp => hno p (by simp [hp])
      | some l' =>
        have hloc : old.structure_.location id = l' := by unfold SolutionStructure.location; rw [hf]
        have hfit' := po.fits _ _ (po.mem _ _ hf)
        unfold Solution.copyPart
        simp only [hloc]
        by_cases hz : l'.length = l.length
        · rw [if_pos hz]
          unfold Solution.getData Solution.setData
          rw [assertThat_true ((Location.checkLength_iff _ _).2 (by omega)), ok_bind, pure_eq_ok, ok_bind,
            assertThat_true ((Location.checkLength_iff _ _).2 (by omega)), ok_bind]
          have hlen : (List.take l'.length (List.drop l'.offset old.x)).length = l.length := by simp; omega
          obtain ⟨x', hcp⟩ : ∃ x', copyInto c.x l.offset (List.take l'.length (List.drop l'.offset old.x)) = .ok x' :=
            ⟨_, copyInto_ok (by omega)⟩
          have hget := copyInto_get hcp
          have hln := copyInto_length hcp
          rw [hcp, ok_bind]
          rw [hlen] at hget
          refine ⟨_, rfl, h1, by simp only; omega, ?_, ?_⟩
          · intro p hp l'' hl'' hle i hi
            simp only
            rw [hget]
            by_cases hin : InLoc l (p.2.offset + i)
            · have hpp : p ∈ s.parts := by
                rcases List.mem_append.mp hp with hp | hp
                · exact hdn p hp
                · rw [List.mem_singleton.mp hp]; exact hpm
              obtain ⟨a1, a2⟩ := ps.apart p.1 p.2 id l (p.2.offset + i) hpp hpm ⟨by omega, by omega⟩ hin
              rw [a1, hf] at hl''
              cases hl''
              rw [if_pos (show _ ∧ _ from hin), a2, Nat.add_sub_cancel_left, List.getElem?_take, if_pos (by rw [a2] at hi; omega),
                List.getElem?_drop]
            · rw [if_neg (show ¬ (_ ∧ _) from hin)]
              rcases List.mem_append.mp hp with hp | hp
              · exact h3 p hp l'' hl'' hle i hi
              · rw [List.mem_singleton.mp hp] at hin hi
                simp only [InLoc] at hin hi
                omega
          · intro i hi hno
            simp only
            rw [hget]
            have hin : ¬ InLoc l i := hno (id, l) (by simp) l' hf hz
            rw [if_neg (show ¬ (_ ∧ _) from hin)]
            exact h4 i hi fun p hp => hno p (by simp [hp])
        · rw [if_neg hz]
          refine ⟨c, rfl, h1, h2, ?_, ?_⟩
          · intro p hp l'' hl'' hle
            rcases List.mem_append.mp hp with hp | hp
            · exact h3 p hp l'' hl'' hle
            · rw [List.mem_singleton.mp hp] at hl'' hle
              rw [hf] at hl''; cases hl''
              exact absurd hle hz
          · intro i hi hno
            exact h4 i hi fun p hp => hno p (by simp [hp])
  obtain ⟨new, e, g1, g2, g3, g4⟩ := key order [] (sol.initializeValue s 0) (fun p hm => hp.mem_iff.mp hm) (by simp) rfl
    (by simp [Solution.initializeValue]) (by simp)
    (fun i hi _ => by simp [Solution.initializeValue, hi])
  refine ⟨new, e, g1, g2, ?_, ?_⟩
  · intro id l l' hf hf' hle i hi
    exact g3 (id, l) (by simpa using hp.mem_iff.mpr (ps.mem _ _ hf)) l' hf' hle i hi
  · intro i hi hno
    refine g4 i hi ?_
    intro p hpm l' hl' hle
    have hpm' : p ∈ s.parts := hp.mem_iff.mp (by simpa using hpm)
    exact hno p.1 p.2 l' (ps.find _ _ hpm') hl' hle

/-- Conversely there is only one warm start. -/
theorem C16_unique [Zero K] {s : SolutionStructure} {old new new' : Solution K}
    (h : WarmStart s old new) (h' : WarmStart s old new') : new.x = new'.x := by
  apply List.ext_getElem?
  intro i
  by_cases hi : i < s.nvars
  · by_cases hno : ∀ id l l', s.find id = some l → old.structure_.find id = some l' → l'.length = l.length → ¬ InLoc l i
    · rw [h.zero i hi hno, h'.zero i hi hno]
    · push Not at hno
      obtain ⟨id, l, l', h1, h2, h3, h4⟩ := hno
      have e : i = l.offset + (i - l.offset) := by have := h4.1; omega
      have hb : i - l.offset < l.length := by have := h4.2; have := h4.1; omega
      rw [e, h.copied id l l' h1 h2 h3 _ hb, h'.copied id l l' h1 h2 h3 _ hb]
  · rw [List.getElem?_eq_none (by rw [h.size]; omega), List.getElem?_eq_none (by rw [h'.size]; omega)]

/-! ### The hypotheses are met -/

/-- Three parts; `com` moves and `foot` changes its length. -/
def exampleStructure : SolutionStructure := SolutionStructure.empty.addAll [("jerk", 2), ("foot", 2), ("com", 1)]

/-- The old structure. -/
def exampleOld : Solution ℚ := ⟨SolutionStructure.empty.addAll [("com", 1), ("jerk", 2), ("foot", 1)], [1, 2, 3, 4], .ok⟩

example : ([("jerk", 2), ("foot", 2), ("com", 1)].map Prod.fst).Nodup := by decide

example : exampleStructure.location "foot" = ⟨2, 2⟩ ∧ exampleStructure.location "arm" = ⟨0, 0⟩ ∧
    exampleStructure.nvars = 5 := by decide

example : Built exampleStructure ∧ Built exampleOld.structure_ ∧ exampleOld.x.length = exampleOld.structure_.nvars :=
  ⟨⟨_, rfl⟩, ⟨_, rfl⟩, rfl⟩

example : ((⟨.empty, [], .undefined⟩ : Solution ℚ).initializeFrom exampleStructure exampleStructure.parts exampleOld) =
    .ok ⟨exampleStructure, [2, 3, 0, 0, 1], .undefined⟩ := rfl

end Humoto
