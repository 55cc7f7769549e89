import Verif.Lemmas.WpgHorizon
import Verif.Spec.WpgHorizon

/-!
# Lemmas about the previewed states of the walking pattern generator
-/

namespace Humoto.Wpg

open Humoto.Spec Humoto.Spec.Wpg

/-- The stance before this one is among those which can precede it. -/
def PrevOk (s : Stance) : Prop :=
  (s.type = .lss → s.prevNonTds = .ds ∨ s.prevNonTds = .rss) ∧
  (s.type = .rss → s.prevNonTds = .ds ∨ s.prevNonTds = .lss) ∧
  (s.type = .ds → s.prevNonTds = .lss ∨ s.prevNonTds = .rss)

/-- The stance number `i` of the list is accepted. -/
def EntryOk (l : List Stance) (i : ℕ) (s : Stance) : Prop :=
  s.type ≠ .undefined ∧ (s.type = .ds → s.subtype = .first ∨ s.subtype = .last) ∧ (s.type = .tds → i + 1 < l.length) ∧
  (s.type ≠ .tds → s.subtype = .first ∨ PrevOk s)

theorem footBounds_first {p : FootParameters ℝ} {s : Stance} (h : s.subtype = .first) : footBounds p s = .ok 0 := by
  unfold footBounds
  rw [if_pos h]

/-- The foot which lands at the beginning of the stance. -/
def landingFoot (s : Stance) : LeftOrRight :=
  match s.type with
  | .lss => .left
  | .rss => .right
  | _ => if s.prevNonTds = .lss then .right else .left

/-- The kind of bounds on the position of the landing foot. -/
def boundsKind (s : Stance) : FootBoundsType :=
  if s.type = .ds then .alignedToSS else if s.prevNonTds = .ds then .withRespectToADS else .withRespectToSS

theorem footBounds_later {p : FootParameters ℝ} {s : Stance} (h : s.subtype ≠ .first)
    (ht : s.type = .lss ∨ s.type = .rss ∨ s.type = .ds) (hp : PrevOk s) :
    footBounds p s = p.getFootBounds (landingFoot s) (boundsKind s) := by
  unfold footBounds landingFoot boundsKind
  rw [if_neg h]
  rcases ht with e | e | e
  · rcases hp.1 e with e' | e' <;> simp [e, e']
  · rcases hp.2.1 e with e' | e' <;> simp [e, e']
  · rcases hp.2.2 e with e' | e' <;> simp [e, e']

theorem getFootBounds_ok (p : FootParameters ℝ) {f : LeftOrRight} (hf : f ≠ .undefined) {k : FootBoundsType} (hk : k ≠ .undefined) :
    ∃ b, p.getFootBounds f k = .ok b := by
  cases f with
  | undefined => exact absurd rfl hf
  | left => cases k <;> first | exact absurd rfl hk | exact ⟨_, rfl⟩
  | right => cases k <;> first | exact absurd rfl hk | exact ⟨_, rfl⟩

theorem boundsKind_ne (s : Stance) : boundsKind s ≠ .undefined := by
  unfold boundsKind
  split
  · decide
  · split <;> decide

theorem landingFoot_ne (s : Stance) : landingFoot s ≠ .undefined := by
  unfold landingFoot
  split
  · decide
  · decide
  · split <;> decide

theorem footBounds_ok {p : FootParameters ℝ} {s : Stance} (ht : s.type = .lss ∨ s.type = .rss ∨ s.type = .ds)
    (h : s.subtype = .first ∨ PrevOk s) : ∃ b, footBounds p s = .ok b := by
  by_cases hf : s.subtype = .first
  · exact ⟨0, footBounds_first hf⟩
  · rw [footBounds_later hf ht (h.resolve_left hf)]
    exact getFootBounds_ok p (landingFoot_ne s) (boundsKind_ne s)

theorem footBounds_error {p : FootParameters ℝ} {s : Stance} (h : ¬ (s.subtype = .first ∨ PrevOk s)) :
    footBounds p s = .error .thrown := by
  unfold footBounds
  have h1 : s.subtype ≠ .first := fun e => h (Or.inl e)
  have h2 : ¬ PrevOk s := fun e => h (Or.inr e)
  rw [if_neg h1]
  unfold PrevOk at h2
  cases ht : s.type <;> cases hp : s.prevNonTds <;> simp [ht, hp] at h2 ⊢

/-- Result of the switch when it does not throw. -/
noncomputable def switchOut (w : WalkParameters) (next : StanceType) (s : Stance) (th : Thetas) : Thetas × (Fin 2 → ℝ) × ℝ :=
  match s.type with
  | .lss => (th, w.com_velocity, th.lss)
  | .rss => (th, w.com_velocity, th.rss)
  | .ds => if s.subtype = .first then (th, w.first_stance_com_velocity, th.ds) else (th, w.last_stance_com_velocity, th.ds)
  | .tds => previewTransition w next s.prevNonTds th
  | .undefined => (th, 0, 0)

/-- Type of stance number `i`. -/
def typeAt (l : List Stance) (i : ℕ) : StanceType :=
  match l[i]? with
  | some s => s.type
  | none => .undefined

theorem typeAt_eq {l : List Stance} {i : ℕ} {s : Stance} (h : l[i]? = some s) : typeAt l i = s.type := by
  unfold typeAt
  rw [h]

theorem previewSwitch_ok {w : WalkParameters} {l : List Stance} {i : ℕ} {s : Stance} {th : Thetas} (h : EntryOk l i s) :
    previewSwitch w l i s th = .ok (switchOut w (typeAt l (i + 1)) s th) := by
  obtain ⟨h1, h2, h3, -⟩ := h
  unfold previewSwitch switchOut
  cases ht : s.type with
  | undefined => exact absurd ht h1
  | lss => rfl
  | rss => rfl
  | ds =>
    simp only
    split
    · rfl
    · next e => rw [if_pos ((h2 ht).resolve_left e)]
  | tds =>
    have hl := h3 ht
    obtain ⟨n, hn⟩ : ∃ n, l[i + 1]? = some n := ⟨_, List.getElem?_eq_getElem hl⟩
    simp only
    unfold at'
    rw [typeAt_eq hn, hn]
    rfl

theorem previewSwitch_error {w : WalkParameters} {l : List Stance} {i : ℕ} {s : Stance} {th : Thetas}
    (h : s.type = .undefined ∨ (s.type = .ds ∧ s.subtype ≠ .first ∧ s.subtype ≠ .last) ∨ (s.type = .tds ∧ ¬ i + 1 < l.length)) :
    previewSwitch w l i s th = .error .thrown := by
  unfold previewSwitch
  rcases h with e | ⟨e, e1, e2⟩ | ⟨e, e1⟩
  · rw [e]
  · rw [e]
    simp only
    rw [if_neg e1, if_neg e2]
  · rw [e]
    simp only
    unfold at'
    rw [List.getElem?_eq_none (by omega)]
    rfl

/-- The angles before stance number `i` is considered. -/
noncomputable def thetasAt (w : WalkParameters) (l : List Stance) (th : Thetas) : ℕ → Thetas
  | 0 => th
  | i + 1 =>
    match l[i]? with
    | some s => (switchOut w (typeAt l (i + 1)) s (thetasAt w l th i)).1
    | none => thetasAt w l th i

/-- The previewed state which belongs to the stance. -/
structure IsEntry (nan : ℝ) (p : FootParameters ℝ) (w : WalkParameters) (next : StanceType) (th : Thetas) (s : Stance)
    (x : WalkState) : Prop where
  stance : x.stance = s
  cvel_ref : x.cvel_ref = (switchOut w next s th).2.1
  theta : x.theta = (switchOut w next s th).2.2
  rotation : x.rotation = rotation2 x.theta
  R_cvel_ref : x.R_cvel_ref = x.rotation.mulVec x.cvel_ref
  fd : s.type ≠ .tds → footBounds p s = .ok x.fd_bounds
  cop : s.type ≠ .tds → x.cop_bounds = copBounds p s
  step_height : x.step_height = 0

theorem previewStep_ok {nan : ℝ} {p : FootParameters ℝ} {w : WalkParameters} {l : List Stance} {i : ℕ} {s : Stance}
    {y : Thetas × List WalkState} (hs : l[i]? = some s) (h : EntryOk l i s) :
    ∃ x, previewStep nan p w l y i = .ok ((switchOut w (typeAt l (i + 1)) s y.1).1, y.2 ++ [x]) ∧
      IsEntry nan p w (typeAt l (i + 1)) y.1 s x := by
  unfold previewStep
  rw [show at' l i = .ok s by unfold at'; rw [hs], ok_bind, previewSwitch_ok h, ok_bind]
  by_cases ht : s.type = .tds
  · rw [if_neg (by simp [ht])]
    exact ⟨_, rfl, rfl, rfl, rfl, rfl, rfl, fun e => absurd ht e, fun e => absurd ht e, rfl⟩
  · obtain ⟨b, hb⟩ := footBounds_ok (p := p) (s := s) (by
      have := h.1
      cases hty : s.type <;> simp_all) (h.2.2.2 ht)
    rw [if_pos ht, hb, ok_bind]
    exact ⟨_, rfl, rfl, rfl, rfl, rfl, rfl, fun _ => hb, fun _ => rfl, rfl⟩

theorem previewStep_error {nan : ℝ} {p : FootParameters ℝ} {w : WalkParameters} {l : List Stance} {i : ℕ} {s : Stance}
    {y : Thetas × List WalkState} (hs : l[i]? = some s) (h : ¬ EntryOk l i s) :
    previewStep nan p w l y i = .error .thrown := by
  unfold previewStep
  rw [show at' l i = .ok s by unfold at'; rw [hs], ok_bind]
  by_cases hsw : s.type = .undefined ∨ (s.type = .ds ∧ s.subtype ≠ .first ∧ s.subtype ≠ .last) ∨ (s.type = .tds ∧ ¬ i + 1 < l.length)
  · rw [previewSwitch_error hsw]
    rfl
  · push Not at hsw
    obtain ⟨a1, a2, a3⟩ := hsw
    have hex : ∃ r, previewSwitch w l i s y.1 = .ok r := by
      unfold previewSwitch
      cases ht : s.type with
      | undefined => exact absurd ht a1
      | lss => exact ⟨_, rfl⟩
      | rss => exact ⟨_, rfl⟩
      | ds =>
        simp only
        split
        · exact ⟨_, rfl⟩
        · next e => rw [if_pos (a2 ht e)]; exact ⟨_, rfl⟩
      | tds =>
        simp only
        unfold at'
        rw [List.getElem?_eq_getElem (a3 ht)]
        exact ⟨_, rfl⟩
    obtain ⟨r, hr⟩ := hex
    rw [hr, ok_bind]
    have ht : s.type ≠ .tds ∧ ¬ (s.subtype = .first ∨ PrevOk s) := by
      by_contra hc
      refine h ⟨a1, fun e => ?_, a3, fun e => ?_⟩
      · by_cases e1 : s.subtype = .first
        · exact Or.inl e1
        · exact Or.inr (a2 e e1)
      · by_contra hf
        exact hc ⟨e, hf⟩
    rw [if_pos ht.1, footBounds_error ht.2]
    rfl

/-- The angles at the beginning. -/
noncomputable def thetas0 (m : Model) : Thetas :=
  ⟨m.state.feet.left.rpy 2, m.state.feet.right.rpy 2, (m.state.feet.left.rpy 2 + m.state.feet.right.rpy 2) / 2⟩

/-- All states are previewed, or the call throws and one of the stances is not accepted. -/
theorem previewStates_total (nan : ℝ) (m : Model) (w : WalkParameters) (l : List Stance) :
    (∃ ws, previewStates nan m w l = .ok ws ∧ ws.length = l.length ∧
      ∀ i s, l[i]? = some s → ∃ x, ws[i]? = some x ∧
        IsEntry nan m.params w (typeAt l (i + 1)) (thetasAt w l (thetas0 m) i) s x) ∨
    (previewStates nan m w l = .error .thrown ∧ ∃ i s, l[i]? = some s ∧ ¬ EntryOk l i s) := by
  unfold previewStates
  rcases forRange_or (s := ((thetas0 m, []) : Thetas × List WalkState)) (n := l.length)
    (body := previewStep nan m.params w l)
    (fun k y => y.1 = thetasAt w l (thetas0 m) k ∧ y.2.length = k ∧ ∀ i s, i < k → l[i]? = some s → ∃ x, y.2[i]? = some x ∧
        IsEntry nan m.params w (typeAt l (i + 1)) (thetasAt w l (thetas0 m) i) s x)
    (fun i => ∃ s, l[i]? = some s ∧ ¬ EntryOk l i s) .thrown
    ⟨rfl, rfl, fun i s hi => by omega⟩ (by
      rintro k y hk ⟨h1, h2, h3⟩
      obtain ⟨s, hs⟩ : ∃ s, l[k]? = some s := ⟨_, List.getElem?_eq_getElem hk⟩
      by_cases h : EntryOk l k s
      · left
        obtain ⟨x, hx, hE⟩ := previewStep_ok (nan := nan) (p := m.params) (w := w) (y := y) hs h
        refine ⟨_, hx, ?_, ?_, ?_⟩
        · show (switchOut w (typeAt l (k + 1)) s y.1).1 = thetasAt w l (thetas0 m) (k + 1)
          simp only [thetasAt, hs, h1]
        · show (y.2 ++ [x]).length = _
          simp [h2]
        · intro i s' hi hs'
          show ∃ z, (y.2 ++ [x])[i]? = some z ∧ _
          by_cases hik : i < k
          · rw [List.getElem?_append_left (by omega)]
            exact h3 i s' hik hs'
          · obtain rfl : i = k := by omega
            rw [List.getElem?_append_right (by omega), h2]
            rw [hs] at hs'
            cases hs'
            rw [h1] at hE
            exact ⟨x, by simp, hE⟩
      · right
        exact ⟨previewStep_error hs h, s, hs, h⟩) with ⟨y, hy, h1, h2, h3⟩ | ⟨hy, i, -, s, hs, hb⟩
  · left
    refine ⟨y.2, ?_, h2, fun i s hs => h3 i s (List.getElem?_eq_some_iff.1 hs).1 hs⟩
    show (forRange l.length (thetas0 m, []) (previewStep nan m.params w l) >>= fun y => pure y.2) = _
    rw [hy]
    rfl
  · right
    refine ⟨?_, i, s, hs, hb⟩
    show (forRange l.length (thetas0 m, []) (previewStep nan m.params w l) >>= fun y => pure y.2) = _
    rw [hy]
    rfl

theorem previewStates_error {nan : ℝ} {m : Model} {w : WalkParameters} {l : List Stance} {i : ℕ} {s : Stance}
    (hs : l[i]? = some s) (h : ¬ EntryOk l i s) : previewStates nan m w l = .error .thrown := by
  rcases previewStates_total nan m w l with ⟨ws, hw, -⟩ | ⟨h1, -⟩
  · exfalso
    unfold previewStates at hw
    simp only [bind_eq_ok] at hw
    obtain ⟨y, hy, -⟩ := hw
    have := forRange_inv_of_ok (fun k (_ : Thetas × List WalkState) => ∀ i s, i < k → l[i]? = some s → EntryOk l i s)
      (fun i s hi => by omega) (by
        intro k y y' hk ih hy i s hi hs
        by_cases hik : i < k
        · exact ih i s hik hs
        · obtain rfl : i = k := by omega
          by_contra hn
          rw [previewStep_error hs hn] at hy
          cases hy) hy
    exact h (this i s (List.getElem?_eq_some_iff.1 hs).1 hs)
  · exact h1

/-! ## Previews of a walk -/

/-- The list shows the walk from position `k` on. -/
def Shows (p : FSMParams) (side : StanceType) (n k : ℕ) (l : List Stance) : Prop :=
  ∀ i s, l[i]? = some s → s.type = walkType p.firstStance side n (k + i) ∧ s.subtype = walkSub p.firstStance n (k + i) ∧
    s.prevNonTds = walkPrev p.firstStance side n (k + i)

theorem shown_at (s : ℕ → FSM) (m i : ℕ) :
    ((List.range m).map (fun i => shown (s i) (remaining (s i))))[i]? =
      if i < m then some (shown (s i) (remaining (s i))) else none := by
  split
  · next h => rw [List.getElem?_map, List.getElem?_range h]; rfl
  · next h => rw [List.getElem?_eq_none (by simp; omega)]

theorem walkInv_shown {p : FSMParams} {side : StanceType} {n k : ℕ} {f : FSM} (h : WalkInv p side n k f) (x : ℕ) :
    (shown f x).type = walkType p.firstStance side n k ∧ (shown f x).subtype = walkSub p.firstStance n k ∧
      (shown f x).prevNonTds = walkPrev p.firstStance side n k := ⟨h.type, h.sub, h.prevTds⟩

/-- What a complete preview contains. -/
theorem complete_shows {p : FSMParams} {side : StanceType} {n k : ℕ} {f : FSM} (hp : WalkOk p side n)
    (h : WalkInv p side n k f) {d : ℕ} {l : List Stance} (hl : CompletePreview f d l) :
    Shows p side n k l ∧ ∃ m, (l.length = m + 1 ∨ l.length = m + 2) ∧
      (l.length = m + 1 ↔ walkType p.firstStance side n (k + m) ≠ .tds) ∧
      (∀ i s, l[i]? = some s → i < m → 0 < i → s.duration = dur p s.type) ∧
      (∀ i < m, ¬ (walkType p.firstStance side n (k + i) = .ds ∧ n - (k + i) / 2 = 0)) ∧
      (∀ s, l[m]? = some s → 0 < s.duration) ∧ (∀ s, l[0]? = some s → s.duration = min (remaining f) d) ∧
      (∀ i s, l[i]? = some s → 0 < k + i → s.duration ≤ dur p s.type) := by
  obtain ⟨s, m, x, extra, h1, rfl, h3, h4, h5, h6, h7, h8⟩ := hl
  have hI : ∀ i ≤ m, WalkInv p side n (k + i) (s i) := fun i hi => runTo_inv hp h h1 hi
  have hlen : ((List.range m).map (fun i => shown (s i) (remaining (s i)))).length = m := by simp
  -- elements of the list
  have hel : ∀ i t, ((List.range m).map (fun i => shown (s i) (remaining (s i))) ++ [shown (s m) x] ++ extra)[i]? = some t →
      (i < m ∧ t = shown (s i) (remaining (s i))) ∨ (i = m ∧ t = shown (s m) x) ∨
      (i = m + 1 ∧ (s m).cur.type = .tds ∧ ∃ g, (s m).shiftStance = .ok g ∧ t = { g.cur with duration := 0, total := 0 }) := by
    intro i t ht
    by_cases hi : i < m
    · rw [List.append_assoc, List.getElem?_append_left (by rw [hlen]; exact hi), shown_at, if_pos hi] at ht
      cases ht
      exact Or.inl ⟨hi, rfl⟩
    · by_cases hi' : i = m
      · subst hi'
        rw [List.append_assoc, List.getElem?_append_right (by rw [hlen]), hlen] at ht
        simp at ht
        exact Or.inr (Or.inl ⟨rfl, ht.symm⟩)
      · rw [List.getElem?_append_right (by rw [List.length_append, hlen]; simp; omega)] at ht
        right; right
        by_cases htd : (s m).cur.type = .tds
        · obtain ⟨g, hg, he⟩ := h8 htd
          rw [he, List.length_append, hlen] at ht
          have : i = m + 1 := by
            by_contra hne
            rw [List.getElem?_eq_none (by simp; omega)] at ht
            cases ht
          subst this
          simp at ht
          exact ⟨rfl, htd, g, hg, ht.symm⟩
        · rw [h7 htd] at ht
          simp at ht
  refine ⟨?_, m, ?_, ?_, ?_, ?_, ?_, ?_, ?_⟩
  · intro i t ht
    rcases hel i t ht with ⟨hi, rfl⟩ | ⟨rfl, rfl⟩ | ⟨rfl, htd, g, hg, rfl⟩
    · exact walkInv_shown (hI i (by omega)) _
    · exact walkInv_shown (hI i (le_refl i)) _
    · obtain ⟨g', hg', hI', -⟩ := walk_step hp (hI m (le_refl m))
      rw [hg] at hg'
      cases hg'
      exact walkInv_shown hI' 0
  · by_cases htd : (s m).cur.type = .tds
    · obtain ⟨g, hg, he⟩ := h8 htd
      right
      rw [he]
      simp
    · left
      rw [h7 htd]
      simp
  · rw [← (hI m (le_refl m)).type]
    by_cases htd : (s m).cur.type = .tds
    · obtain ⟨g, hg, he⟩ := h8 htd
      rw [he]
      simp [htd]
    · rw [h7 htd]
      simp [htd]
  · intro i t ht hi hi0
    rcases hel i t ht with ⟨-, rfl⟩ | ⟨rfl, -⟩ | ⟨rfl, -⟩
    · have hd := (hI i (by omega)).duration
      have ht0 : (s i).time = 0 := by
        obtain ⟨j, rfl⟩ : ∃ j, i = j + 1 := ⟨i - 1, by omega⟩
        exact (shiftStance_time (h1.2 j (by omega))).1
      show (s i).cur.duration - (s i).time = dur p (s i).cur.type
      rw [ht0, hd, if_neg (by omega)]
      rfl
    · omega
    · omega
  · intro i hi hc
    have := hI i (by omega)
    exact h6 i hi ⟨by rw [this.type]; exact hc.1, by rw [this.left]; exact hc.2⟩
  · intro t ht
    rcases hel m t ht with ⟨hi, -⟩ | ⟨-, rfl⟩ | ⟨hi, -⟩
    · omega
    · exact h4
    · omega
  · intro t ht
    rcases hel 0 t ht with ⟨hi, rfl⟩ | ⟨rfl, rfl⟩ | ⟨hi, -⟩
    · have : remaining f ≤ ∑ i ∈ Finset.range m, remaining (s i) := by
        obtain ⟨m, rfl⟩ : ∃ m', m = m' + 1 := ⟨m - 1, by omega⟩
        rw [Finset.sum_range_succ', h1.1]; omega
      show (s 0).cur.duration - (s 0).time = _
      rw [h1.1]
      show remaining f = _
      omega
    · rw [h1.1] at h5
      simp at h3
      show x = _
      omega
    · omega
  · intro i t ht hi
    rcases hel i t ht with ⟨hi', rfl⟩ | ⟨rfl, rfl⟩ | ⟨rfl, -, g, -, rfl⟩
    · have hd := (hI i (by omega)).duration
      rw [if_neg (by omega)] at hd
      show (s i).cur.duration - (s i).time ≤ dur p (s i).cur.type
      omega
    · have hd := (hI i (le_refl i)).duration
      rw [if_neg (by omega)] at hd
      unfold remaining at h5
      show x ≤ dur p (s i).cur.type
      omega
    · exact Nat.zero_le _

/-- What an incomplete preview contains. -/
theorem ended_shows {p : FSMParams} {side : StanceType} {n k : ℕ} {f : FSM} (hp : WalkOk p side n)
    (h : WalkInv p side n k f) {d : ℕ} {l : List Stance} (hl : EndedPreview f d l) :
    Shows p side n k l ∧
      walkType p.firstStance side n (k + l.length) = .ds ∧ n - (k + l.length) / 2 = 0 ∧
      (∀ i < l.length, ¬ (walkType p.firstStance side n (k + i) = .ds ∧ n - (k + i) / 2 = 0)) ∧ (l = [] ↔ Terminal f) := by
  obtain ⟨s, m, h1, rfl, h3, h4, h5⟩ := hl
  have hI : ∀ i ≤ m, WalkInv p side n (k + i) (s i) := fun i hi => runTo_inv hp h h1 hi
  have hlen : ((List.range m).map (fun i => shown (s i) (remaining (s i)))).length = m := by simp
  rw [hlen]
  refine ⟨?_, ?_, ?_, ?_, ?_⟩
  · intro i t ht
    rw [shown_at] at ht
    split at ht
    · next hi =>
      cases ht
      exact walkInv_shown (hI i (by omega)) _
    · cases ht
  · rw [← (hI m (le_refl m)).type]; exact h3.1
  · rw [← (hI m (le_refl m)).left]; exact h3.2
  · intro i hi hc
    have := hI i (by omega)
    exact h5 i hi ⟨by rw [this.type]; exact hc.1, by rw [this.left]; exact hc.2⟩
  · cases m with
    | zero =>
      rw [h1.1] at h3
      simp [h3]
    | succ m =>
      have h0 := h5 0 (by omega)
      rw [h1.1] at h0
      simp [h0]

/-! ## Positions in the walk -/

/-- Walks which consist of the initial double support only. -/
def NoSteps (p : FSMParams) (n : ℕ) : Prop := p.firstStance = .ds ∧ n = 0

theorem walkType_odd {p : FSMParams} {side : StanceType} {n : ℕ} (hz : ¬ NoSteps p n) {q : ℕ} (h : q % 2 = 1) (hq : q < 2 * n + 2) :
    walkType p.firstStance side n q = .tds := by
  have hz : ¬ (p.firstStance = .ds ∧ n = 0) := hz
  simp [walkType, hz, show q ≠ 0 by omega, h, show ¬ 2 * n + 2 ≤ q by omega]

theorem walkType_end {p : FSMParams} {side : StanceType} {n : ℕ} {q : ℕ} (hq : 2 * n + 2 ≤ q) :
    walkType p.firstStance side n q = .ds := by
  unfold walkType
  rw [if_neg (by omega), if_pos hq]
  split <;> rfl

theorem walkType_even {p : FSMParams} {side : StanceType} {n : ℕ} (hz : ¬ NoSteps p n) {q : ℕ} (h0 : q ≠ 0) (h : q % 2 = 0)
    (hq : q < 2 * n + 2) : walkType p.firstStance side n q = sideAt side (q / 2) := by
  have hz : ¬ (p.firstStance = .ds ∧ n = 0) := hz
  simp [walkType, hz, h0, h, show ¬ 2 * n + 2 ≤ q by omega]

theorem not_noSteps {p : FSMParams} {n : ℕ} (hz : ¬ NoSteps p n) : n ≠ 0 ∨ p.firstStance ≠ .ds := by
  by_cases hn : n = 0
  · exact Or.inr fun hd => hz ⟨hd, hn⟩
  · exact Or.inl hn

theorem single_ne {t : StanceType} (h : IsSingle t) : t ≠ .tds ∧ t ≠ .ds ∧ t ≠ .undefined := by
  rcases h with rfl | rfl <;> decide

theorem walkType_parity {p : FSMParams} {side : StanceType} {n : ℕ} (hp : WalkOk p side n) {q : ℕ} (hq : q ≤ 2 * n + 2)
    (hz : NoSteps p n → q = 0) : walkType p.firstStance side n q = .tds ↔ q % 2 = 1 := by
  have h0 : walkType p.firstStance side n 0 ≠ .tds := by
    simp only [walkType, if_pos]
    rcases hp.first with e | e
    · rw [e]; decide
    · exact (single_ne e).1
  by_cases hz' : NoSteps p n
  · rw [hz hz']
    simp [h0]
  · by_cases e : q = 0
    · subst e; simp [h0]
    · by_cases e1 : q = 2 * n + 2
      · rw [walkType_end (by omega)]
        constructor
        · intro h; cases h
        · intro h; omega
      · by_cases e2 : q % 2 = 1
        · simp [walkType_odd hz' e2 (by omega), e2]
        · rw [walkType_even hz' e (by omega) (by omega)]
          constructor
          · intro h; exact absurd h (single_ne (sideAt_single (hp.side (not_noSteps hz')) _)).1
          · intro h; omega

theorem walkPrev_even {p : FSMParams} {side : StanceType} {n : ℕ} (hp : WalkOk p side n) (hz : ¬ NoSteps p n) {q : ℕ}
    (h : q % 2 = 0) (hq : q + 2 ≤ 2 * n + 2) :
    walkPrev p.firstStance side n (q + 2) = walkType p.firstStance side n q := by
  have h1 : walkType p.firstStance side n (q + 1) = .tds := walkType_odd hz (by omega) (by omega)
  have h2 : walkType p.firstStance side n q ≠ .tds := fun e => by
    rw [walkType_parity hp (by omega) (fun e => absurd e hz)] at e
    omega
  simp only [walkPrev, h1, if_true, if_neg h2]

theorem walk_entry {p : FSMParams} {side : StanceType} {n : ℕ} (hp : WalkOk p side n) {q : ℕ} (hq : q ≤ 2 * n + 2)
    (hz : NoSteps p n → q = 0) {s : Stance} (h1 : s.type = walkType p.firstStance side n q)
    (h2 : s.subtype = walkSub p.firstStance n q) (h3 : s.prevNonTds = walkPrev p.firstStance side n q) :
    s.type ≠ .undefined ∧ (s.type = .ds → s.subtype = .first ∨ s.subtype = .last) ∧
      (s.type ≠ .tds → s.subtype = .first ∨ PrevOk s) := by
  have hL := walkType_legal hp
  refine ⟨by rw [h1]; exact hL.defined q, ?_, ?_⟩
  · intro e
    by_cases e0 : q = 0
    · left; rw [h2, e0]; rfl
    · have hz' : ¬ NoSteps p n := fun e' => e0 (hz e')
      by_cases e1 : q = 2 * n + 2
      · right
        rw [h2]
        unfold walkSub
        rw [if_neg e0, if_neg (show ¬ (p.firstStance = .ds ∧ n = 0) from hz'), if_pos e1]
      · exfalso
        rw [h1] at e
        by_cases e2 : q % 2 = 1
        · rw [walkType_odd hz' e2 (by omega)] at e; cases e
        · rw [walkType_even hz' e0 (by omega) (by omega)] at e
          exact (single_ne (sideAt_single (hp.side (not_noSteps hz')) _)).2.1 e
  · intro e
    by_cases e0 : q = 0
    · left; rw [h2, e0]; rfl
    · right
      have hz' : ¬ NoSteps p n := fun e' => e0 (hz e')
      have hpar : q % 2 = 0 := by
        by_contra hne
        exact e (by rw [h1]; exact (walkType_parity hp hq hz).2 (by omega))
      obtain ⟨r, rfl⟩ : ∃ r, q = r + 2 := ⟨q - 2, by omega⟩
      rw [walkPrev_even hp hz' (by omega) hq] at h3
      -- the previous support
      have hprev : IsSingle s.prevNonTds ∨ s.prevNonTds = .ds := by
        rw [h3]
        by_cases er : r = 0
        · subst er
          show IsSingle p.firstStance ∨ p.firstStance = .ds
          exact hp.first.symm
        · rw [walkType_even hz' er (by omega) (by omega)]
          exact Or.inl (sideAt_single (hp.side (not_noSteps hz')) _)
      have halt : IsSingle s.prevNonTds → IsSingle s.type → s.type = opposite s.prevNonTds := by
        intro ha hb
        rw [h3] at ha ⊢
        rw [h1] at hb ⊢
        exact hL.alternates r ha hb
      refine ⟨fun ht => ?_, fun ht => ?_, fun ht => ?_⟩
      · rcases hprev with hs | hs
        · right
          have := halt hs (Or.inl ht)
          rw [ht] at this
          rcases hs with e' | e' <;> simp [e', opposite] at this ⊢
        · exact Or.inl hs
      · rcases hprev with hs | hs
        · right
          have := halt hs (Or.inr ht)
          rw [ht] at this
          rcases hs with e' | e' <;> simp [e', opposite] at this ⊢
        · exact Or.inl hs
      · rcases hprev with hs | hs
        · exact hs
        · exfalso
          -- a double support is followed by a double support only without steps
          rw [h1] at ht
          rw [h3] at hs
          have hr : r + 2 = 2 * n + 2 := by
            by_contra hne
            rw [walkType_even hz' (by omega) (by omega) (by omega)] at ht
            exact (single_ne (sideAt_single (hp.side (not_noSteps hz')) _)).2.1 ht
          by_cases er : r = 0
          · subst er
            exact hz' ⟨hs, by omega⟩
          · rw [walkType_even hz' er (by omega) (by omega)] at hs
            exact (single_ne (sideAt_single (hp.side (not_noSteps hz')) _)).2.1 hs

theorem not_terminal_pos {p : FSMParams} {side : StanceType} {n q : ℕ}
    (h : ¬ (walkType p.firstStance side n q = .ds ∧ n - q / 2 = 0)) : q < 2 * n + 2 ∧ ¬ NoSteps p n := by
  constructor
  · by_contra hq
    exact h ⟨walkType_end (by omega), by omega⟩
  · rintro ⟨h1, h2⟩
    refine h ⟨?_, by omega⟩
    unfold walkType
    rw [if_pos (show p.firstStance = .ds ∧ n = 0 from ⟨h1, h2⟩), h1]
    split <;> rfl

theorem not_reentered_pos {p : FSMParams} {side : StanceType} {n k : ℕ} {f : FSM} (hp : WalkOk p side n) (h : WalkInv p side n k f) :
    ¬ Reentered f ↔ k ≤ 2 * n + 2 ∧ (NoSteps p n → k = 0) := by
  unfold Reentered
  rw [h.type, h.sub]
  constructor
  · intro hr
    constructor
    · by_contra hk
      refine hr ⟨walkType_end (by omega), ?_⟩
      unfold walkSub
      rw [if_neg (by omega)]
      split
      · rfl
      · rw [if_neg (by omega)]
    · intro hz
      by_contra hk
      have hz : p.firstStance = .ds ∧ n = 0 := hz
      exact hr ⟨by unfold walkType; rw [if_neg hk, if_pos hz], by unfold walkSub; rw [if_neg hk, if_pos hz]⟩
  · rintro ⟨h1, h2⟩ ⟨h3, h4⟩
    by_cases hk : k = 0
    · subst hk
      simp [walkSub] at h4
    · have hz : ¬ NoSteps p n := fun e => hk (h2 e)
      unfold walkSub at h4
      rw [if_neg hk, if_neg (show ¬ (p.firstStance = .ds ∧ n = 0) from hz)] at h4
      split at h4
      · cases h4
      · -- this is the position of a single support or of a transition
        unfold walkType at h3
        rw [if_neg hk, if_neg (show ¬ (p.firstStance = .ds ∧ n = 0) from hz), if_neg (by omega)] at h3
        split at h3
        · cases h3
        · exact (single_ne (sideAt_single (hp.side (not_noSteps hz)) _)).2.1 h3

/-! ## Outcomes -/

/-- All stances of a complete preview are accepted, and transitions alternate with supports. -/
theorem complete_accepted {p : FSMParams} {side : StanceType} {n k : ℕ} {f : FSM} (hp : WalkOk p side n)
    (h : WalkInv p side n k f) {d : ℕ} {l : List Stance} (hl : CompletePreview f d l) (hr : ¬ Reentered f) :
    (∀ i s, l[i]? = some s → EntryOk l i s ∧ (s.type = .tds ↔ (k + i) % 2 = 1)) ∧
    (∃ s, l.getLast? = some s ∧ s.type ≠ .tds) ∧
    (∀ i s, l[i]? = some s → 0 < i →
      (s.type = .tds → i + 2 < l.length → s.duration = p.tdsMs) ∧ (s.type ≠ .tds → i + 1 < l.length → s.duration = p.ssMs)) ∧
    (∀ (i : ℕ) (s : Stance), l[i]? = some s → s.type = .tds → s.duration ≤ p.tdsMs) ∧
    ∀ i < l.length, k + i ≤ 2 * n + 2 ∧ (NoSteps p n → k + i = 0) := by
  obtain ⟨hS, m, hlen, hlen', hdur, hnt, -, -, hle⟩ := complete_shows hp h hl
  obtain ⟨hk, hk'⟩ := (not_reentered_pos hp h).1 hr
  have hm : k + m ≤ 2 * n + 2 ∧ (NoSteps p n → k + m = 0) := by
    by_cases e : m = 0
    · subst e; exact ⟨hk, hk'⟩
    · obtain ⟨a, b⟩ := not_terminal_pos (hnt (m - 1) (by omega))
      exact ⟨by omega, fun e => absurd e b⟩
  have hpm := walkType_parity hp hm.1 hm.2
  have hpos : ∀ i, i < l.length → k + i ≤ 2 * n + 2 ∧ (NoSteps p n → k + i = 0) := by
    intro i hi
    by_cases e : i ≤ m
    · exact ⟨by omega, fun e' => by have := hm.2 e'; omega⟩
    · have hl2 : l.length = m + 2 := by omega
      have ht : walkType p.firstStance side n (k + m) = .tds := by
        by_contra hne
        have := hlen'.2 hne
        omega
      have ho := hpm.1 ht
      refine ⟨by omega, fun e' => ?_⟩
      have := hm.2 e'
      omega
  have hpar : ∀ i s, l[i]? = some s → (s.type = .tds ↔ (k + i) % 2 = 1) := by
    intro i s hs
    obtain ⟨a, b⟩ := hpos i (List.getElem?_eq_some_iff.1 hs).1
    rw [(hS i s hs).1]
    exact walkType_parity hp a b
  have hlast : ∀ s, l[l.length - 1]? = some s → s.type ≠ .tds := by
    intro s hs ht
    rw [hpar _ s hs] at ht
    rcases hlen with e | e
    · have h1 := hlen'.1 e
      rw [ne_eq, hpm] at h1
      rw [e] at ht
      simp at ht
      omega
    · have h1 : walkType p.firstStance side n (k + m) = .tds := by
        by_contra hne
        have := hlen'.2 hne
        omega
      rw [hpm] at h1
      rw [e] at ht
      simp at ht
      omega
  refine ⟨fun i s hs => ⟨?_, hpar i s hs⟩, ?_, ?_, fun i s hs ht => ?_, hpos⟩
  · have hi := (List.getElem?_eq_some_iff.1 hs).1
    obtain ⟨a, b⟩ := hpos i hi
    obtain ⟨h1, h2, h3⟩ := hS i s hs
    obtain ⟨c1, c2, c3⟩ := walk_entry hp a b h1 h2 h3
    refine ⟨c1, c2, fun ht => ?_, c3⟩
    by_contra hne
    have : i = l.length - 1 := by omega
    subst this
    exact hlast s hs ht
  · obtain ⟨s, hs⟩ : ∃ s, l[l.length - 1]? = some s := ⟨_, List.getElem?_eq_getElem (by omega)⟩
    exact ⟨s, by rw [List.getLast?_eq_getElem?]; exact hs, hlast s hs⟩
  · intro i s hs hi0
    refine ⟨fun ht hi => ?_, fun ht hi => ?_⟩
    · rw [hdur i s hs (by omega) hi0, ht]
      rfl
    · have hi' : i < m := by
        rcases hlen with e | e
        · omega
        · by_contra hne
          obtain rfl : i = m := by omega
          refine ht ?_
          rw [(hS i s hs).1]
          by_contra hne
          have := hlen'.2 hne
          omega
      rw [hdur i s hs hi' hi0]
      obtain ⟨a, b⟩ := hpos i (List.getElem?_eq_some_iff.1 hs).1
      obtain ⟨c, hz⟩ := not_terminal_pos (hnt i hi')
      have hev : (k + i) % 2 = 0 := by
        by_contra hne
        exact ht ((hpar i s hs).2 (by omega))
      have hty := (hS i s hs).1
      rw [walkType_even hz (by omega) hev c] at hty
      rcases sideAt_single (hp.side (not_noSteps hz)) ((k + i) / 2) with e | e <;> rw [hty, e] <;> rfl
  · have := hle i s hs (by have := (hpar i s hs).1 ht; omega)
    rw [ht] at this
    exact this

/-- An incomplete preview which is not empty is refused. -/
theorem ended_refused {p : FSMParams} {side : StanceType} {n k : ℕ} {f : FSM} (hp : WalkOk p side n)
    (h : WalkInv p side n k f) {d : ℕ} {l : List Stance} (hl : EndedPreview f d l) (hT : ¬ Terminal f) :
    ∃ i s, l[i]? = some s ∧ ¬ EntryOk l i s := by
  obtain ⟨hS, h1, h2, h3, h4⟩ := ended_shows hp h hl
  have hlen : 0 < l.length := List.length_pos_of_ne_nil fun e => hT (h4.1 e)
  obtain ⟨a, hz⟩ := not_terminal_pos (h3 (l.length - 1) (by omega))
  have hodd : (k + (l.length - 1)) % 2 = 1 := by
    by_contra hne
    have ho : (k + l.length) % 2 = 1 := by omega
    by_cases hq : k + l.length < 2 * n + 2
    · rw [walkType_odd hz ho hq] at h1
      cases h1
    · omega
  obtain ⟨s, hs⟩ : ∃ s, l[l.length - 1]? = some s := ⟨_, List.getElem?_eq_getElem (by omega)⟩
  refine ⟨_, s, hs, fun hE => ?_⟩
  have := hE.2.2.1 (by rw [(hS _ s hs).1]; exact walkType_odd hz hodd a)
  omega

/-- The double support which is entered again is refused. -/
theorem reentered_refused {f : FSM} {d : ℕ} {l : List Stance} (hl : CompletePreview f d l) (hr : Reentered f) :
    ∃ i s, l[i]? = some s ∧ ¬ EntryOk l i s := by
  obtain ⟨s, m, x, extra, h1, rfl, h3, h4, h5, -⟩ := hl
  have hno : ∀ (l : List Stance) (y : ℕ), ¬ EntryOk l 0 (shown f y) := by
    intro l y hE
    have := hE.2.1 hr.1
    have h2 : (shown f y).subtype = .intermediate := hr.2
    rw [h2] at this
    rcases this with e | e <;> cases e
  cases m with
  | zero => exact ⟨0, shown f x, by simp [h1.1], hno _ x⟩
  | succ m => exact ⟨0, shown f (remaining f), by rw [List.range_succ_eq_map]; simp [h1.1], hno _ _⟩

theorem pairs_of_parity : ∀ {ws : List WalkState},
    (∀ i s, ws[i]? = some s → (s.stance.type = .tds ↔ i % 2 = 0)) → Pairs ws
  | [], _ => trivial
  | [s], h => (h 0 s rfl).2 rfl
  | s :: s' :: rest, h => by
    refine ⟨(h 0 s rfl).2 rfl, fun e => ?_, pairs_of_parity fun i t ht => ?_⟩
    · have := (h 1 s' rfl).1 e
      omega
    · rw [h (i + 2) t (by simpa using ht)]
      omega

theorem alternating_of_parity {ws : List WalkState} {k : ℕ}
    (h : ∀ i s, ws[i]? = some s → (s.stance.type = .tds ↔ (k + i) % 2 = 1)) : Alternating ws := by
  match ws with
  | [] => trivial
  | s :: rest =>
    have h0 := h 0 s rfl
    simp only [Alternating]
    by_cases e : s.stance.type = .tds
    · rw [if_pos e]
      have hk := h0.1 e
      refine pairs_of_parity fun i t ht => ?_
      rw [h i t ht]
      omega
    · rw [if_neg e]
      refine pairs_of_parity fun i t ht => ?_
      rw [h (i + 1) t (by simpa using ht)]
      have : ¬ (k + 0) % 2 = 1 := fun e' => e (h0.2 e')
      omega

theorem available_eq (T : ℕ) : ∀ ws : List WalkState, available T ws = pairsCapacity T (ws.map (·.stance))
  | [] => rfl
  | [_] => rfl
  | a :: b :: rest => by
    show 1 + b.stance.duration / T + available T rest = 1 + b.stance.duration / T + pairsCapacity T (rest.map (·.stance))
    rw [available_eq T rest]

theorem supply_eq (T : ℕ) (ws : List WalkState) : supply T ws = capacity T (ws.map (·.stance)) := by
  match ws with
  | [] => rfl
  | s :: rest =>
    simp only [supply, List.map_cons, capacity]
    rw [available_eq, available_eq, List.map_cons]

/-- The durations of transitions and supports are covered by their intervals up to the last interval. -/
theorem pairsCapacity_bound {T : ℕ} (hT : 0 < T) : ∀ {l : List Stance}, l.length % 2 = 0 →
    (∀ i s, l[i]? = some s → i % 2 = 0 → s.duration ≤ T) → (∀ i s, l[i]? = some s → i % 2 = 1 → i + 1 < l.length → T ∣ s.duration) →
    (l.map (·.duration)).sum ≤ T * pairsCapacity T l + (T - 1)
  | [], _, _, _ => by simp
  | [s], h, _, _ => by simp at h
  | a :: b :: rest, h, h1, h2 => by
    have ha := h1 0 a rfl rfl
    have ih := pairsCapacity_bound hT (l := rest) (by simp at h; omega) (fun i s hs hi => h1 (i + 2) s (by simpa using hs) (by omega))
      (fun i s hs hi hi' => h2 (i + 2) s (by simpa using hs) (by omega) (by simp; omega))
    show a.duration + (b.duration + (rest.map (·.duration)).sum) ≤ T * (1 + b.duration / T + pairsCapacity T rest) + (T - 1)
    have hdm := Nat.div_add_mod b.duration T
    have hml := Nat.mod_lt b.duration hT
    rw [Nat.mul_add, Nat.mul_add, Nat.mul_one]
    match rest, ih, h2 with
    | [], ih, h2 =>
      simp only [List.map_nil, List.sum_nil, pairsCapacity] at ih ⊢
      generalize T * (b.duration / T) = x at *
      omega
    | c :: rest, ih, h2 =>
      have hd : b.duration % T = 0 := Nat.mod_eq_zero_of_dvd (h2 1 b rfl rfl (by simp))
      rw [hd] at hdm
      generalize T * (b.duration / T) = x at *
      generalize T * pairsCapacity T (c :: rest) = z at *
      generalize (List.map (fun x => x.duration) (c :: rest)).sum = u at *
      omega

theorem capacity_bound {T N k : ℕ} (hT : 0 < T) {l : List Stance}
    (hpar : ∀ (i : ℕ) (s : Stance), l[i]? = some s → (s.type = .tds ↔ (k + i) % 2 = 1))
    (hlast : ∃ s, l.getLast? = some s ∧ s.type ≠ .tds)
    (h1 : ∀ (i : ℕ) (s : Stance), l[i]? = some s → s.type = .tds → s.duration ≤ T)
    (h2 : ∀ (i : ℕ) (s : Stance), l[i]? = some s → 0 < i → s.type ≠ .tds → i + 1 < l.length → T ∣ s.duration)
    (hsum : (l.map (·.duration)).sum = N * T) : N ≤ capacity T l := by
  obtain ⟨sl, hsl, hsl'⟩ := hlast
  rw [List.getLast?_eq_getElem?] at hsl
  have hlen := (List.getElem?_eq_some_iff.1 hsl).1
  have hend : (k + (l.length - 1)) % 2 = 0 := by
    by_contra hne
    exact hsl' ((hpar _ sl hsl).2 (by omega))
  suffices hb : N * T ≤ T * capacity T l + (T - 1) by
    by_contra hc
    have : capacity T l + 1 ≤ N := by omega
    have := Nat.mul_le_mul_right T this
    rw [Nat.add_mul, Nat.one_mul, Nat.mul_comm] at this
    omega
  rw [← hsum]
  match l, hlen with
  | s :: rest, hlen =>
    have h0 := hpar 0 s rfl
    by_cases ht : s.type = .tds
    · have hk := h0.1 ht
      simp only [capacity, if_pos ht]
      refine pairsCapacity_bound hT (by rw [List.length_cons] at hend ⊢; omega) (fun i t hs hi => h1 i t hs ?_)
        (fun i t hs hi hi' => h2 i t hs (by omega) ?_ hi')
      · rw [hpar i t hs]; omega
      · rw [ne_eq, hpar i t hs]; omega
    · have hk : k % 2 = 0 := by
        by_contra hne
        exact ht (h0.2 (by omega))
      simp only [capacity, if_neg ht]
      have hb := pairsCapacity_bound hT (l := rest) (by rw [List.length_cons] at hend; omega)
        (fun i t hs hi => h1 (i + 1) t (by simpa using hs) (by rw [hpar (i + 1) t (by simpa using hs)]; omega))
        (fun i t hs hi hi' => h2 (i + 1) t (by simpa using hs) (by omega)
          (by rw [ne_eq, hpar (i + 1) t (by simpa using hs)]; omega) (by simp; omega))
      have hceil : s.duration ≤ T * ((s.duration + T - 1) / T) := by
        have hdm := Nat.div_add_mod (s.duration + T - 1) T
        have hml := Nat.mod_lt (s.duration + T - 1) hT
        generalize T * ((s.duration + T - 1) / T) = x at *
        omega
      rw [List.map_cons, List.sum_cons, Nat.mul_add]
      omega

/-! ## Fuel -/

theorem previewLoop_mono {a b : ℕ} {f : FSM} {d : ℕ} {acc : List Stance} {r} (h : FSM.previewLoop a f d acc = some r) (hab : a ≤ b) :
    FSM.previewLoop b f d acc = some r := by
  induction a generalizing b f d acc with
  | zero =>
    cases d with
    | zero => cases b <;> simpa [FSM.previewLoop] using h
    | succ d => simp [FSM.previewLoop] at h
  | succ a ih =>
    cases d with
    | zero => cases b <;> simpa [FSM.previewLoop] using h
    | succ d =>
      cases b with
      | zero => omega
      | succ b =>
        unfold FSM.previewLoop at h ⊢
        split
        · next hc =>
          rw [if_pos hc] at h
          exact ih h (by omega)
        · next hc =>
          rw [if_neg hc] at h
          split
          · next hc' =>
            rw [if_pos hc'] at h
            exact h
          · next hc' =>
            rw [if_neg hc'] at h
            revert h
            cases f.shiftStance with
            | error e => exact id
            | ok g => exact fun h => ih h (by omega)

theorem previewStances_mono {a b : ℕ} {f : FSM} {d : ℕ} {r} (h : FSM.previewStances a f d = some r) (hab : a ≤ b) :
    FSM.previewStances b f d = some r := by
  unfold FSM.previewStances at h ⊢
  cases hl : FSM.previewLoop a f d [] with
  | none => rw [hl] at h; cases h
  | some x => rw [previewLoop_mono hl hab]; rw [hl] at h; exact h

theorem preview_unique {f : FSM} {d : ℕ} {r r' : Res (List Stance)} (h : PreviewReturns f d r) (h' : PreviewReturns f d r') :
    r = r' := by
  obtain ⟨a, ha⟩ := h
  obtain ⟨b, hb⟩ := h'
  have h1 := previewStances_mono ha (Nat.le_max_left a b)
  have h2 := previewStances_mono hb (Nat.le_max_right a b)
  rw [h1] at h2
  exact Option.some.inj h2

theorem form_of_preview {nan : ℝ} {junk : ℕ → Interval} {old : Horizon} {q : MPCParameters} {m : Model} {f : FSM}
    {w : WalkParameters} {l : List Stance} (h : PreviewReturns f (q.preview_horizon_length * q.sampling_time_ms) (.ok l))
    (r : Res (Bool × Horizon)) : FormReturns nan junk old q m f w r ↔ r = formWith nan junk old q m w l := by
  constructor
  · rintro ⟨fuel, hr⟩
    unfold form at hr
    cases hp : FSM.previewStances fuel f (q.preview_horizon_length * q.sampling_time_ms) with
    | none => rw [hp] at hr; cases hr
    | some x =>
      have := preview_unique h ⟨fuel, hp⟩
      subst this
      rw [hp] at hr
      exact (Option.some.inj hr).symm
  · rintro rfl
    obtain ⟨fuel, hp⟩ := h
    refine ⟨fuel, ?_⟩
    unfold form
    rw [hp]

end Humoto.Wpg
