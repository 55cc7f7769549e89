import Verif.Spec.Stance
import Verif.Lemmas.Level
import Mathlib.Algebra.BigOperators.Group.Finset.Basic
import Mathlib.Tactic.Ring
import Mathlib.Tactic.Linarith

/-!
# Lemmas on the stance machine
-/

namespace Humoto

open Spec

/-! ## The walk in closed form -/

/-- Single support number `j`, when number zero is `s`. -/
def sideAt (s : StanceType) (j : ℕ) : StanceType := if j % 2 = 0 then s else opposite s

theorem sideAt_single {s : StanceType} (h : IsSingle s) (j : ℕ) : IsSingle (sideAt s j) := by
  unfold sideAt
  split
  · exact h
  · rcases h with rfl | rfl
    · exact Or.inr rfl
    · exact Or.inl rfl

theorem sideAt_succ {s : StanceType} (h : IsSingle s) (j : ℕ) : sideAt s (j + 1) = opposite (sideAt s j) := by
  unfold sideAt
  rcases Nat.mod_two_eq_zero_or_one j with hj | hj
  · have : (j + 1) % 2 = 1 := by omega
    simp [hj, this]
  · have : (j + 1) % 2 = 0 := by omega
    rcases h with rfl | rfl <;> simp [hj, this, opposite]

/-- Type of stance number `k`. -/
def walkType (first side : StanceType) (n k : ℕ) : StanceType :=
  if k = 0 then first
  else if first = .ds ∧ n = 0 then .ds
  else if 2 * n + 2 ≤ k then .ds
  else if k % 2 = 1 then .tds
  else sideAt side (k / 2)

/-- Subtype of stance number `k`. -/
def walkSub (first : StanceType) (n k : ℕ) : StanceSubType :=
  if k = 0 then .first
  else if first = .ds ∧ n = 0 then .intermediate
  else if k = 2 * n + 2 then .last
  else .intermediate

/-- The stance before number `k` which is not transitional, or undefined. -/
def walkPrev (first side : StanceType) (n : ℕ) : ℕ → StanceType
  | 0 => .undefined
  | k + 1 => if walkType first side n k = .tds then walkPrev first side n k else walkType first side n k

/-- Duration of a stance by its type. -/
def dur (p : FSMParams) : StanceType → ℕ
  | .ds => p.lastMs
  | .tds => p.tdsMs
  | .lss => p.ssMs
  | .rss => p.ssMs
  | .undefined => 0

/-- Invariant of the machine at stance number `k`. -/
structure WalkInv (p : FSMParams) (side : StanceType) (n k : ℕ) (f : FSM) : Prop where
  type : f.cur.type = walkType p.firstStance side n k
  sub : f.cur.subtype = walkSub p.firstStance n k
  left : f.left = n - k / 2
  prev : (n ≠ 0 ∨ p.firstStance ≠ .ds) → (k = 0 ∨ k % 2 = 1) → k < 2 * n + 2 → f.cur.prevNonDs = sideAt side (k / 2)
  duration : f.cur.duration = if k = 0 then p.firstMs else dur p f.cur.type
  durs : ∀ t, f.params.getDurationMs t = p.getDurationMs t
  prevTds : f.cur.prevNonTds = walkPrev p.firstStance side n k

/-- Parameters with which the walk does not fail. -/
structure WalkOk (p : FSMParams) (side : StanceType) (n : ℕ) : Prop where
  first : p.firstStance = .ds ∨ IsSingle p.firstStance
  single : IsSingle p.firstStance → side = p.firstStance
  side : (n ≠ 0 ∨ p.firstStance ≠ .ds) → IsSingle side

theorem enter_eq {f : FSM} {t : StanceType} {d : ℕ} (h : f.params.getDurationMs t = .ok d) :
    f.enter t = .ok { f with cur := { f.cur with type := t, duration := d }, time := 0 } := by
  simp only [FSM.enter, h]
  rfl

theorem getDur (p : FSMParams) {t : StanceType} (h : t ≠ .undefined) : p.getDurationMs t = .ok (dur p t) := by
  cases t <;> first | rfl | exact absurd rfl h

theorem walk_step {p : FSMParams} {side : StanceType} {n k : ℕ} {f : FSM} (hp : WalkOk p side n)
    (h : WalkInv p side n k f) : ∃ g, f.shiftStance = .ok g ∧ WalkInv p side n (k + 1) g ∧ g.params = f.params := by
  have hdur : ∀ t, t ≠ .undefined → f.params.getDurationMs t = .ok (dur p t) := fun t ht => by
    rw [h.durs, getDur p ht]
  have ht := h.type
  by_cases hz : p.firstStance = .ds ∧ n = 0
  · -- no steps: the machine stays in the double support
    have ht' : f.cur.type = .ds := by
      rw [ht]; unfold walkType; split
      · exact hz.1
      · rfl
    have hl : f.left = 0 := by rw [h.left, hz.2]; simp
    refine ⟨{ f with
      tdsStarted := true
      cur := { f.cur with subtype := .intermediate, prevNonTds := .ds, type := .ds, duration := dur p .ds }
      time := 0 }, ?_, ?_, ?_⟩
    · simp only [FSM.shiftStance, ht', hl, if_true]
      rw [enter_eq (d := dur p .ds)]
      exact hdur .ds (by decide)
    · exact {
        type := by simp [walkType, hz]
        sub := by simp [walkSub, hz]
        left := by simp [hl, hz.2]
        prev := fun h1 _ _ => by
          rcases h1 with h1 | h1
          · exact absurd hz.2 h1
          · exact absurd hz.1 h1
        duration := by simp
        durs := h.durs
        prevTds := by simp only [walkPrev, ← h.type, ht', ← h.prevTds]; rfl }
    · rfl
  · have hz' : n ≠ 0 ∨ p.firstStance ≠ .ds := by
      by_cases hn : n = 0
      · exact Or.inr fun hd => hz ⟨hd, hn⟩
      · exact Or.inl hn
    have hside := hp.side hz'
    by_cases hk : 2 * n + 2 ≤ k
    · -- terminal double support
      have hk0 : k ≠ 0 := by omega
      have ht' : f.cur.type = .ds := by simp [ht, walkType, hz, hk0, hk]
      have hl : f.left = 0 := by rw [h.left]; omega
      refine ⟨{ f with
        tdsStarted := true
        cur := { f.cur with subtype := .intermediate, prevNonTds := .ds, type := .ds, duration := dur p .ds }
        time := 0 }, ?_, ?_, rfl⟩
      · simp only [FSM.shiftStance, ht', hl, if_true]
        rw [enter_eq (d := dur p .ds)]
        exact hdur .ds (by decide)
      · exact {
          type := by simp [walkType, hz, show 2 * n + 2 ≤ k + 1 by omega]
          sub := by simp only [walkSub, hz, if_false, show ¬ k + 1 = 2 * n + 2 by omega, show ¬ k + 1 = 0 by omega]
          left := by simp only [hl]; omega
          prev := fun _ _ h3 => by omega
          duration := by simp
          durs := h.durs
          prevTds := by simp only [walkPrev, ← h.type, ht', ← h.prevTds]; rfl }
    · by_cases hodd : k % 2 = 1
      · -- transitional double support
        have hk0 : k ≠ 0 := by omega
        have ht' : f.cur.type = .tds := by simp [ht, walkType, hz, hk0, hk, hodd]
        have hprev := h.prev hz' (Or.inr hodd) (by omega)
        by_cases hl : f.left = 0
        · have hkn : k + 1 = 2 * n + 2 := by have := h.left; omega
          refine ⟨{ f with
            tdsStarted := false
            cur := { f.cur with subtype := .last, type := .ds, duration := dur p .ds }
            time := 0 }, ?_, ?_, rfl⟩
          · simp only [FSM.shiftStance, ht', hl, if_true]
            rw [enter_eq (d := dur p .ds)]
            exact hdur .ds (by decide)
          · exact {
              type := by simp [walkType, hz, show 2 * n + 2 ≤ k + 1 by omega]
              sub := by simp [walkSub, hz, hkn]
              left := by simp only [hl]; omega
              prev := fun _ _ h3 => by omega
              duration := by simp
              durs := h.durs
              prevTds := by simp only [walkPrev, ← h.type, ht', ← h.prevTds]; rfl }
        · have hln := h.left
          have hs1 := sideAt_succ hside (k / 2)
          have hsk := sideAt_single hside (k / 2)
          have hk2 : (k + 1) / 2 = k / 2 + 1 := by omega
          refine ⟨{ f with
            tdsStarted := false
            left := f.left - 1
            cur := { f.cur with
              subtype := .intermediate, type := sideAt side (k / 2 + 1), duration := dur p (sideAt side (k / 2 + 1)) }
            time := 0 }, ?_, ?_, rfl⟩
          · simp only [FSM.shiftStance, ht', hl, if_false, FSM.enterSingle, hprev]
            rcases hsk with hs | hs
            · rw [hs1, hs]
              simp only [if_true, opposite]
              rw [enter_eq (d := dur p .rss)]
              exact hdur .rss (by decide)
            · rw [hs1, hs]
              rw [if_neg (by decide), if_pos rfl, enter_eq (d := dur p .lss)]
              · rfl
              · exact hdur .lss (by decide)
          · exact {
              type := by
                simp only [walkType, hz, if_false, show ¬ 2 * n + 2 ≤ k + 1 by omega, show ¬ (k + 1) % 2 = 1 by omega,
                  show ¬ k + 1 = 0 by omega, hk2]
              sub := by simp only [walkSub, hz, if_false, show ¬ k + 1 = 2 * n + 2 by omega, show ¬ k + 1 = 0 by omega]
              left := by simp only [hk2]; omega
              prev := fun _ h2 _ => by omega
              duration := by simp
              durs := h.durs
              prevTds := by simp only [walkPrev, ← h.type, ht', ← h.prevTds]; rfl }
      · -- single support or the initial double support
        by_cases hd : k = 0 ∧ p.firstStance = .ds
        · have ht' : f.cur.type = .ds := by simp [ht, walkType, hd]
          have hn : n ≠ 0 := fun hn => hz ⟨hd.2, hn⟩
          have hl : f.left ≠ 0 := by rw [h.left, hd.1]; simpa using hn
          have hprev := h.prev hz' (Or.inl hd.1) (by omega)
          refine ⟨{ f with
            tdsStarted := true
            cur := { f.cur with subtype := .intermediate, prevNonTds := .ds, type := .tds, duration := dur p .tds }
            time := 0 }, ?_, ?_, rfl⟩
          · simp only [FSM.shiftStance, ht', hl, if_false]
            rw [enter_eq (d := dur p .tds)]
            exact hdur .tds (by decide)
          · exact {
              type := by simp [walkType, hz, hd.1]
              sub := by simp [walkSub, hz, hd.1]
              left := by simp only [h.left, hd.1]
              prev := fun _ _ _ => by simp only [hprev, hd.1]
              duration := by simp
              durs := h.durs
              prevTds := by simp only [walkPrev, ← h.type, ht', ← h.prevTds]; rfl }
        · have ht' : f.cur.type = sideAt side (k / 2) := by
            rw [ht]
            unfold walkType
            split
            · rename_i hk0
              subst hk0
              have hs : IsSingle p.firstStance := by
                rcases hp.first with h1 | h1
                · exact absurd ⟨rfl, h1⟩ hd
                · exact h1
              have := hp.single hs
              simp [sideAt, this]
            · rfl
          have hsk := sideAt_single hside (k / 2)
          have hk2 : (k + 1) / 2 = k / 2 := by omega
          refine ⟨{ f with
            tdsStarted := true
            cur := { f.cur with
              subtype := .intermediate, prevNonDs := sideAt side (k / 2), prevNonTds := sideAt side (k / 2),
              type := .tds, duration := dur p .tds }
            time := 0 }, ?_, ?_, rfl⟩
          · rcases hsk with hs | hs <;>
            · simp only [FSM.shiftStance, ht', hs]
              rw [enter_eq (d := dur p .tds)]
              exact hdur .tds (by decide)
          · exact {
              type := by
                simp [walkType, hz, show ¬ 2 * n + 2 ≤ k + 1 by omega, show (k + 1) % 2 = 1 by omega]
              sub := by simp only [walkSub, hz, if_false, show ¬ k + 1 = 2 * n + 2 by omega, show ¬ k + 1 = 0 by omega]
              left := by rw [hk2]; exact h.left
              prev := fun _ _ _ => by simp only [hk2]
              duration := by simp
              durs := h.durs
              prevTds := by
                simp only [walkPrev, ← h.type, ht']
                rw [if_neg (by rcases hsk with e | e <;> rw [e] <;> decide)] }

/-- The machine after `k` transitions; a machine which fails stays where it is. -/
def states (f : FSM) : ℕ → FSM
  | 0 => f
  | k + 1 =>
    match (states f k).shiftStance with
    | .ok g => g
    | .error _ => states f k

theorem states_run {p : FSMParams} {side : StanceType} {n : ℕ} {f : FSM} (hp : WalkOk p side n)
    (h : WalkInv p side n 0 f) : Run f (states f) ∧ ∀ k, WalkInv p side n k (states f k) := by
  have hI : ∀ k, WalkInv p side n k (states f k) := by
    intro k
    induction k with
    | zero => exact h
    | succ k ih =>
      obtain ⟨g, hg, hi, -⟩ := walk_step hp ih
      simp only [states, hg]
      exact hi
  refine ⟨⟨rfl, fun k => ?_⟩, hI⟩
  obtain ⟨g, hg, -⟩ := walk_step hp (hI k)
  rw [hg]
  simp only [states, hg]

theorem run_unique {f : FSM} {s s' : ℕ → FSM} (h : Run f s) (h' : Run f s') : s = s' := by
  funext k
  induction k with
  | zero => rw [h.1, h'.1]
  | succ k ih =>
    have := h.2 k
    rw [ih, h'.2 k] at this
    exact (Except.ok.inj this).symm

/-- The closed form is a legal walk. -/
theorem walkType_legal {p : FSMParams} {side : StanceType} {n : ℕ} (hp : WalkOk p side n) :
    LegalWalk p.firstStance (walkType p.firstStance side n) := by
  by_cases hz : p.firstStance = .ds ∧ n = 0
  · have hw : ∀ k, walkType p.firstStance side n k = .ds := by
      intro k
      unfold walkType
      split
      · exact hz.1
      · rfl
    have hns : ¬ IsSingle StanceType.ds := by decide
    exact {
      starts := by rw [hw, hz.1]
      afterSingle := fun k hk => by rw [hw] at hk; exact absurd hk hns
      afterTransition := fun k hk => by rw [hw] at hk; cases hk
      alternates := fun k hk => by rw [hw] at hk; exact absurd hk hns
      terminal := ⟨0, fun k _ => hw k, fun k h1 h2 => by omega⟩
      defined := fun k => by rw [hw]; decide }
  · have hz' : n ≠ 0 ∨ p.firstStance ≠ .ds := by
      by_cases hn : n = 0
      · exact Or.inr fun hd => hz ⟨hd, hn⟩
      · exact Or.inl hn
    have hside := hp.side hz'
    have h0 : walkType p.firstStance side n 0 = p.firstStance := by simp [walkType]
    have hodd : ∀ k, k % 2 = 1 → k < 2 * n + 2 → walkType p.firstStance side n k = .tds := fun k h1 h2 => by
      simp [walkType, hz, show k ≠ 0 by omega, h1, show ¬ 2 * n + 2 ≤ k by omega]
    have heven : ∀ k, k ≠ 0 → k % 2 = 0 → k < 2 * n + 2 → walkType p.firstStance side n k = sideAt side (k / 2) :=
      fun k h0 h1 h2 => by simp [walkType, hz, h0, h1, show ¬ 2 * n + 2 ≤ k by omega]
    have hend : ∀ k, 2 * n + 2 ≤ k → walkType p.firstStance side n k = .ds := fun k h1 => by
      simp [walkType, hz, show k ≠ 0 by omega, h1]
    have htds : ¬ IsSingle StanceType.tds := by decide
    have hds : ¬ IsSingle StanceType.ds := by decide
    have hnot : ∀ {t}, IsSingle t → t ≠ .ds ∧ t ≠ .tds ∧ t ≠ .undefined := by
      rintro t (rfl | rfl) <;> decide
    -- single supports are at even positions before the end
    have hpos : ∀ k, IsSingle (walkType p.firstStance side n k) → k % 2 = 0 ∧ k < 2 * n + 2 := by
      intro k hk
      by_cases h1 : 2 * n + 2 ≤ k
      · rw [hend k h1] at hk; exact absurd hk hds
      · by_cases h2 : k % 2 = 1
        · rw [hodd k h2 (by omega)] at hk; exact absurd hk htds
        · omega
    have hval : ∀ k, IsSingle (walkType p.firstStance side n k) → walkType p.firstStance side n k = sideAt side (k / 2) := by
      intro k hk
      by_cases h1 : k = 0
      · subst h1
        rw [h0] at hk ⊢
        simp [sideAt, hp.single hk]
      · exact heven k h1 (hpos k hk).1 (hpos k hk).2
    exact {
      starts := h0
      afterSingle := fun k hk => by
        obtain ⟨h1, h2⟩ := hpos k hk
        exact hodd (k + 1) (by omega) (by omega)
      afterTransition := fun k hk => by
        have hk0 : k % 2 = 1 ∧ k < 2 * n + 2 := by
          by_cases h1 : 2 * n + 2 ≤ k
          · rw [hend k h1] at hk; cases hk
          · by_cases h2 : k = 0
            · subst h2
              rw [h0] at hk
              rcases hp.first with h3 | h3
              · rw [h3] at hk; cases hk
              · exact absurd hk (hnot h3).2.1
            · by_cases h3 : k % 2 = 1
              · omega
              · rw [heven k h2 (by omega) (by omega)] at hk
                exact absurd hk (hnot (sideAt_single hside _)).2.1
        by_cases h1 : 2 * n + 2 ≤ k + 1
        · exact Or.inr (hend _ h1)
        · rw [heven (k + 1) (by omega) (by omega) (by omega)]
          exact Or.inl (sideAt_single hside _)
      alternates := fun k hk hk' => by
        rw [hval k hk, hval (k + 2) hk', show (k + 2) / 2 = k / 2 + 1 by omega]
        exact sideAt_succ hside _
      terminal := ⟨2 * n + 2, hend, fun k h1 h2 => by
        by_cases h3 : k % 2 = 1
        · rw [hodd k h3 h2]; decide
        · rw [heven k (by omega) (by omega) h2]; exact (hnot (sideAt_single hside _)).1⟩
      defined := fun k => by
        by_cases h1 : 2 * n + 2 ≤ k
        · rw [hend k h1]; decide
        · by_cases h2 : k = 0
          · subst h2
            rw [h0]
            rcases hp.first with h3 | h3
            · rw [h3]; decide
            · exact (hnot h3).2.2
          · by_cases h3 : k % 2 = 1
            · rw [hodd k h3 (by omega)]; decide
            · rw [heven k h2 (by omega) (by omega)]; exact (hnot (sideAt_single hside _)).2.2 }

theorem singles_succ (w : ℕ → StanceType) (N : ℕ) :
    singles w (N + 1) = singles w N + if IsSingle (w N) then 1 else 0 := by
  unfold singles
  rw [Finset.range_add_one, Finset.filter_insert]
  split
  · rw [Finset.card_insert_of_notMem (by simp)]
  · rfl

/-- Number of single supports of the closed form. -/
theorem walkType_singles {p : FSMParams} {side : StanceType} {n : ℕ} (hp : WalkOk p side n) (k : ℕ) :
    singles (walkType p.firstStance side n) (k + 1) =
      min (k / 2) n + if IsSingle p.firstStance then 1 else 0 := by
  induction k with
  | zero =>
    rw [singles_succ]
    have h0 : singles (walkType p.firstStance side n) 0 = 0 := rfl
    rw [h0]
    simp [walkType]
  | succ k ih =>
    rw [singles_succ, ih]
    by_cases hz : p.firstStance = .ds ∧ n = 0
    · have : walkType p.firstStance side n (k + 1) = .ds := by simp [walkType, hz]
      rw [this, if_neg (show ¬ IsSingle StanceType.ds by decide), hz.2]
      simp
    · have hz' : n ≠ 0 ∨ p.firstStance ≠ .ds := by
        by_cases hn : n = 0
        · exact Or.inr fun hd => hz ⟨hd, hn⟩
        · exact Or.inl hn
      have hside := hp.side hz'
      by_cases h1 : 2 * n + 2 ≤ k + 1
      · have : walkType p.firstStance side n (k + 1) = .ds := by simp [walkType, hz, h1]
        rw [this, if_neg (show ¬ IsSingle StanceType.ds by decide)]
        have h2 : min (k / 2) n = n := by omega
        have h3 : min ((k + 1) / 2) n = n := by omega
        rw [h2, h3]
        omega
      · by_cases h2 : (k + 1) % 2 = 1
        · have : walkType p.firstStance side n (k + 1) = .tds := by simp [walkType, hz, h1, h2]
          rw [this, if_neg (show ¬ IsSingle StanceType.tds by decide)]
          have h3 : (k + 1) / 2 = k / 2 := by omega
          rw [h3]
          omega
        · have : walkType p.firstStance side n (k + 1) = sideAt side ((k + 1) / 2) := by simp [walkType, hz, h1, h2]
          rw [this, if_pos (sideAt_single hside _)]
          have h3 : (k + 1) / 2 = k / 2 + 1 := by omega
          have h4 : min (k / 2 + 1) n = min (k / 2) n + 1 := by omega
          rw [h3, h4]
          omega

/-- Accepted parameters start the walk. -/
theorem finalize_inv {c : Stance} {p : FSMParams} {f : FSM} (h : FSM.finalize c p = .ok f)
    (hu : p.firstStance = .ds → p.firstSsType = .undefined → p.numSteps = 0) :
    ∃ side, WalkOk p side p.numSteps ∧ WalkInv p side p.numSteps 0 f ∧
      (p.firstStance = .ds → p.numSteps ≠ 0 → side = opposite p.firstSsType ∧ IsSingle p.firstSsType) ∧ f.time = 0 := by
  rw [FSM.finalize, bind_eq_ok] at h
  obtain ⟨_, -, h⟩ := h
  rw [bind_eq_ok] at h
  obtain ⟨b, hb, h⟩ := h
  have hf := Except.ok.inj h
  have mk : ∀ side, (p.numSteps ≠ 0 ∨ p.firstStance ≠ .ds → b.1 = side) → (∀ t, b.2.getDurationMs t = p.getDurationMs t) →
      WalkInv p side p.numSteps 0 f := by
    intro side h1 h2
    rw [← hf]
    exact {
      type := by simp [walkType]
      sub := by simp [walkSub]
      left := by simp
      prev := fun h3 _ _ => by simp [sideAt, h1 h3]
      duration := by simp
      durs := h2
      prevTds := by simp [walkPrev] }
  have htime : f.time = 0 := by rw [← hf]
  unfold FSM.beforeFirst at hb
  cases h1 : p.firstStance <;> rw [h1] at hb hu <;> simp only at hb
  · cases hb
  · -- double support
    unfold FSM.beforeDS at hb
    cases h2 : p.firstSsType <;> rw [h2] at hb hu <;> simp only at hb
    · -- undefined
      have hn := hu rfl rfl
      have hb := Except.ok.inj hb
      refine ⟨.undefined, ⟨Or.inl h1, ?_, ?_⟩, mk _ ?_ ?_, ?_, htime⟩
      · intro h3; rw [h1] at h3; exact absurd h3 (by decide)
      · rintro (h3 | h3)
        · exact absurd hn h3
        · exact absurd h1 h3
      · intro _; rw [← hb]
      · intro t; rw [← hb]; cases t <;> rfl
      · intro _ h3; exact absurd hn h3
    · cases hb
    · have hb := Except.ok.inj hb
      refine ⟨.rss, ⟨Or.inl h1, ?_, fun _ => Or.inr rfl⟩, mk _ (fun _ => by rw [← hb]) (fun t => by rw [← hb]), ?_, htime⟩
      · intro h3; rw [h1] at h3; exact absurd h3 (by decide)
      · intro _ _; exact ⟨rfl, Or.inl rfl⟩
    · have hb := Except.ok.inj hb
      refine ⟨.lss, ⟨Or.inl h1, ?_, fun _ => Or.inl rfl⟩, mk _ (fun _ => by rw [← hb]) (fun t => by rw [← hb]), ?_, htime⟩
      · intro h3; rw [h1] at h3; exact absurd h3 (by decide)
      · intro _ _; exact ⟨rfl, Or.inr rfl⟩
    · cases hb
  · have hb := Except.ok.inj hb
    refine ⟨.lss, ⟨Or.inr (Or.inl h1), fun _ => h1.symm, fun _ => Or.inl rfl⟩,
      mk _ (fun _ => by rw [← hb]) (fun t => by rw [← hb]), fun h3 => (by cases h3), htime⟩
  · have hb := Except.ok.inj hb
    refine ⟨.rss, ⟨Or.inr (Or.inr h1), fun _ => h1.symm, fun _ => Or.inr rfl⟩,
      mk _ (fun _ => by rw [← hb]) (fun t => by rw [← hb]), fun h3 => (by cases h3), htime⟩
  · cases hb

end Humoto
