import Verif.Lemmas.Stance
import Mathlib.Algebra.BigOperators.Intervals

/-!
# Lemmas on time shifts and previews of the stance machine
-/

namespace Humoto

open Spec

theorem shiftStance_indep (f : FSM) (b : Bool) (t : ℕ) :
    ({ f with tdsStarted := b, time := t } : FSM).shiftStance = f.shiftStance := by
  unfold FSM.shiftStance FSM.enterSingle FSM.enter
  rfl

theorem shiftStance_time {f g : FSM} (h : f.shiftStance = .ok g) : g.time = 0 ∧ g.params = f.params := by
  have he : ∀ {f g : FSM} {t : StanceType}, f.enter t = .ok g → g.time = 0 ∧ g.params = f.params := by
    intro f g t h
    rw [FSM.enter, bind_eq_ok] at h
    obtain ⟨d, -, h⟩ := h
    rw [← Except.ok.inj h]
    exact ⟨rfl, rfl⟩
  unfold FSM.shiftStance at h
  cases ht : f.cur.type <;> simp only [ht] at h
  · cases h
  · split at h
    · exact (have := he h; this)
    · exact (have := he h; this)
  · exact (have := he h; this)
  · exact (have := he h; this)
  · split at h
    · exact (have := he h; this)
    · unfold FSM.enterSingle at h
      split at h
      · exact (have := he h; this)
      · split at h
        · exact (have := he h; this)
        · cases h

/-! ## Fuel -/

theorem shiftTime_mono {n m : ℕ} {f : FSM} {t : ℕ} {r : Res FSM} (h : FSM.shiftTime n f t = some r) (hm : n ≤ m) :
    FSM.shiftTime m f t = some r := by
  induction n generalizing m f t with
  | zero =>
    cases t with
    | zero => simpa [FSM.shiftTime] using h
    | succ t => simp [FSM.shiftTime] at h
  | succ n ih =>
    cases t with
    | zero => simpa [FSM.shiftTime] using h
    | succ t =>
      cases m with
      | zero => omega
      | succ m =>
        unfold FSM.shiftTime at h ⊢
        split
        · rename_i hc
          rw [if_pos hc] at h
          exact ih h (by omega)
        · rename_i hc
          rw [if_neg hc] at h
          revert h
          cases FSM.shiftStance _ with
          | error e => exact id
          | ok g => exact fun h => ih h (by omega)

theorem returns_unique {f : FSM} {t : ℕ} {r r' : Res FSM} (h : Returns f t r) (h' : Returns f t r') : r = r' := by
  obtain ⟨n, h⟩ := h
  obtain ⟨m, h'⟩ := h'
  have h1 := shiftTime_mono h (Nat.le_max_left n m)
  have h2 := shiftTime_mono h' (Nat.le_max_right n m)
  rw [h1] at h2
  exact Option.some.inj h2

theorem returns_zero {f : FSM} {r : Res FSM} : Returns f 0 r ↔ r = .ok f := by
  constructor
  · rintro ⟨n, h⟩
    cases n <;> simpa [FSM.shiftTime, eq_comm] using h
  · rintro rfl
    exact ⟨0, rfl⟩

theorem returns_inside {f : FSM} {t : ℕ} {r : Res FSM} (ht : 0 < t) (h : f.time + t < f.cur.duration) :
    Returns f t r ↔ r = .ok { f with tdsStarted := false, time := f.time + t } := by
  obtain ⟨t, rfl⟩ : ∃ k, t = k + 1 := ⟨t - 1, by omega⟩
  constructor
  · rintro ⟨n, hr⟩
    cases n with
    | zero => simp [FSM.shiftTime] at hr
    | succ n =>
      unfold FSM.shiftTime at hr
      rw [if_pos h] at hr
      exact returns_zero.mp ⟨n, hr⟩
  · rintro rfl
    refine ⟨1, ?_⟩
    unfold FSM.shiftTime
    rw [if_pos h]
    rfl

theorem returns_outside {f : FSM} {t : ℕ} {r : Res FSM} (ht : 0 < t) (h : ¬ f.time + t < f.cur.duration) :
    Returns f t r ↔
      (∃ e, f.shiftStance = .error e ∧ r = .error e) ∨
      ∃ g, f.shiftStance = .ok g ∧ Returns g (t - (f.cur.duration - f.time)) r := by
  obtain ⟨t, rfl⟩ : ∃ k, t = k + 1 := ⟨t - 1, by omega⟩
  have hi := shiftStance_indep f false f.time
  constructor
  · rintro ⟨n, hr⟩
    cases n with
    | zero => simp [FSM.shiftTime] at hr
    | succ n =>
      unfold FSM.shiftTime at hr
      rw [if_neg h, hi] at hr
      cases hs : f.shiftStance with
      | error e =>
        rw [hs] at hr
        exact Or.inl ⟨e, rfl, (Option.some.inj hr).symm⟩
      | ok g =>
        rw [hs] at hr
        exact Or.inr ⟨g, rfl, n, hr⟩
  · rintro (⟨e, hs, rfl⟩ | ⟨g, hs, n, hr⟩)
    · refine ⟨1, ?_⟩
      unfold FSM.shiftTime
      rw [if_neg h, hi, hs]
    · refine ⟨n + 1, ?_⟩
      unfold FSM.shiftTime
      rw [if_neg h, hi, hs]
      exact hr

/-- The first part of a shift. -/
theorem returns_add {f g : FSM} {a b : ℕ} {r : Res FSM} (h : Returns f a (.ok g)) :
    Returns g b r ↔ Returns f (a + b) r := by
  obtain ⟨n, h⟩ := h
  induction n generalizing f a with
  | zero =>
    cases a with
    | zero =>
      have : f = g := by simpa [FSM.shiftTime] using h
      rw [this, Nat.zero_add]
    | succ a => simp [FSM.shiftTime] at h
  | succ n ih =>
    by_cases ha : a = 0
    · subst ha
      have := returns_zero.mp ⟨_, h⟩
      rw [Except.ok.inj this, Nat.zero_add]
    · have ha' : 0 < a := by omega
      by_cases hc : f.time + a < f.cur.duration
      · have hg := Except.ok.inj ((returns_inside ha' hc).mp ⟨_, h⟩)
        by_cases hb : b = 0
        · subst hb
          rw [returns_zero, Nat.add_zero, returns_inside ha' hc, hg]
        · by_cases hc' : f.time + (a + b) < f.cur.duration
          · rw [returns_inside (by omega) hc', hg, returns_inside (by omega) (by simpa using by omega)]
            simp only [Nat.add_assoc]
          · rw [returns_outside (by omega) hc', hg, returns_outside (by omega) (by simpa using by omega),
              shiftStance_indep]
            have : b - (f.cur.duration - (f.time + a)) = a + b - (f.cur.duration - f.time) := by omega
            simp only [this]
      · obtain ⟨a, rfl⟩ : ∃ k, a = k + 1 := ⟨a - 1, by omega⟩
        unfold FSM.shiftTime at h
        rw [if_neg hc, shiftStance_indep f false f.time] at h
        cases hs : f.shiftStance with
        | error e => rw [hs] at h; simp at h
        | ok g1 =>
          rw [hs] at h
          rw [ih h, returns_outside (f := f) (by omega) (by omega)]
          have he : a + 1 + b - (f.cur.duration - f.time) = a + 1 - (f.cur.duration - f.time) + b := by omega
          rw [he]
          constructor
          · intro hr
            exact Or.inr ⟨g1, hs, hr⟩
          · rintro (⟨e, h1, -⟩ | ⟨g2, h1, hr⟩)
            · rw [hs] at h1; cases h1
            · rw [hs] at h1
              rw [Except.ok.inj h1]
              exact hr

theorem returns_add_error {f : FSM} {a b : ℕ} {e : Fault} (h : Returns f a (.error e)) :
    Returns f (a + b) (.error e) := by
  obtain ⟨n, h⟩ := h
  induction n generalizing f a with
  | zero => cases a <;> simp [FSM.shiftTime] at h
  | succ n ih =>
    cases a with
    | zero => simp [FSM.shiftTime] at h
    | succ a =>
      by_cases hc : f.time + (a + 1) < f.cur.duration
      · have := (returns_inside (by omega) hc).mp ⟨_, h⟩
        cases this
      · unfold FSM.shiftTime at h
        rw [if_neg hc, shiftStance_indep f false f.time] at h
        rw [returns_outside (by omega) (by omega)]
        cases hs : f.shiftStance with
        | error e' =>
          rw [hs] at h
          have := Option.some.inj h
          exact Or.inl ⟨e', rfl, this.symm⟩
        | ok g1 =>
          rw [hs] at h
          have he : a + 1 + b - (f.cur.duration - f.time) = a + 1 - (f.cur.duration - f.time) + b := by omega
          exact Or.inr ⟨g1, rfl, by rw [he]; exact ih h⟩

/-! ## Conservation of time -/

/-- Prepend a state to a run. -/
def consRun (f : FSM) (s : ℕ → FSM) : ℕ → FSM
  | 0 => f
  | k + 1 => s k

theorem consRun_run {f g : FSM} {s : ℕ → FSM} {m : ℕ} (hs : f.shiftStance = .ok g) (h : RunTo g s m) :
    RunTo f (consRun f s) (m + 1) := by
  refine ⟨rfl, fun k hk => ?_⟩
  cases k with
  | zero => show f.shiftStance = .ok (s 0); rw [h.1]; exact hs
  | succ k => exact h.2 k (by omega)

theorem returns_conserve {f g : FSM} {a : ℕ} (ht : f.time ≤ f.cur.duration) (h : Returns f a (.ok g)) :
    ∃ s k, RunTo f s k ∧ g.cur = (s k).cur ∧ g.left = (s k).left ∧ g.params = f.params ∧
      f.time + a = (∑ i ∈ Finset.range k, (s i).cur.duration) + g.time ∧
      (0 < a → g.time < g.cur.duration ∨ g.time = 0) := by
  obtain ⟨n, h⟩ := h
  induction n generalizing f a with
  | zero =>
    cases a with
    | zero =>
      have : f = g := by simpa [FSM.shiftTime] using h
      subst this
      exact ⟨fun _ => f, 0, ⟨rfl, fun k hk => by omega⟩, rfl, rfl, rfl, by simp, by simp⟩
    | succ a => simp [FSM.shiftTime] at h
  | succ n ih =>
    by_cases ha : a = 0
    · subst ha
      have := Except.ok.inj (returns_zero.mp ⟨_, h⟩)
      subst this
      exact ⟨fun _ => g, 0, ⟨rfl, fun k hk => by omega⟩, rfl, rfl, rfl, by simp, by simp⟩
    · have ha' : 0 < a := by omega
      by_cases hc : f.time + a < f.cur.duration
      · have hg := Except.ok.inj ((returns_inside ha' hc).mp ⟨_, h⟩)
        subst hg
        exact ⟨fun _ => f, 0, ⟨rfl, fun k hk => by omega⟩, rfl, rfl, rfl, by simp, fun _ => Or.inl hc⟩
      · obtain ⟨a, rfl⟩ : ∃ k, a = k + 1 := ⟨a - 1, by omega⟩
        unfold FSM.shiftTime at h
        rw [if_neg hc, shiftStance_indep f false f.time] at h
        cases hs : f.shiftStance with
        | error e => rw [hs] at h; simp at h
        | ok g1 =>
          rw [hs] at h
          obtain ⟨ht1, hp1⟩ := shiftStance_time hs
          obtain ⟨s, k, hr, h1, h2, h3, h4, h5⟩ := ih (f := g1) (by omega) h
          refine ⟨consRun f s, k + 1, consRun_run hs hr, h1, h2, by rw [h3, hp1], ?_, fun _ => ?_⟩
          · rw [Finset.sum_range_succ']
            show _ = (∑ i ∈ Finset.range k, (s i).cur.duration) + f.cur.duration + g.time
            omega
          · by_cases h0 : a + 1 - (f.cur.duration - f.time) = 0
            · rw [h0] at h
              have := Except.ok.inj (returns_zero.mp ⟨_, h⟩)
              rw [this]
              exact Or.inr ht1
            · exact h5 (by omega)

/-! ## StanceReachable states -/

theorem runTo_inv {p : FSMParams} {side : StanceType} {n k m : ℕ} {f : FSM} {s : ℕ → FSM} (hp : WalkOk p side n)
    (h : WalkInv p side n k f) (hr : RunTo f s m) {i : ℕ} (hi : i ≤ m) : WalkInv p side n (k + i) (s i) := by
  induction i with
  | zero => rw [hr.1]; exact h
  | succ i ih =>
    obtain ⟨g, hg, hI, -⟩ := walk_step hp (ih (by omega))
    rw [hr.2 i (by omega)] at hg
    rw [Except.ok.inj hg]
    exact hI

/-- The invariant without the time. -/
theorem walkInv_of_same {p : FSMParams} {side : StanceType} {n k : ℕ} {f g : FSM} (h : WalkInv p side n k f)
    (h1 : g.cur = f.cur) (h2 : g.left = f.left) (h3 : g.params = f.params) :
    WalkInv p side n k g := by
  exact {
    type := by rw [h1]; exact h.type
    sub := by rw [h1]; exact h.sub
    left := by rw [h2]; exact h.left
    prev := by rw [h1]; exact h.prev
    duration := by rw [h1]; exact h.duration
    durs := by rw [h3]; exact h.durs
    prevTds := by rw [h1]; exact h.prevTds }

theorem runTo_params {f : FSM} {s : ℕ → FSM} {m : ℕ} (hr : RunTo f s m) {i : ℕ} (hi : i ≤ m) :
    (s i).params = f.params := by
  induction i with
  | zero => rw [hr.1]
  | succ i ih => rw [(shiftStance_time (hr.2 i (by omega))).2, ih (by omega)]

theorem reachable_time {c : Stance} {p : FSMParams} {f : FSM} (h : StanceReachable c p f) : f.time ≤ f.cur.duration := by
  induction h with
  | init h =>
    rw [FSM.finalize, bind_eq_ok] at h
    obtain ⟨_, -, h⟩ := h
    rw [bind_eq_ok] at h
    obtain ⟨b, -, h⟩ := h
    rw [← Except.ok.inj h]
    exact Nat.zero_le _
  | shiftStance _ h _ => rw [(shiftStance_time h).1]; exact Nat.zero_le _
  | @shiftTime f g t _ h ih =>
    by_cases ht : t = 0
    · subst ht
      rw [Except.ok.inj (returns_zero.mp h)]
      exact ih
    · obtain ⟨s, k, -, -, -, -, -, h5⟩ := returns_conserve ih h
      have := h5 (by omega)
      omega

theorem reachable_inv {c : Stance} {p : FSMParams} {f : FSM} (hu : Proper p) (h : StanceReachable c p f) :
    ∃ side k, WalkOk p side p.numSteps ∧ WalkInv p side p.numSteps k f := by
  induction h with
  | init h =>
    obtain ⟨side, h1, h2, -⟩ := finalize_inv h hu
    exact ⟨side, 0, h1, h2⟩
  | shiftStance _ h ih =>
    obtain ⟨side, k, h1, h2⟩ := ih
    obtain ⟨g, hg, h3, -⟩ := walk_step h1 h2
    rw [h] at hg
    rw [Except.ok.inj hg]
    exact ⟨side, k + 1, h1, h3⟩
  | shiftTime hr h ih =>
    obtain ⟨side, k, h1, h2⟩ := ih
    obtain ⟨s, m, h3, h4, h5, h6, -⟩ := returns_conserve (reachable_time hr) h
    have h7 := runTo_inv h1 h2 h3 (le_refl m)
    exact ⟨side, k + m, h1, walkInv_of_same h7 h4 h5 (by rw [h6, runTo_params h3 (le_refl m)])⟩

/-! ## Termination -/

theorem terminal_step {f : FSM} {L : ℕ} (h : Terminal f) (hd : f.params.getDurationMs .ds = .ok L) :
    ∃ g, f.shiftStance = .ok g ∧ Terminal g ∧ g.time = 0 ∧ g.cur.duration = L ∧ g.params = f.params := by
  refine ⟨{ f with
    tdsStarted := true
    cur := { f.cur with subtype := .intermediate, prevNonTds := .ds, type := .ds, duration := L }
    time := 0 }, ?_, ⟨rfl, h.2⟩, rfl, rfl, rfl⟩
  simp only [FSM.shiftStance, h.1, h.2, if_true]
  rw [enter_eq (d := L)]
  exact hd

/-- In the terminal stance of positive duration every shift returns. -/
theorem terminal_returns {f : FSM} {L t : ℕ} (h : Terminal f) (hd : f.params.getDurationMs .ds = .ok L) (hL : 0 < L) :
    ∃ g, Returns f t (.ok g) := by
  have key : ∀ t (f : FSM), Terminal f → f.params.getDurationMs .ds = .ok L → f.time = 0 → f.cur.duration = L →
      ∃ g, Returns f t (.ok g) := by
    intro t
    induction t using Nat.strong_induction_on with
    | _ t ih =>
      intro f h hd h0 hdur
      by_cases ht : t = 0
      · subst ht; exact ⟨f, returns_zero.mpr rfl⟩
      · by_cases hc : f.time + t < f.cur.duration
        · exact ⟨_, (returns_inside (by omega) hc).mpr rfl⟩
        · obtain ⟨g, hg, h1, h2, h3, h4⟩ := terminal_step h hd
          obtain ⟨r, hr⟩ := ih (t - (f.cur.duration - f.time)) (by omega) g h1 (by rw [h4]; exact hd) h2 h3
          exact ⟨r, (returns_outside (by omega) hc).mpr (Or.inr ⟨g, hg, hr⟩)⟩
  by_cases ht : t = 0
  · subst ht; exact ⟨f, returns_zero.mpr rfl⟩
  · by_cases hc : f.time + t < f.cur.duration
    · exact ⟨_, (returns_inside (by omega) hc).mpr rfl⟩
    · obtain ⟨g, hg, h1, h2, h3, h4⟩ := terminal_step h hd
      obtain ⟨r, hr⟩ := key (t - (f.cur.duration - f.time)) g h1 (by rw [h4]; exact hd) h2 h3
      exact ⟨r, (returns_outside (by omega) hc).mpr (Or.inr ⟨g, hg, hr⟩)⟩

/-- In the terminal stance of zero duration no shift returns. -/
theorem terminal_hangs {f : FSM} {t : ℕ} {r : Res FSM} (h : Terminal f) (hd : f.params.getDurationMs .ds = .ok 0)
    (ht : 0 < t) (h0 : f.cur.duration = 0) : ¬ Returns f t r := by
  rintro ⟨n, hr⟩
  induction n generalizing f with
  | zero =>
    obtain ⟨t, rfl⟩ : ∃ k, t = k + 1 := ⟨t - 1, by omega⟩
    simp [FSM.shiftTime] at hr
  | succ n ih =>
    obtain ⟨t, rfl⟩ : ∃ k, t = k + 1 := ⟨t - 1, by omega⟩
    obtain ⟨g, hg, h1, h2, h3, h4⟩ := terminal_step h hd
    unfold FSM.shiftTime at hr
    rw [if_neg (by omega), shiftStance_indep f false f.time, hg] at hr
    have he : t + 1 - (f.cur.duration - f.time) = t + 1 := by omega
    simp only [he] at hr
    exact ih h1 (by rw [h4]; exact hd) h3 hr

theorem walkInv_terminal {p : FSMParams} {side : StanceType} {n k : ℕ} {f : FSM} (h : WalkInv p side n k f)
    (hk : 2 * n + 2 ≤ k) : Terminal f := by
  refine ⟨?_, ?_⟩
  · rw [h.type]
    simp [walkType, show k ≠ 0 by omega, hk]
  · rw [h.left]; omega

theorem walk_returns {p : FSMParams} {side : StanceType} {n k : ℕ} {f : FSM} (hp : WalkOk p side n)
    (h : WalkInv p side n k f) (hL : 0 < p.lastMs) (t : ℕ) : ∃ g, Returns f t (.ok g) := by
  by_cases hk : 2 * n + 2 ≤ k
  · exact terminal_returns (walkInv_terminal h hk) (h.durs .ds) hL
  · by_cases ht : t = 0
    · subst ht; exact ⟨f, returns_zero.mpr rfl⟩
    · by_cases hc : f.time + t < f.cur.duration
      · exact ⟨_, (returns_inside (by omega) hc).mpr rfl⟩
      · obtain ⟨g, hg, h1, -⟩ := walk_step hp h
        obtain ⟨r, hr⟩ := walk_returns hp h1 hL (t - (f.cur.duration - f.time))
        exact ⟨r, (returns_outside (by omega) hc).mpr (Or.inr ⟨g, hg, hr⟩)⟩
termination_by 2 * n + 2 - k

/-- With a terminal stance of zero duration a shift returns only if it does not go beyond the end of the walk. -/
theorem walk_returns_zero {p : FSMParams} {side : StanceType} {n k : ℕ} {f : FSM} (hp : WalkOk p side n)
    (h : WalkInv p side n k f) (hL : p.lastMs = 0) : ∃ A, ∀ t, (∃ r, Returns f t r) ↔ t ≤ A := by
  have hds : f.params.getDurationMs .ds = .ok 0 := by rw [h.durs, ← hL]; rfl
  by_cases hk : 2 * n + 2 ≤ k
  · have hT := walkInv_terminal h hk
    refine ⟨f.cur.duration - f.time, fun t => ?_⟩
    by_cases ht : t = 0
    · subst ht; exact ⟨fun _ => Nat.zero_le _, fun _ => ⟨_, returns_zero.mpr rfl⟩⟩
    · by_cases hc : f.time + t < f.cur.duration
      · exact ⟨fun _ => by omega, fun _ => ⟨_, (returns_inside (by omega) hc).mpr rfl⟩⟩
      · obtain ⟨g, hg, h1, h2, h3, h4⟩ := terminal_step hT hds
        constructor
        · rintro ⟨r, hr⟩
          rcases (returns_outside (by omega) hc).mp hr with ⟨e, he, -⟩ | ⟨g', hg', hr⟩
          · rw [hg] at he; cases he
          · rw [hg] at hg'
            obtain rfl := Except.ok.inj hg'
            by_contra hlt
            exact terminal_hangs h1 (by rw [h4]; exact hds) (by omega) h3 hr
        · intro hle
          have h0 : t - (f.cur.duration - f.time) = 0 := by omega
          exact ⟨_, (returns_outside (by omega) hc).mpr (Or.inr ⟨g, hg, by rw [h0]; exact returns_zero.mpr rfl⟩)⟩
  · obtain ⟨g, hg, h1, -⟩ := walk_step hp h
    obtain ⟨A, hA⟩ := walk_returns_zero hp h1 hL
    refine ⟨f.cur.duration - f.time + A, fun t => ?_⟩
    by_cases ht : t = 0
    · subst ht; exact ⟨fun _ => Nat.zero_le _, fun _ => ⟨_, returns_zero.mpr rfl⟩⟩
    · by_cases hc : f.time + t < f.cur.duration
      · exact ⟨fun _ => by omega, fun _ => ⟨_, (returns_inside (by omega) hc).mpr rfl⟩⟩
      · constructor
        · rintro ⟨r, hr⟩
          rcases (returns_outside (by omega) hc).mp hr with ⟨e, he, -⟩ | ⟨g', hg', hr⟩
          · rw [hg] at he; cases he
          · rw [hg] at hg'
            obtain rfl := Except.ok.inj hg'
            have := (hA _).mp ⟨r, hr⟩
            omega
        · intro hle
          obtain ⟨r, hr⟩ := (hA (t - (f.cur.duration - f.time))).mpr (by omega)
          exact ⟨r, (returns_outside (by omega) hc).mpr (Or.inr ⟨g, hg, hr⟩)⟩
termination_by 2 * n + 2 - k

/-! ## Preview -/

theorem previewEntry_eq (f : FSM) (d : ℕ) : f.previewEntry d = shown f (min (remaining f) d) := rfl

/-- Outcome of the loop of the preview. -/
def PreviewLoopPost (f : FSM) (d : ℕ) (acc : List Stance) : List Stance × FSM × Bool → Prop
  | (l, g, false) => ∃ (s : ℕ → FSM) (m x : ℕ), RunTo f s m ∧ g = s m ∧
      l = acc ++ ((List.range m).map (fun i => shown (s i) (remaining (s i))) ++ [shown (s m) x]) ∧
      (∑ i ∈ Finset.range m, remaining (s i)) + x = d ∧ 0 < x ∧ x ≤ remaining (s m) ∧ ∀ i < m, ¬ Terminal (s i)
  | (l, g, true) => ∃ (s : ℕ → FSM) (m : ℕ), RunTo f s m ∧ g = s m ∧
      l = acc ++ (List.range m).map (fun i => shown (s i) (remaining (s i))) ∧
      Terminal (s m) ∧ (∑ i ∈ Finset.range m, remaining (s i)) + remaining (s m) < d ∧ ∀ i < m, ¬ Terminal (s i)

theorem previewPost_cons {f g : FSM} {d : ℕ} {acc : List Stance} {r : List Stance × FSM × Bool}
    (hs : f.shiftStance = .ok g) (hd : remaining f < d) (hT : ¬ Terminal f)
    (h : PreviewLoopPost g (d - remaining f) (acc ++ [shown f (remaining f)]) r) : PreviewLoopPost f d acc r := by
  have hmap : ∀ (s : ℕ → FSM) (m : ℕ), (List.range (m + 1)).map (fun i => shown (consRun f s i) (remaining (consRun f s i))) =
      shown f (remaining f) :: (List.range m).map (fun i => shown (s i) (remaining (s i))) := by
    intro s m
    rw [List.range_succ_eq_map, List.map_cons, List.map_map]
    rfl
  have hsum : ∀ (s : ℕ → FSM) (m : ℕ), (∑ i ∈ Finset.range (m + 1), remaining (consRun f s i)) =
      (∑ i ∈ Finset.range m, remaining (s i)) + remaining f := by
    intro s m
    rw [Finset.sum_range_succ']
    rfl
  obtain ⟨l, g', b⟩ := r
  cases b with
  | false =>
    obtain ⟨s, m, x, h1, h2, h3, h4, h5, h6, h7⟩ := h
    refine ⟨consRun f s, m + 1, x, consRun_run hs h1, h2, ?_, ?_, h5, h6, ?_⟩
    · rw [h3, hmap]; simp [consRun]
    · rw [hsum]; omega
    · intro i hi
      cases i with
      | zero => exact hT
      | succ i => exact h7 i (by omega)
  | true =>
    obtain ⟨s, m, h1, h2, h3, h4, h5, h6⟩ := h
    refine ⟨consRun f s, m + 1, consRun_run hs h1, h2, ?_, h4, ?_, ?_⟩
    · rw [h3, hmap]; simp
    · rw [hsum]
      show _ + remaining (s m) < d
      omega
    · intro i hi
      cases i with
      | zero => exact hT
      | succ i => exact h6 i (by omega)

theorem previewLoop_inside (n : ℕ) {f : FSM} {d : ℕ} {acc : List Stance} (hd : 0 < d) (hc : f.time + d ≤ f.cur.duration) :
    FSM.previewLoop (n + 1) f d acc = some (.ok (acc ++ [f.previewEntry d], f, false)) := by
  obtain ⟨d, rfl⟩ : ∃ k, d = k + 1 := ⟨d - 1, by omega⟩
  unfold FSM.previewLoop
  rw [if_pos hc]
  cases n <;> rfl

theorem previewLoop_ok {p : FSMParams} {side : StanceType} {n k : ℕ} {f : FSM} (hp : WalkOk p side n)
    (h : WalkInv p side n k f) (ht : f.time ≤ f.cur.duration) {d : ℕ} (hd : 0 < d) (acc : List Stance) :
    ∃ fuel r, FSM.previewLoop fuel f d acc = some (.ok r) ∧ PreviewLoopPost f d acc r := by
  by_cases hc : f.time + d ≤ f.cur.duration
  · refine ⟨1, _, previewLoop_inside 0 hd hc, fun _ => f, 0, d, ⟨rfl, fun k hk => by omega⟩, rfl, ?_, by simp, hd, ?_,
      fun i hi => by omega⟩
    · rw [previewEntry_eq]
      have : min (remaining f) d = d := by unfold remaining; omega
      simp [this]
    · show d ≤ remaining f
      unfold remaining; omega
  · by_cases hT : f.left = 0 ∧ f.cur.type = .ds
    · refine ⟨1, (acc, f, true), ?_, fun _ => f, 0, ⟨rfl, fun k hk => by omega⟩, rfl, by simp, ⟨hT.2, hT.1⟩, ?_,
        fun i hi => by omega⟩
      · obtain ⟨d, rfl⟩ : ∃ k, d = k + 1 := ⟨d - 1, by omega⟩
        unfold FSM.previewLoop
        rw [if_neg hc, if_pos hT]
      · simp only [Finset.range_zero, Finset.sum_empty, remaining]
        omega
    · have hk : ¬ 2 * n + 2 ≤ k := fun hk => by
        have := walkInv_terminal h hk
        exact hT ⟨this.2, this.1⟩
      obtain ⟨g, hg, h1, -⟩ := walk_step hp h
      have hg0 := (shiftStance_time hg).1
      have hrem : remaining f < d := by unfold remaining; omega
      have hmin : min (remaining f) d = remaining f := by omega
      obtain ⟨fuel, r, hr, hpost⟩ := previewLoop_ok hp h1 (by omega) (d := d - remaining f) (by omega)
        (acc ++ [shown f (remaining f)])
      refine ⟨fuel + 1, r, ?_, previewPost_cons hg hrem (fun hT' => hT ⟨hT'.2, hT'.1⟩) hpost⟩
      obtain ⟨d, rfl⟩ : ∃ k, d = k + 1 := ⟨d - 1, by omega⟩
      unfold FSM.previewLoop
      rw [if_neg hc, if_neg hT, hg, previewEntry_eq, hmin]
      exact hr
termination_by 2 * n + 2 - k

theorem preview_ok {p : FSMParams} {side : StanceType} {n k : ℕ} {f : FSM} (hp : WalkOk p side n)
    (h : WalkInv p side n k f) (ht : f.time ≤ f.cur.duration) {d : ℕ} (hd : 0 < d) :
    ∃ l, PreviewReturns f d (.ok l) ∧ (CompletePreview f d l ∨ EndedPreview f d l) := by
  obtain ⟨fuel, ⟨l, g, b⟩, hr, hpost⟩ := previewLoop_ok hp h ht hd []
  have hret : ∀ r', FSM.previewFinish (l, g, b) = r' → PreviewReturns f d r' := by
    intro r' hr'
    refine ⟨fuel, ?_⟩
    unfold FSM.previewStances
    rw [hr]
    exact congrArg some hr'
  cases b with
  | true =>
    obtain ⟨s, m, h1, h2, h3, h4, h5, h6⟩ := hpost
    exact ⟨l, hret _ rfl, Or.inr ⟨s, m, h1, by simpa using h3, h4, h5, h6⟩⟩
  | false =>
    obtain ⟨s, m, x, h1, h2, h3, h4, h5, h6, h7⟩ := hpost
    rw [List.nil_append] at h3
    have hlast : l.getLast? = some (shown (s m) x) := by rw [h3]; simp
    by_cases htds : (s m).cur.type = .tds
    · obtain ⟨g', hg', -⟩ := walk_step hp (runTo_inv hp h h1 (le_refl m))
      refine ⟨l ++ [g'.previewExtra], hret _ ?_, Or.inl ⟨s, m, x, [g'.previewExtra], h1, by rw [h3], h4, h5, h6, h7,
        fun hn => absurd htds hn, fun _ => ⟨g', hg', rfl⟩⟩⟩
      simp only [FSM.previewFinish, hlast]
      rw [if_pos (show (shown (s m) x).type = .tds from htds), h2, FSM.leaveTDS, if_pos htds, hg']
    · refine ⟨l, hret _ ?_, Or.inl ⟨s, m, x, [], h1, by rw [h3]; simp, h4, h5, h6, h7, fun _ => rfl,
        fun hn => absurd hn htds⟩⟩
      simp only [FSM.previewFinish, hlast]
      rw [if_neg (show ¬ (shown (s m) x).type = .tds from htds)]

end Humoto
