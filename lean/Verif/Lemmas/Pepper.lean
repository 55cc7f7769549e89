import Verif.Spec.Pepper
import Verif.Lemmas.Constraints
import Mathlib.Tactic.Linarith
import Mathlib.Tactic.Ring
import Mathlib.Tactic.Push

/-!
# Lemmas about motions and horizons of Pepper
-/

namespace Humoto.Pepper

open Spec

set_option linter.unusedSectionVars false

variable {K : Type}

@[simp] theorem totalDuration_nil : totalDuration ([] : List (MotionParameters K)) = 0 := rfl
@[simp] theorem totalDuration_cons (m : MotionParameters K) (q : List (MotionParameters K)) :
    totalDuration (m :: q) = m.duration_ms + totalDuration q := by simp [totalDuration]
@[simp] theorem totalDuration_append (a b : List (MotionParameters K)) :
    totalDuration (a ++ b) = totalDuration a + totalDuration b := by simp [totalDuration]

theorem totalDuration_nonneg {q : List (MotionParameters K)} (h : ∀ m ∈ q, ProperMotion m) (hu : ∀ m ∈ q, ¬ Unlimited m) :
    0 ≤ totalDuration q := by
  induction q with
  | nil => simp
  | cons m q ih =>
    rw [totalDuration_cons]
    have h1 := ih (fun m hm => h m (by simp [hm])) (fun m hm => hu m (by simp [hm]))
    rcases h m (by simp) with h2 | ⟨h2, -⟩
    · exact absurd h2 (hu m (by simp))
    · omega

theorem inForce_nil {s : ℤ} {m : MotionParameters K} : ¬ InForce [] s m := by
  rintro ⟨b, a, h, -⟩
  simp at h

theorem inForce_cons {q : List (MotionParameters K)} {s : ℤ} {m0 m : MotionParameters K} :
    InForce (m0 :: q) s m ↔
      (0 < s ∧ m = m0 ∧ (Unlimited m0 ∨ s ≤ m0.duration_ms)) ∨ (¬ Unlimited m0 ∧ InForce q (s - m0.duration_ms) m) := by
  constructor
  · rintro ⟨b, a, h, h1, h2, h3⟩
    cases b with
    | nil =>
      simp only [List.nil_append, List.cons.injEq] at h
      obtain ⟨rfl, rfl⟩ := h
      simp only [totalDuration_nil, zero_add] at h2 h3
      exact Or.inl ⟨h2, rfl, h3⟩
    | cons b0 b =>
      simp only [List.cons_append, List.cons.injEq] at h
      obtain ⟨rfl, rfl⟩ := h
      rw [totalDuration_cons] at h2 h3
      refine Or.inr ⟨h1 m0 (by simp), b, a, rfl, fun x hx => h1 x (by simp [hx]), by omega, ?_⟩
      rcases h3 with h3 | h3
      · exact Or.inl h3
      · exact Or.inr (by omega)
  · rintro (⟨h1, rfl, h2⟩ | ⟨h1, b, a, rfl, h2, h3, h4⟩)
    · exact ⟨[], q, rfl, by simp, by simpa using h1, by simpa using h2⟩
    · refine ⟨m0 :: b, a, rfl, ?_, by rw [totalDuration_cons]; omega, ?_⟩
      · intro x hx
        rcases List.mem_cons.mp hx with rfl | hx
        · exact h1
        · exact h2 x hx
      · rw [totalDuration_cons]
        rcases h4 with h4 | h4
        · exact Or.inl h4
        · exact Or.inr (by omega)

theorem inForce_pos {q : List (MotionParameters K)} (hq : ∀ m ∈ q, ProperMotion m) {s : ℤ} {m : MotionParameters K}
    (h : InForce q s m) : 0 < s := by
  obtain ⟨b, a, rfl, h1, h2, -⟩ := h
  have := totalDuration_nonneg (q := b) (fun m hm => hq m (by simp [hm])) h1
  omega

theorem inForce_unique {q : List (MotionParameters K)} (hq : ∀ m ∈ q, ProperMotion m) {s : ℤ} {m m' : MotionParameters K}
    (h : InForce q s m) (h' : InForce q s m') : m = m' := by
  induction q generalizing s with
  | nil => exact absurd h inForce_nil
  | cons m0 q ih =>
    have hq' : ∀ m ∈ q, ProperMotion m := fun m hm => hq m (by simp [hm])
    rw [inForce_cons] at h h'
    rcases h with ⟨h1, rfl, h2⟩ | ⟨h1, h2⟩
    · rcases h' with ⟨-, rfl, -⟩ | ⟨h3, h4⟩
      · rfl
      · have := inForce_pos hq' h4
        rcases h2 with h2 | h2
        · exact absurd h2 h3
        · omega
    · rcases h' with ⟨-, rfl, h4⟩ | ⟨h3, h4⟩
      · have := inForce_pos hq' h2
        rcases h4 with h4 | h4
        · exact absurd h4 h1
        · omega
      · exact ih hq' h2 h4

theorem inForce_exists {q : List (MotionParameters K)} {s : ℤ} (hs : 0 < s) (hq : ∀ m ∈ q, ProperMotion m) :
    (∃ m, InForce q s m) ↔ LastsUntil q s := by
  induction q generalizing s with
  | nil =>
    constructor
    · rintro ⟨m, h⟩; exact absurd h inForce_nil
    · rintro (⟨m, h, -⟩ | h)
      · simp at h
      · simp at h; omega
  | cons m0 q ih =>
    have hq' : ∀ m ∈ q, ProperMotion m := fun m hm => hq m (by simp [hm])
    by_cases hu : Unlimited m0
    · exact ⟨fun _ => Or.inl ⟨m0, by simp, hu⟩, fun _ => ⟨m0, inForce_cons.mpr (Or.inl ⟨hs, rfl, Or.inl hu⟩)⟩⟩
    · by_cases hd : s ≤ m0.duration_ms
      · refine ⟨fun _ => ?_, fun _ => ⟨m0, inForce_cons.mpr (Or.inl ⟨hs, rfl, Or.inr hd⟩)⟩⟩
        by_cases hex : ∃ m ∈ q, Unlimited m
        · obtain ⟨m, hm, h⟩ := hex
          exact Or.inl ⟨m, by simp [hm], h⟩
        · have := totalDuration_nonneg hq' (fun m hm h => hex ⟨m, hm, h⟩)
          exact Or.inr (by rw [totalDuration_cons]; omega)
      · have := ih (s := s - m0.duration_ms) (by omega) hq'
        constructor
        · rintro ⟨m, h⟩
          rw [inForce_cons] at h
          rcases h with ⟨-, -, h | h⟩ | ⟨-, h⟩
          · exact absurd h hu
          · exact absurd h hd
          · rcases this.mp ⟨m, h⟩ with ⟨m', hm', h'⟩ | h'
            · exact Or.inl ⟨m', by simp [hm'], h'⟩
            · exact Or.inr (by rw [totalDuration_cons]; omega)
        · intro h
          have h2 : LastsUntil q (s - m0.duration_ms) := by
            rcases h with ⟨m', hm', h'⟩ | h'
            · rcases List.mem_cons.mp hm' with rfl | hm'
              · exact absurd h' hu
              · exact Or.inl ⟨m', hm', h'⟩
            · rw [totalDuration_cons] at h'
              exact Or.inr (by omega)
          obtain ⟨m, hm⟩ := this.mpr h2
          exact ⟨m, inForce_cons.mpr (Or.inr ⟨hu, hm⟩)⟩

/-! ## Forming of horizons -/

section form

variable [Field K] (tr : Trig K) (p : MPCParameters) (model : Model K)

theorem make_for (m : MotionParameters K) (theta : K) :
    IntervalFor tr p model m theta (Interval.make tr p m model (theta + m.base_angular_velocity * p.getSamplingTime)) :=
  ⟨rfl, rfl, rfl, rfl, rfl, rfl, rfl, rfl, rfl, rfl, rfl, rfl, rfl, rfl⟩

/-- The first `i` intervals are done, and `s.2` is the current orientation. -/
structure Filled (q : List (MotionParameters K)) (i : ℕ) (s : List (Interval K) × K) : Prop where
  length : s.1.length = p.preview_horizon_length
  done : ∀ k, k < i → ∃ iv m theta, s.1[k]? = some iv ∧ InForce q ((k + 1) * p.sampling_time_ms) m ∧
    StartsWith model s.1 k theta ∧ IntervalFor tr p model m theta iv
  theta : StartsWith model s.1 i s.2

variable {tr p model}

theorem initAt_filled {q : List (MotionParameters K)} {i : ℕ} {s : List (Interval K) × K} (h : Filled tr p model q i s)
    (hi : i < p.preview_horizon_length) {m : MotionParameters K} (hm : InForce q ((i + 1) * p.sampling_time_ms) m) :
    ∃ s', initAt tr p model m i s = .ok s' ∧ Filled tr p model q (i + 1) s' := by
  have hl : i < s.1.length := by rw [h.length]; exact hi
  refine ⟨_, by unfold initAt; rw [require_true hl]; rfl, ?_⟩
  have hget : ∀ k, k ≠ i → ∀ x, (s.1.set i x)[k]? = s.1[k]? := fun k hk x => List.getElem?_set_ne (Ne.symm hk)
  have hsw : ∀ k theta x, k ≤ i → StartsWith model s.1 k theta → StartsWith model (s.1.set i x) k theta := by
    intro k theta x hk hs
    cases k with
    | zero => exact hs
    | succ k =>
      obtain ⟨prev, h1, h2⟩ := hs
      exact ⟨prev, by rw [hget k (by omega)]; exact h1, h2⟩
  have hself : ∀ x, (s.1.set i x)[i]? = some x := fun x => by
    rw [List.getElem?_set_self hl]
  refine ⟨by simpa using h.length, ?_, ⟨_, hself _, rfl⟩⟩
  intro k hk
  by_cases hki : k = i
  · subst hki
    exact ⟨_, m, s.2, hself _, hm, hsw _ _ _ (le_refl _) h.theta, make_for tr p model m s.2⟩
  · obtain ⟨iv, m', theta, h1, h2, h3, h4⟩ := h.done k (by omega)
    exact ⟨iv, m', theta, by simp only [hget k hki]; exact h1, h2, hsw _ _ _ (by omega) h3, h4⟩

theorem fill_filled {q : List (MotionParameters K)} {i n : ℕ} {s : List (Interval K) × K} (h : Filled tr p model q i s)
    {m : MotionParameters K} (hn : i + n ≤ p.preview_horizon_length)
    (hm : ∀ j, j < n → InForce q ((i + j + 1 : ℕ) * p.sampling_time_ms) m) :
    ∃ s', forRange n s (fun s j => initAt tr p model m (i + j) s) = .ok s' ∧ Filled tr p model q (i + n) s' := by
  refine forRange_inv (fun j s => Filled tr p model q (i + j) s) h fun j s hj hs => ?_
  have := hm j hj
  push_cast at this
  exact initAt_filled hs (by omega) (by push_cast; exact this)

theorem Filled.horizon {q : List (MotionParameters K)} {s : List (Interval K) × K}
    (h : Filled tr p model q p.preview_horizon_length s) : HorizonFor tr p model q s.1 := by
  refine ⟨h.length, fun i iv hiv => ?_⟩
  have hi : i < s.1.length := by
    by_contra hc
    rw [List.getElem?_eq_none (by omega)] at hiv
    cases hiv
  obtain ⟨iv', m, theta, h1, h2, h3, h4⟩ := h.done i (by rw [← h.length]; exact hi)
  rw [hiv] at h1
  cases h1
  exact ⟨m, theta, h2, h3, h4⟩

theorem resizeIntervals_length (dflt : Interval K) (l : List (Interval K)) (n : ℕ) :
    (resizeIntervals dflt l n).length = n := by
  unfold resizeIntervals
  simp only [List.length_append, List.length_take, List.length_replicate]
  omega

theorem toSize_of {z : ℤ} (h0 : 0 ≤ z) (h1 : z < 2 ^ 64) : (toSize z : ℤ) = z := by
  unfold toSize
  rw [Int.emod_eq_of_lt h0 h1, Int.toNat_of_nonneg h0]

theorem toPtrdiff_of {n : ℕ} (h : n < 2 ^ 63) : toPtrdiff n = n := by
  unfold toPtrdiff
  rw [Int.bmod_eq_emod_of_lt] <;> omega

theorem formLoop_ok (hT : 0 < p.sampling_time_ms) (hT' : p.sampling_time_ms < 2 ^ 63) {q : List (MotionParameters K)}
    (hq : ∀ m ∈ q, ProperMotion m) :
    ∀ (rest pre : List (MotionParameters K)) (i r : ℕ) (s : List (Interval K) × K), q = pre ++ rest →
      (∀ m ∈ pre, ¬ Unlimited m) → (i * p.sampling_time_ms + r : ℤ) = totalDuration pre → r < p.sampling_time_ms →
      i < p.preview_horizon_length → Filled tr p model q i s →
      ∃ b ivs, formLoop tr p model rest i r s = .ok (b, ivs) ∧ ivs.length = p.preview_horizon_length ∧
        (b = true ↔ LastsUntil q (p.preview_horizon_length * p.sampling_time_ms)) ∧
        (b = true → HorizonFor tr p model q ivs) := by
  intro rest
  induction rest with
  | nil =>
    intro pre i r s hpre hu hsum hr hi hs
    refine ⟨false, s.1, rfl, hs.length, ⟨fun h => by simp at h, ?_⟩, fun h => by simp at h⟩
    rintro (⟨m, hm, hm'⟩ | h)
    · rw [hpre, List.append_nil] at hm
      exact absurd hm' (hu m hm)
    · rw [hpre, List.append_nil, ← hsum] at h
      have : ((i : ℤ) + 1) * p.sampling_time_ms ≤ p.preview_horizon_length * p.sampling_time_ms :=
        mul_le_mul_of_nonneg_right (by omega) (by omega)
      rw [add_mul, one_mul] at this
      omega
  | cons m rest ih =>
    intro pre i r s hpre hu hsum hr hi hs
    unfold formLoop
    by_cases hm : m.duration_ms = unlimitedDuration
    · rw [if_pos hm]
      obtain ⟨s', h1, h2⟩ := fill_filled (m := m) (n := p.preview_horizon_length - i) hs (by omega) (by
        intro j hj
        refine ⟨pre, rest, hpre, hu, ?_, Or.inl hm⟩
        rw [← hsum]
        have : ((i + 1 : ℕ) : ℤ) * p.sampling_time_ms ≤ (i + j + 1 : ℕ) * p.sampling_time_ms :=
          mul_le_mul_of_nonneg_right (by omega) (by omega)
        push_cast at this ⊢
        rw [add_mul _ 1, one_mul] at this
        omega)
      rw [h1, ok_bind]
      rw [show i + (p.preview_horizon_length - i) = p.preview_horizon_length by omega] at h2
      exact ⟨true, s'.1, rfl, h2.length, ⟨fun _ => Or.inl ⟨m, by rw [hpre]; simp, hm⟩, fun _ => rfl⟩, fun _ => h2.horizon⟩
    · rw [if_neg hm, require_true (by omega), ok_bind]
      have hd : 0 ≤ m.duration_ms ∧ m.duration_ms < 2 ^ 63 := by
        rcases hq m (by rw [hpre]; simp) with h | h
        · exact absurd h hm
        · exact h
      obtain ⟨d, hd'⟩ : ∃ d : ℕ, m.duration_ms = d := ⟨m.duration_ms.toNat, by omega⟩
      have hsz : toSize (r + m.duration_ms) = r + d := by
        have := toSize_of (z := r + m.duration_ms) (by omega) (by omega)
        omega
      simp only [hsz]
      set n := min ((r + d) / p.sampling_time_ms) (p.preview_horizon_length - i) with hn
      have hnd : n * p.sampling_time_ms ≤ r + d :=
        le_trans (Nat.mul_le_mul_right _ (min_le_left _ _)) (Nat.div_mul_le_self _ _)
      obtain ⟨s', h1, h2⟩ := fill_filled (m := m) (n := n) hs (by omega) (by
        intro j hj
        refine ⟨pre, rest, hpre, hu, ?_, Or.inr ?_⟩
        · rw [← hsum]
          have : ((i + 1 : ℕ) : ℤ) * p.sampling_time_ms ≤ (i + j + 1 : ℕ) * p.sampling_time_ms :=
            mul_le_mul_of_nonneg_right (by omega) (by omega)
          push_cast at this ⊢
          rw [add_mul _ 1, one_mul] at this
          omega
        · rw [← hsum, hd']
          have h3 : ((j + 1 : ℕ) : ℤ) * p.sampling_time_ms ≤ (n : ℕ) * p.sampling_time_ms :=
            mul_le_mul_of_nonneg_right (by omega) (by omega)
          have h4 : ((n * p.sampling_time_ms : ℕ) : ℤ) ≤ r + d := by exact_mod_cast hnd
          push_cast at h3 h4 ⊢
          have h5 : ((i : ℤ) + j + 1) * p.sampling_time_ms = i * p.sampling_time_ms + (j + 1) * p.sampling_time_ms := by ring
          omega)
      rw [h1, ok_bind]
      by_cases hN : i + n = p.preview_horizon_length
      · rw [if_pos hN]
        rw [hN] at h2
        have hl := h2.horizon
        have hlast : ∃ x, InForce q (p.preview_horizon_length * p.sampling_time_ms) x := by
          obtain ⟨iv, x, _, -, hx, -⟩ := h2.done (p.preview_horizon_length - 1) (by omega)
          refine ⟨x, ?_⟩
          have : ((p.preview_horizon_length - 1 : ℕ) : ℤ) + 1 = p.preview_horizon_length := by omega
          rwa [this] at hx
        have hpos : (0 : ℤ) < p.preview_horizon_length * p.sampling_time_ms := mul_pos (by omega) (by omega)
        exact ⟨true, s'.1, rfl, h2.length, ⟨fun _ => (inForce_exists hpos hq).mp hlast, fun _ => rfl⟩, fun _ => hl⟩
      · rw [if_neg hN]
        have hn' : n = (r + d) / p.sampling_time_ms := by
          rcases min_choice ((r + d) / p.sampling_time_ms) (p.preview_horizon_length - i) with h | h
          · rw [hn, h]
          · omega
        refine ih (pre ++ [m]) (i + n) _ s' (by rw [hpre]; simp) ?_ ?_ (Nat.mod_lt _ hT) (by omega) h2
        · intro x hx
          rcases List.mem_append.mp hx with hx | hx
          · exact hu x hx
          · rw [List.mem_singleton.mp hx]; exact hm
        · rw [totalDuration_append, ← hsum, totalDuration_cons, totalDuration_nil, hd', hn']
          have := Nat.div_add_mod' (r + d) p.sampling_time_ms
          have h5 : (((r + d) / p.sampling_time_ms * p.sampling_time_ms + (r + d) % p.sampling_time_ms : ℕ) : ℤ) = r + d := by
            exact_mod_cast this
          push_cast at h5 ⊢
          rw [add_mul]
          omega

end form

/-! ## Shifting -/

theorem shiftLoop_inForce {q : List (MotionParameters K)} (hq : ∀ m ∈ q, ProperMotion m) {t s : ℤ} (ht : 0 ≤ t) (hs : 0 < s)
    (c : (Fin 2 → K) × (Fin 2 → K) × K × MotionMode) : CommandAt (shiftLoop t q) s c ↔ CommandAt q (s + t) c := by
  induction q generalizing t with
  | nil =>
    constructor <;> rintro ⟨m, h, -⟩ <;> exact absurd h inForce_nil
  | cons m0 q ih =>
    have hq' : ∀ m ∈ q, ProperMotion m := fun m hm => hq m (by simp [hm])
    unfold shiftLoop
    by_cases hu : m0.duration_ms = unlimitedDuration
    · rw [if_pos hu]
      constructor
      · rintro ⟨m, h, hc⟩
        rw [inForce_cons] at h
        rcases h with ⟨-, rfl, -⟩ | ⟨h, -⟩
        · exact ⟨m, inForce_cons.mpr (Or.inl ⟨by omega, rfl, Or.inl hu⟩), hc⟩
        · exact absurd hu h
      · rintro ⟨m, h, hc⟩
        rw [inForce_cons] at h
        rcases h with ⟨-, rfl, -⟩ | ⟨h, -⟩
        · exact ⟨m, inForce_cons.mpr (Or.inl ⟨by omega, rfl, Or.inl hu⟩), hc⟩
        · exact absurd hu h
    · rw [if_neg hu]
      have hd : 0 ≤ m0.duration_ms := by
        rcases hq m0 (by simp) with h | h
        · exact absurd h hu
        · exact h.1
      by_cases hle : m0.duration_ms ≤ t
      · rw [if_pos hle, ih hq' (by omega)]
        constructor
        · rintro ⟨m, h, hc⟩
          refine ⟨m, inForce_cons.mpr (Or.inr ⟨hu, ?_⟩), hc⟩
          rwa [show s + (t - m0.duration_ms) = s + t - m0.duration_ms by ring] at h
        · rintro ⟨m, h, hc⟩
          rw [inForce_cons] at h
          rcases h with ⟨-, -, h | h⟩ | ⟨-, h⟩
          · exact absurd h hu
          · omega
          · refine ⟨m, ?_, hc⟩
            rwa [show s + (t - m0.duration_ms) = s + t - m0.duration_ms by ring]
      · rw [if_neg hle]
        have hneg : ¬ (m0.duration_ms - t < 0) := by omega
        rw [if_neg hneg]
        have hu' : ¬ Unlimited { m0 with duration_ms := m0.duration_ms - t } := by
          show ¬ (m0.duration_ms - t = -1)
          omega
        constructor
        · rintro ⟨m, h, hc⟩
          rw [inForce_cons] at h
          rcases h with ⟨h1, rfl, h2⟩ | ⟨-, h⟩
          · refine ⟨m0, inForce_cons.mpr (Or.inl ⟨by omega, rfl, ?_⟩), hc⟩
            rcases h2 with h2 | h2
            · exact absurd h2 hu'
            · simp only at h2
              exact Or.inr (by omega)
          · refine ⟨m, inForce_cons.mpr (Or.inr ⟨hu, ?_⟩), hc⟩
            simp only at h
            rwa [show s - (m0.duration_ms - t) = s + t - m0.duration_ms by ring] at h
        · rintro ⟨m, h, hc⟩
          rw [inForce_cons] at h
          rcases h with ⟨h1, rfl, h2⟩ | ⟨-, h⟩
          · refine ⟨_, inForce_cons.mpr (Or.inl ⟨hs, rfl, ?_⟩), hc⟩
            rcases h2 with h2 | h2
            · exact absurd h2 hu
            · exact Or.inr (by simp only; omega)
          · refine ⟨m, inForce_cons.mpr (Or.inr ⟨hu', ?_⟩), hc⟩
            simp only
            rwa [show s - (m0.duration_ms - t) = s + t - m0.duration_ms by ring]

theorem shiftLoop_proper {q : List (MotionParameters K)} (hq : ∀ m ∈ q, ProperMotion m) {t : ℤ} (ht : 0 ≤ t) :
    ∀ m ∈ shiftLoop t q, ProperMotion m := by
  induction q generalizing t with
  | nil => intro m hm; simp [shiftLoop] at hm
  | cons m0 q ih =>
    have hq' : ∀ m ∈ q, ProperMotion m := fun m hm => hq m (by simp [hm])
    intro m hm
    unfold shiftLoop at hm
    by_cases hu : m0.duration_ms = unlimitedDuration
    · rw [if_pos hu] at hm
      exact hq m hm
    · rw [if_neg hu] at hm
      have hd : 0 ≤ m0.duration_ms ∧ m0.duration_ms < 2 ^ 63 := by
        rcases hq m0 (by simp) with h | h
        · exact absurd h hu
        · exact h
      by_cases hle : m0.duration_ms ≤ t
      · rw [if_pos hle] at hm
        exact ih hq' (by omega) m hm
      · rw [if_neg hle] at hm
        rcases List.mem_cons.mp hm with rfl | hm
        · refine Or.inr ?_
          simp only
          split <;> omega
        · exact hq' m hm

theorem shiftLoop_unlimited {q : List (MotionParameters K)} (hq : ∀ m ∈ q, ProperMotion m) {t : ℤ} (ht : 0 ≤ t)
    (m : MotionParameters K) (hm : Unlimited m) : m ∈ shiftLoop t q ↔ m ∈ q := by
  induction q generalizing t with
  | nil => simp [shiftLoop]
  | cons m0 q ih =>
    have hq' : ∀ m ∈ q, ProperMotion m := fun m hm => hq m (by simp [hm])
    unfold shiftLoop
    by_cases hu : m0.duration_ms = unlimitedDuration
    · rw [if_pos hu]
    · rw [if_neg hu]
      have hd : 0 ≤ m0.duration_ms := by
        rcases hq m0 (by simp) with h | h
        · exact absurd h hu
        · exact h.1
      have hne : m ≠ m0 := fun h => hu (by rw [← h]; exact hm)
      by_cases hle : m0.duration_ms ≤ t
      · rw [if_pos hle, ih hq' (by omega)]
        simp [hne]
      · rw [if_neg hle]
        have hne' : m ≠ { m0 with duration_ms := if m0.duration_ms - t < 0 then 0 else m0.duration_ms - t } := by
          intro h
          have : m.duration_ms = -1 := hm
          rw [h] at this
          simp only at this
          split at this <;> omega
        simp only [List.mem_cons]
        constructor
        · rintro (h | h)
          · exact absurd h hne'
          · exact Or.inr h
        · rintro (h | h)
          · exact absurd h hne
          · exact Or.inr h

theorem shiftLoop_total {q : List (MotionParameters K)} (hq : ∀ m ∈ q, ProperMotion m) (hu : ∀ m ∈ q, ¬ Unlimited m) {t : ℤ}
    (ht : 0 ≤ t) : totalDuration (shiftLoop t q) = max 0 (totalDuration q - t) := by
  induction q generalizing t with
  | nil => simp [shiftLoop]; omega
  | cons m0 q ih =>
    have hq' : ∀ m ∈ q, ProperMotion m := fun m hm => hq m (by simp [hm])
    have hu' : ∀ m ∈ q, ¬ Unlimited m := fun m hm => hu m (by simp [hm])
    have h0 : ¬ m0.duration_ms = unlimitedDuration := hu m0 (by simp)
    have hd : 0 ≤ m0.duration_ms := by
      rcases hq m0 (by simp) with h | h
      · exact absurd h h0
      · exact h.1
    unfold shiftLoop
    rw [if_neg h0]
    by_cases hle : m0.duration_ms ≤ t
    · rw [if_pos hle, ih hq' hu' (by omega), totalDuration_cons]
      congr 1
      ring
    · rw [if_neg hle, if_neg (by omega)]
      have := totalDuration_nonneg hq' hu'
      simp only [totalDuration_cons]
      omega

theorem shiftLoop_add {q : List (MotionParameters K)} (hq : ∀ m ∈ q, ProperMotion m) {t t' : ℤ} (ht : 0 ≤ t) (ht' : 0 ≤ t') :
    shiftLoop t' (shiftLoop t q) = shiftLoop (t + t') q := by
  induction q generalizing t with
  | nil => rfl
  | cons m0 q ih =>
    have hq' : ∀ m ∈ q, ProperMotion m := fun m hm => hq m (by simp [hm])
    by_cases hu : m0.duration_ms = unlimitedDuration
    · simp only [shiftLoop, if_pos hu]
    · have hd : 0 ≤ m0.duration_ms := by
        rcases hq m0 (by simp) with h | h
        · exact absurd h hu
        · exact h.1
      by_cases hle : m0.duration_ms ≤ t
      · simp only [shiftLoop, if_neg hu, if_pos hle, if_pos (show m0.duration_ms ≤ t + t' by omega)]
        rw [ih hq' (by omega)]
        congr 1
        ring
      · have h1 : ¬ (m0.duration_ms - t = unlimitedDuration) := by unfold unlimitedDuration; omega
        simp only [shiftLoop, if_neg hu, if_neg hle, if_neg (show ¬ m0.duration_ms - t < 0 by omega), if_neg h1]
        by_cases h2 : m0.duration_ms ≤ t + t'
        · rw [if_pos h2, if_pos (by omega)]
          congr 1
          ring
        · rw [if_neg h2, if_neg (by omega), if_neg (by omega), if_neg (by omega)]
          congr 2
          ring

/-! ## Lookup -/

theorem startOf_cons {T : Type} [AddCommMonoid T] (d : T) (l : List T) (k : ℕ) :
    startOf (d :: l) (k + 1) = d + startOf l k := by simp [startOf]

theorem startOf_zero {T : Type} [AddCommMonoid T] (l : List T) : startOf l 0 = 0 := by simp [startOf]

end Humoto.Pepper
