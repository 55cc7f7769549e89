import Verif.Model.WpgHorizon
import Verif.Spec.Wpg
import Verif.Lemmas.StanceTime
import Mathlib.Algebra.BigOperators.Group.Finset.Basic
import Mathlib.Algebra.BigOperators.Intervals
import Mathlib.Tactic.Linarith
import Mathlib.Tactic.Ring

/-!
# Lemmas about the preview horizon of the walking pattern generator
-/

namespace Humoto.Wpg

open Humoto.Spec Humoto.Spec.Wpg

theorem fill_ok (v : Vec Interval) (a b : ℕ) (x : Interval) (hb : b ≤ v.n) :
    ∃ w, fill v a b x = .ok w ∧ w.n = v.n ∧ (∀ i, a ≤ i → i < b → w.e i = x) ∧ (∀ i, i < a → w.e i = v.e i) := by
  unfold fill
  obtain ⟨w, hw, h1, h2, h3⟩ := forRange_inv (s := v) (n := b - a) (body := fun v k => v.set (a + k) x)
    (fun k w => w.n = v.n ∧ (∀ i, a ≤ i → i < a + k → w.e i = x) ∧ (∀ i, i < a → w.e i = v.e i))
    ⟨rfl, fun i h1 h2 => by omega, fun _ _ => rfl⟩ (by
      rintro k w hk ⟨h1, h2, h3⟩
      refine ⟨⟨w.n, Function.update w.e (a + k) x⟩, ?_, h1, ?_, ?_⟩
      · unfold Vec.set
        rw [if_pos (by omega)]
      · intro i hi hi'
        show Function.update w.e (a + k) x i = x
        by_cases e : i = a + k
        · subst e; simp
        · rw [Function.update_of_ne e]; exact h2 i hi (by omega)
      · intro i hi
        show Function.update w.e (a + k) x i = v.e i
        rw [Function.update_of_ne (by omega)]; exact h3 i hi)
  exact ⟨w, hw, h1, fun i hi hi' => h2 i hi (by omega), h3⟩

theorem wrap_of_lt {n : ℕ} (h : n < 2 ^ 64) : wrap n = n := Nat.mod_eq_of_lt h

theorem decr_of_pos {n : ℕ} (h : 0 < n) (h' : n < 2 ^ 64) : decr n = n - 1 := by
  unfold decr wrap
  omega

theorem quotient_ok {a b : ℕ} (h : 0 < b) : quotient a b = .ok (a / b) := by
  unfold quotient
  rw [require_true (by omega)]
  rfl

/-- The interval of full length which repeats the given one. -/
noncomputable def full (T : ℕ) (x : Interval) : Interval := { x with T_ms := T, T := seconds T }

theorem formGroup_ok {N T : ℕ} {y : FormState} {x : Interval} {left : ℕ} (hN : y.intervals.n = N) (hi : y.index < N)
    (hb : y.index + 1 + left < 2 ^ 64) :
    ∃ v : Vec Interval, formGroup N T y x left = .ok ⟨v, y.steps, y.index + 1 + left, y.walk + 1⟩ ∧ v.n = N ∧
      (∀ i, i < y.index → v.e i = y.intervals.e i) ∧ v.e y.index = x ∧
      (∀ i, y.index < i → i < N → i < y.index + 1 + left → v.e i = full T x) := by
  unfold formGroup
  rw [show y.intervals.set y.index x = .ok ⟨y.intervals.n, Function.update y.intervals.e y.index x⟩ by
    unfold Vec.set; rw [if_pos (by omega)], ok_bind]
  simp only
  rw [wrap_of_lt hb]
  obtain ⟨w, hw, h1, h2, h3⟩ := fill_ok ⟨y.intervals.n, Function.update y.intervals.e y.index x⟩ (y.index + 1)
    (min N (y.index + 1 + left)) { x with T_ms := T, T := seconds T } (by show min _ _ ≤ y.intervals.n; omega)
  rw [hw, ok_bind]
  refine ⟨w, rfl, by rw [h1]; exact hN, fun i hi => ?_, ?_, fun i h h' h'' => ?_⟩
  · rw [h3 i (by omega)]
    show Function.update _ _ _ _ = _
    rw [Function.update_of_ne (by omega)]
  · rw [h3 y.index (by omega)]
    show Function.update _ _ _ _ = _
    simp
  · exact h2 i (by omega) (by omega)

/-- Total duration of the first `j` states. -/
def durationOf (ws : List WalkState) (j : ℕ) : ℕ := ((ws.take j).map fun s => s.stance.duration).sum

theorem durationOf_succ {ws : List WalkState} {j : ℕ} {s : WalkState} (h : ws[j]? = some s) :
    durationOf ws (j + 1) = durationOf ws j + s.stance.duration := by
  unfold durationOf
  rw [List.take_add_one, h]
  simp

/-- Durations of the states which are followed by other ones fit the sampling times. -/
def Aligned (T Ttds : ℕ) (ws : List WalkState) : Prop :=
  ∀ j s, 0 < j → ws[j]? = some s →
    (s.stance.type = .tds → j + 2 < ws.length → s.stance.duration = Ttds) ∧
    (s.stance.type ≠ .tds → j + 1 < ws.length → T ∣ s.stance.duration)

/-- Number of intervals which the remaining states provide. -/
def available (T : ℕ) : List WalkState → ℕ
  | _ :: s' :: rest => 1 + s'.stance.duration / T + available T rest
  | _ => 0

/-- Number of intervals which the states provide. -/
def supply (T : ℕ) : List WalkState → ℕ
  | s :: rest => if s.stance.type = .tds then available T (s :: rest) else (s.stance.duration + T - 1) / T + available T rest
  | [] => 0

theorem available_append (T : ℕ) : ∀ (l r : List WalkState), l.length % 2 = 0 → available T (l ++ r) = available T l + available T r
  | [], r, _ => by simp [available]
  | [a], r, h => by simp at h
  | a :: b :: l, r, h => by
    have ih := available_append T l r (by simp at h; omega)
    show 1 + b.stance.duration / T + available T (l ++ r) = 1 + b.stance.duration / T + available T l + available T r
    omega

theorem supply_append (T : ℕ) (s : WalkState) (l r : List WalkState)
    (h : (s :: l).length % 2 = if s.stance.type = .tds then 0 else 1) :
    supply T ((s :: l) ++ r) = supply T (s :: l) + available T r := by
  by_cases ht : s.stance.type = .tds
  · rw [if_pos ht] at h
    simp only [supply, List.cons_append, if_pos ht]
    rw [← List.cons_append, available_append T _ r h]
  · rw [if_neg ht] at h
    simp only [supply, List.cons_append, if_neg ht]
    rw [available_append T l r (by rw [List.length_cons] at h; omega)]
    omega

/-- What is known about the intervals which are already filled. -/
structure Filled (N T Ttds : ℕ) (height : ℝ) (ws : List WalkState) (y : FormState) : Prop where
  size : y.intervals.n = N
  index_pos : 0 < y.index
  walk_pos : 0 < y.walk
  state : ∀ i, i < N → i < y.index → ∃ s, ws[(y.intervals.e i).state_index]? = some s ∧ s.stance.type ≠ .tds
  first : ∀ s, ws[0]? = some s → (y.intervals.e 0).state_index = if s.stance.type = .tds then 1 else 0
  next : ∀ i, i + 1 < N → i + 1 < y.index →
    (y.intervals.e (i + 1)).state_index = (y.intervals.e i).state_index + if i + 1 ∈ y.steps then 2 else 0
  sorted : y.steps.Pairwise (· < ·)
  bounds : ∀ k ∈ y.steps, 0 < k ∧ k < N ∧ k < y.index
  last : ∀ i, i < N → i < y.index → i + 1 = N ∨ i + 1 = y.index → (y.intervals.e i).state_index + 1 = y.walk
  data : ∀ i, i < N → i < y.index → (y.intervals.e i).T = seconds (y.intervals.e i).T_ms ∧
    (y.intervals.e i).com_height = height ∧ (y.intervals.e i).omega = PointMass6z.getOmega height ∧
    ∃ s, ws[(y.intervals.e i).state_index - 1]? = some s ∧ (y.intervals.e i).cvel_ref = s.R_cvel_ref
  later : ∀ i, i < N → i < y.index → 0 < i → (y.intervals.e i).T_ms = if i ∈ y.steps then Ttds else T
  current : ∀ s, ws[0]? = some s → (y.intervals.e 0).T_ms =
    if s.stance.type = .tds then s.stance.duration else if s.stance.duration % T = 0 then T else s.stance.duration % T
  time : Aligned T Ttds ws → y.walk < ws.length → y.index ≤ N →
    ∑ i ∈ Finset.range y.index, (y.intervals.e i).T_ms = durationOf ws y.walk
  count : ∀ s, ws[0]? = some s → y.walk = 2 * y.steps.length + if s.stance.type = .tds then 2 else 1
  starts : Aligned T Ttds ws → ∀ k ∈ y.steps,
    ∑ i ∈ Finset.range k, (y.intervals.e i).T_ms = durationOf ws ((y.intervals.e k).state_index - 1)
  index_eq : y.index = supply T (ws.take y.walk)
  steps_eq : ∀ s, ws[0]? = some s → ∀ j k, y.steps[j]? = some k →
    k = supply T (ws.take (2 * j + if s.stance.type = .tds then 2 else 1))

theorem sum_group {a n : ℕ} {f g : ℕ → ℕ} {T first : ℕ} (h1 : ∀ i < a, g i = f i) (h2 : g a = first)
    (h3 : ∀ i, a < i → i < a + 1 + n → g i = T) :
    ∑ i ∈ Finset.range (a + 1 + n), g i = ∑ i ∈ Finset.range a, f i + first + n * T := by
  rw [Finset.sum_range_add, Finset.sum_range_succ, h2, Finset.sum_congr rfl fun i hi => h1 i (Finset.mem_range.1 hi)]
  congr 1
  rw [Finset.sum_congr rfl fun i hi => h3 (a + 1 + i) (by omega) (by have := Finset.mem_range.1 hi; omega)]
  simp

/-- One more transition with the following support. -/
theorem Filled.step {N T Ttds : ℕ} {height : ℝ} {ws : List WalkState} {y : FormState} {s s' : WalkState}
    (h : Filled N T Ttds height ws y) (hi : y.index < N) (hs : ws[y.walk]? = some s) (hs' : ws[y.walk + 1]? = some s')
    (ht : s.stance.type = .tds) (ht' : s'.stance.type ≠ .tds) (hb : N + 1 + s'.stance.duration / T < 2 ^ 64) :
    ∃ y', formGroup N T { y with steps := y.steps ++ [y.index], walk := y.walk + 1 } (newInterval height s Ttds (y.walk + 1))
        (s'.stance.duration / T) = .ok y' ∧
      Filled N T Ttds height ws y' ∧ y'.walk = y.walk + 2 ∧ y'.index = y.index + 1 + s'.stance.duration / T := by
  obtain ⟨q, hq⟩ : ∃ q, s'.stance.duration / T = q := ⟨_, rfl⟩
  rw [hq] at hb ⊢
  obtain ⟨v, hv, h1, h2, h3, h4⟩ := formGroup_ok (N := N) (T := T)
    (y := { y with steps := y.steps ++ [y.index], walk := y.walk + 1 }) (x := newInterval height s Ttds (y.walk + 1))
    (left := q) h.size hi (by show y.index + 1 + _ < _; omega)
  change ∀ i, i < y.index → v.e i = y.intervals.e i at h2
  change v.e y.index = _ at h3
  change ∀ i, y.index < i → i < N → i < y.index + 1 + q → _ at h4
  have hpos := h.index_pos
  -- the state of the new intervals
  have hnew : ∀ i, y.index ≤ i → i < N → i < y.index + 1 + q →
      (v.e i).state_index = y.walk + 1 ∧ (v.e i).T = seconds (v.e i).T_ms ∧ (v.e i).com_height = height ∧
      (v.e i).omega = PointMass6z.getOmega height ∧ (v.e i).cvel_ref = s.R_cvel_ref ∧
      (v.e i).T_ms = if i = y.index then Ttds else T := by
    intro i ha hb hc
    by_cases e : i = y.index
    · subst e
      rw [h3]
      exact ⟨rfl, rfl, rfl, rfl, rfl, by simp [newInterval]⟩
    · rw [h4 i (by omega) hb hc, if_neg e]
      exact ⟨rfl, rfl, rfl, rfl, rfl, rfl⟩
  have hmem : ∀ i, i ≠ y.index → (i ∈ y.steps ++ [y.index] ↔ i ∈ y.steps) := by
    intro i hi
    simp [hi]
  have hmem' : ∀ i, y.index < i → i ∉ y.steps ++ [y.index] := by
    intro i hi hm
    rw [hmem i (by omega)] at hm
    have := (h.bounds i hm).2.2
    omega
  refine ⟨_, hv, ?_, rfl, rfl⟩
  exact {
    size := h1
    index_pos := by show 0 < y.index + 1 + _; omega
    walk_pos := by show 0 < y.walk + 1 + 1; omega
    state := fun i ha hb => by
      show ∃ t, ws[(v.e i).state_index]? = some t ∧ _
      by_cases hc : i < y.index
      · rw [h2 i hc]; exact h.state i ha hc
      · rw [(hnew i (by omega) ha hb).1]; exact ⟨s', hs', ht'⟩
    first := fun t ht => by
      show (v.e 0).state_index = _
      rw [h2 0 hpos]; exact h.first t ht
    next := fun i ha hb => by
      change i + 1 < y.index + 1 + _ at hb
      show (v.e (i + 1)).state_index = (v.e i).state_index + if i + 1 ∈ y.steps ++ [y.index] then 2 else 0
      rcases Nat.lt_trichotomy (i + 1) y.index with hc | hc | hc
      · rw [h2 _ hc, h2 i (by omega), h.next i ha hc]
        simp only [hmem (i + 1) (by omega)]
      · rw [(hnew (i + 1) (by omega) ha hb).1, h2 i (by omega)]
        have := h.last i (by omega) (by omega) (Or.inr hc)
        rw [if_pos (by simp [hc])]
        omega
      · rw [(hnew (i + 1) (by omega) ha hb).1, (hnew i (by omega) (by omega) (by omega)).1, if_neg (hmem' _ hc)]
    sorted := by
      show (y.steps ++ [y.index]).Pairwise (· < ·)
      rw [List.pairwise_append]
      refine ⟨h.sorted, by simp, fun a ha b hb => ?_⟩
      rw [List.mem_singleton] at hb
      rw [hb]
      exact (h.bounds a ha).2.2
    bounds := fun k hk => by
      show 0 < k ∧ k < N ∧ k < y.index + 1 + _
      by_cases e : k = y.index
      · subst e; omega
      · have := h.bounds k ((hmem k e).1 hk)
        omega
    last := fun i ha hb hc => by
      change i + 1 = N ∨ i + 1 = y.index + 1 + q at hc
      change i < y.index + 1 + q at hb
      show (v.e i).state_index + 1 = y.walk + 1 + 1
      rw [(hnew i (by omega) ha hb).1]
    data := fun i ha hb => by
      show (v.e i).T = _ ∧ (v.e i).com_height = _ ∧ (v.e i).omega = _ ∧ ∃ t, ws[(v.e i).state_index - 1]? = some t ∧ (v.e i).cvel_ref = _
      by_cases hc : i < y.index
      · rw [h2 i hc]; exact h.data i ha hc
      · obtain ⟨a1, a2, a3, a4, a5, -⟩ := hnew i (by omega) ha hb
        refine ⟨a2, a3, a4, s, ?_, a5⟩
        rw [a1]; exact hs
    later := fun i ha hb hc => by
      show (v.e i).T_ms = if i ∈ y.steps ++ [y.index] then Ttds else T
      by_cases hd : i < y.index
      · rw [h2 i hd, h.later i ha hd hc]
        simp only [hmem i (by omega)]
      · rw [(hnew i (by omega) ha hb).2.2.2.2.2]
        by_cases e : i = y.index
        · rw [if_pos e, if_pos (by simp [e])]
        · rw [if_neg e, if_neg (hmem' i (by omega))]
    current := fun t ht => by
      show (v.e 0).T_ms = _
      rw [h2 0 hpos]; exact h.current t ht
    time := fun ha hw hN => by
      change y.walk + 1 + 1 < ws.length at hw
      change y.index + 1 + _ ≤ N at hN
      show ∑ i ∈ Finset.range (y.index + 1 + _), (v.e i).T_ms = durationOf ws (y.walk + 1 + 1)
      rw [durationOf_succ hs', durationOf_succ hs,
        sum_group (f := fun i => (y.intervals.e i).T_ms) (first := Ttds) (T := T) (fun i hi => by rw [h2 i hi])
          (by rw [h3]; rfl) (fun i hc hd => by rw [h4 i hc (by omega) hd]; rfl),
        h.time ha (by omega) (by omega), (ha y.walk s h.walk_pos hs).1 ht (by omega),
        ← hq, Nat.div_mul_cancel ((ha (y.walk + 1) s' (by omega) hs').2 ht' (by omega))]
    count := fun t ht => by
      show y.walk + 1 + 1 = 2 * (y.steps ++ [y.index]).length + _
      rw [h.count t ht, List.length_append, List.length_singleton]
      omega
    starts := fun ha k hk => by
      show ∑ i ∈ Finset.range k, (v.e i).T_ms = durationOf ws ((v.e k).state_index - 1)
      by_cases e : k = y.index
      · subst e
        rw [(hnew y.index (le_refl _) hi (by omega)).1,
          Finset.sum_congr rfl fun i hi => by rw [h2 i (Finset.mem_range.1 hi)]]
        refine h.time ha ?_ (by omega)
        have := (List.getElem?_eq_some_iff.1 hs).1
        exact this
      · have hk' := (hmem k e).1 hk
        have hlt := (h.bounds k hk').2.2
        rw [h2 k hlt, Finset.sum_congr rfl fun i hi => by rw [h2 i (by have := Finset.mem_range.1 hi; omega)]]
        exact h.starts ha k hk'
    index_eq := by
      show y.index + 1 + q = supply T (ws.take (y.walk + 1 + 1))
      rw [List.take_add_one, List.take_add_one, hs, hs', List.append_assoc]
      obtain ⟨s0, tl, hws⟩ : ∃ s0 tl, ws.take y.walk = s0 :: tl := by
        match hw : ws.take y.walk with
        | [] =>
          have := h.walk_pos
          have h0 := congrArg List.length hw
          rw [List.length_take] at h0
          have := (List.getElem?_eq_some_iff.1 hs).1
          rw [List.length_nil] at h0
          omega
        | a :: b => exact ⟨a, b, rfl⟩
      have h0 : ws[0]? = some s0 := by
        have := congrArg (·[0]?) hws
        simp only [List.getElem?_take, List.getElem?_cons_zero] at this
        rwa [if_pos h.walk_pos] at this
      rw [hws, supply_append, ← hws, ← h.index_eq]
      · show _ = y.index + (1 + s'.stance.duration / T + 0)
        rw [hq]
        omega
      · rw [← hws, List.length_take, Nat.min_eq_left (List.getElem?_eq_some_iff.1 hs).1.le, h.count s0 h0]
        split <;> omega
    steps_eq := fun t ht j k hj => by
      change (y.steps ++ [y.index])[j]? = some k at hj
      by_cases hl : j < y.steps.length
      · rw [List.getElem?_append_left hl] at hj
        exact h.steps_eq t ht j k hj
      · rw [List.getElem?_append_right (by omega)] at hj
        have hj0 : j - y.steps.length = 0 := by
          by_contra hne
          rw [List.getElem?_eq_none (by simp; omega)] at hj
          cases hj
        rw [hj0] at hj
        simp only [List.getElem?_cons_zero, Option.some.injEq] at hj
        rw [← hj, h.index_eq, h.count t ht, show j = y.steps.length by omega] }

/-- Alternation of transitions and supports, beginning with a transition. -/
def Pairs : List WalkState → Prop
  | s :: s' :: rest => s.stance.type = .tds ∧ s'.stance.type ≠ .tds ∧ Pairs rest
  | [s] => s.stance.type = .tds
  | [] => True

theorem formLoop_pairs {N T Ttds : ℕ} {height : ℝ} {ws : List WalkState} (hT : 0 < T)
    (hb : ∀ s ∈ ws, N + 1 + s.stance.duration / T < 2 ^ 64) :
    ∀ (rest : List WalkState) (y : FormState), ws.drop y.walk = rest → Pairs rest → Filled N T Ttds height ws y →
      (N ≤ y.index + available T rest → ∃ y', formLoop N T Ttds height rest y = .ok y' ∧ Filled N T Ttds height ws y' ∧ N ≤ y'.index)
      ∧ (¬ N ≤ y.index + available T rest → formLoop N T Ttds height rest y = .error .thrown)
  | [], y, hd, hp, h => by
    unfold formLoop
    by_cases hi : y.index < N
    · rw [if_pos hi]
      exact ⟨fun hN => by simp [available] at hN; omega, fun _ => rfl⟩
    · rw [if_neg hi]
      exact ⟨fun _ => ⟨y, rfl, h, by omega⟩, fun hN => by simp [available] at hN; omega⟩
  | [s], y, hd, hp, h => by
    unfold formLoop
    by_cases hi : y.index < N
    · rw [if_pos hi]
      simp only
      rw [if_neg (by have := h.walk_pos; omega), assertThat_true (show s.stance.type = .tds from hp), ok_bind]
      exact ⟨fun hN => by simp [available] at hN; omega, fun _ => rfl⟩
    · rw [if_neg hi]
      exact ⟨fun _ => ⟨y, rfl, h, by omega⟩, fun hN => by simp [available] at hN; omega⟩
  | s :: s' :: rest, y, hd, hp, h => by
    obtain ⟨ht, ht', hp'⟩ := hp
    unfold formLoop
    by_cases hi : y.index < N
    · rw [if_pos hi]
      simp only
      rw [if_neg (by have := h.walk_pos; omega), assertThat_true ht, ok_bind, quotient_ok hT, ok_bind]
      have hs : ws[y.walk]? = some s := by
        have := congrArg (·[0]?) hd
        simpa using this
      have hs' : ws[y.walk + 1]? = some s' := by
        have := congrArg (·[1]?) hd
        simpa using this
      obtain ⟨y', hy, hF, hw, hx⟩ := h.step hi hs hs' ht ht' (hb s' (List.mem_of_getElem? hs'))
      rw [hy, ok_bind]
      have hd' : ws.drop y'.walk = rest := by
        rw [hw, ← List.drop_drop, hd]
        rfl
      have ih := formLoop_pairs hT hb rest y' hd' hp' hF
      have he : y'.index + available T rest = y.index + available T (s :: s' :: rest) := by
        rw [hx]
        show _ = y.index + (1 + s'.stance.duration / T + available T rest)
        omega
      rw [he] at ih
      exact ih
    · rw [if_neg hi]
      exact ⟨fun _ => ⟨y, rfl, h, by omega⟩, fun hN => by omega⟩

/-- Alternation of transitions and supports. -/
def Alternating : List WalkState → Prop
  | s :: rest => if s.stance.type = .tds then Pairs (s :: rest) else Pairs rest
  | [] => True

theorem ceil_eq {d T : ℕ} (hT : 0 < T) (hd : 0 < d) :
    (d + T - 1) / T = 1 + if d % T = 0 then d / T - 1 else d / T := by
  have h := Nat.div_add_mod d T
  have hr := Nat.mod_lt d hT
  obtain ⟨q, hq⟩ : ∃ q, d / T = q := ⟨_, rfl⟩
  obtain ⟨r, hr'⟩ : ∃ r, d % T = r := ⟨_, rfl⟩
  rw [hq, hr'] at h
  rw [hr'] at hr
  rw [hq, hr']
  split
  · next e =>
    subst e
    have hq0 : 0 < q := by
      rcases Nat.eq_zero_or_pos q with e | e
      · subst e; omega
      · exact e
    have : d + T - 1 = T * q + (T - 1) := by omega
    rw [this, Nat.mul_add_div hT, Nat.div_eq_of_lt (by omega)]
    omega
  · next e =>
    have : d + T - 1 = T * (q + 1) + (r - 1) := by rw [Nat.mul_add]; omega
    rw [this, Nat.mul_add_div hT, Nat.div_eq_of_lt (by omega)]
    omega

/-- The first group of intervals. -/
theorem firstGroup {N T Ttds : ℕ} {height : ℝ} {ws : List WalkState} {v0 : Vec Interval} {x : Interval} {s st : WalkState}
    {left walk : ℕ} (hv : v0.n = N) (hN : 0 < N) (hb : 1 + left < 2 ^ 64) (hs : ws[0]? = some s) (hst : ws[walk]? = some st)
    (ht : st.stance.type ≠ .tds) (hw : walk = if s.stance.type = .tds then 1 else 0)
    (hx : x.T = seconds x.T_ms ∧ x.com_height = height ∧ x.omega = PointMass6z.getOmega height ∧ x.cvel_ref = s.R_cvel_ref ∧
      x.state_index = walk)
    (hc : x.T_ms =
      if s.stance.type = .tds then s.stance.duration else if s.stance.duration % T = 0 then T else s.stance.duration % T)
    (htime : Aligned T Ttds ws → walk + 1 < ws.length → x.T_ms + left * T = durationOf ws (walk + 1))
    (hidx : 1 + left = supply T (ws.take (walk + 1))) :
    ∃ y', formGroup N T ⟨v0, [], 0, walk⟩ x left = .ok y' ∧ Filled N T Ttds height ws y' ∧ y'.walk = walk + 1 ∧
      y'.index = 1 + left := by
  obtain ⟨v, hv, h1, -, h3, h4⟩ := formGroup_ok (N := N) (T := T) (y := ⟨v0, [], 0, walk⟩) (x := x) (left := left) hv hN
    (by show 0 + 1 + left < _; omega)
  change v.e 0 = x at h3
  change ∀ i, 0 < i → i < N → i < 0 + 1 + left → _ at h4
  have hnew : ∀ i, i < N → i < 0 + 1 + left →
      (v.e i).state_index = walk ∧ (v.e i).T = seconds (v.e i).T_ms ∧ (v.e i).com_height = height ∧
      (v.e i).omega = PointMass6z.getOmega height ∧ (v.e i).cvel_ref = s.R_cvel_ref ∧ (0 < i → (v.e i).T_ms = T) := by
    intro i ha hb
    by_cases e : i = 0
    · subst e
      rw [h3]
      exact ⟨hx.2.2.2.2, hx.1, hx.2.1, hx.2.2.1, hx.2.2.2.1, fun h => absurd h (by omega)⟩
    · rw [h4 i (by omega) ha hb]
      exact ⟨hx.2.2.2.2, rfl, hx.2.1, hx.2.2.1, hx.2.2.2.1, fun _ => rfl⟩
  refine ⟨_, hv, ?_, rfl, by show 0 + 1 + left = _; omega⟩
  exact {
    size := h1
    index_pos := by show 0 < 0 + 1 + left; omega
    walk_pos := by show 0 < walk + 1; omega
    state := fun i ha hb => ⟨st, by rw [(hnew i ha hb).1]; exact hst, ht⟩
    first := fun t ht => by
      rw [hs] at ht
      cases ht
      show (v.e 0).state_index = _
      rw [h3, hx.2.2.2.2]
      exact hw
    next := fun i ha hb => by
      show (v.e (i + 1)).state_index = (v.e i).state_index + if i + 1 ∈ [] then 2 else 0
      change i + 1 < 0 + 1 + left at hb
      rw [(hnew (i + 1) ha hb).1, (hnew i (by omega) (by omega)).1]
      rfl
    sorted := List.Pairwise.nil
    bounds := fun k hk => absurd hk (by simp)
    last := fun i ha hb _ => by
      show (v.e i).state_index + 1 = walk + 1
      rw [(hnew i ha hb).1]
    data := fun i ha hb => by
      obtain ⟨a1, a2, a3, a4, a5, -⟩ := hnew i ha hb
      refine ⟨a2, a3, a4, s, ?_, a5⟩
      show ws[(v.e i).state_index - 1]? = some s
      rw [a1, hw]
      split <;> exact hs
    later := fun i ha hb hc => by
      show (v.e i).T_ms = if i ∈ [] then Ttds else T
      rw [(hnew i ha hb).2.2.2.2.2 hc]
      rfl
    current := fun t ht => by
      rw [hs] at ht
      cases ht
      show (v.e 0).T_ms = _
      rw [h3]
      exact hc
    time := fun ha hw hN => by
      change 0 + 1 + left ≤ N at hN
      show ∑ i ∈ Finset.range (0 + 1 + left), (v.e i).T_ms = durationOf ws (walk + 1)
      rw [← htime ha hw, sum_group (f := fun _ => 0) (first := x.T_ms) (T := T) (fun i hi => by omega) (by rw [h3])
        (fun i hc hd => (hnew i (by omega) hd).2.2.2.2.2 hc)]
      simp
    count := fun t ht => by
      rw [hs] at ht
      cases ht
      show walk + 1 = 2 * 0 + _
      rw [hw]
      split <;> rfl
    starts := fun _ k hk => absurd hk (by simp)
    index_eq := by
      show 0 + 1 + left = supply T (ws.take (walk + 1))
      omega
    steps_eq := fun _ _ j k hj => absurd hj (by simp) }

theorem div_lt_bound {N d T : ℕ} (hT : 0 < T) (h : d ≤ N * T) (hN : N < 2 ^ 63) : N + 1 + d / T < 2 ^ 64 := by
  have : d / T ≤ N := by
    calc d / T ≤ N * T / T := Nat.div_le_div_right h
      _ = N := Nat.mul_div_cancel N hT
  omega

/-- The loop succeeds iff there are enough intervals. -/
theorem formLoop_total {N T Ttds : ℕ} {height : ℝ} {ws : List WalkState} {v0 : Vec Interval} {s : WalkState} (hT : 0 < T)
    (hN : 0 < N) (hv : v0.n = N) (hb : ∀ s ∈ ws, N + 1 + s.stance.duration / T < 2 ^ 64) (hs : ws[0]? = some s)
    (hd : 0 < s.stance.duration) (ha : Alternating ws) :
    (N ≤ supply T ws → ∃ y', formLoop N T Ttds height ws ⟨v0, [], 0, 0⟩ = .ok y' ∧ Filled N T Ttds height ws y' ∧ N ≤ y'.index) ∧
    (¬ N ≤ supply T ws → formLoop N T Ttds height ws ⟨v0, [], 0, 0⟩ = .error .thrown) := by
  match ws, hs with
  | s0 :: rest, hs =>
    have hs0 : s0 = s := by simpa using hs
    subst hs0
    by_cases ht : s0.stance.type = .tds
    · have ha : Pairs (s0 :: rest) := by
        have := ha
        simp only [Alternating, if_pos ht] at this
        exact this
      have hsup : supply T (s0 :: rest) = available T (s0 :: rest) := by simp only [supply, if_pos ht]
      rw [hsup]
      match rest with
      | [] =>
        unfold formLoop
        rw [if_pos (show 0 < N from hN)]
        simp only
        rw [if_pos trivial, if_pos ht]
        exact ⟨fun h => by simp [available] at h; omega, fun _ => rfl⟩
      | s1 :: rest =>
        obtain ⟨-, ht', hp⟩ := ha
        unfold formLoop
        rw [if_pos (show 0 < N from hN)]
        simp only
        rw [if_pos trivial, if_pos ht, quotient_ok hT, ok_bind]
        have hb1 := hb s1 (by simp)
        obtain ⟨q, hq⟩ : ∃ q, s1.stance.duration / T = q := ⟨_, rfl⟩
        rw [hq] at hb1
        rw [hq]
        obtain ⟨y', hy, hF, hw, hx⟩ := firstGroup (N := N) (T := T) (Ttds := Ttds) (height := height)
          (ws := s0 :: s1 :: rest) (v0 := v0) (x := newInterval height s0 s0.stance.duration 1) (left := q) (walk := 1) hv hN
          (by omega) hs (show (s0 :: s1 :: rest)[1]? = some s1 from rfl) ht' (by rw [if_pos ht]) ⟨rfl, rfl, rfl, rfl, rfl⟩
          (by rw [if_pos ht]; rfl)
          (fun hA hl => by
            rw [durationOf_succ (show (s0 :: s1 :: rest)[1]? = some s1 from rfl),
              durationOf_succ (show (s0 :: s1 :: rest)[0]? = some s0 from rfl), ← hq,
              Nat.div_mul_cancel ((hA 1 s1 (by omega) rfl).2 ht' hl)]
            show s0.stance.duration + _ = durationOf _ 0 + _ + _
            simp [durationOf])
          (by
            show 1 + q = supply T [s0, s1]
            simp only [supply, if_pos ht, available, hq]
            omega)
        change formGroup N T ⟨v0, [], 0, 0 + 1⟩ (newInterval height s0 s0.stance.duration (0 + 1)) q = .ok y' at hy
        rw [hy, ok_bind]
        have ih := formLoop_pairs hT hb rest y' (by rw [hw]; rfl) hp hF
        have he : y'.index + available T rest = available T (s0 :: s1 :: rest) := by
          rw [hx]
          show 1 + q + _ = 1 + s1.stance.duration / T + available T rest
          rw [hq]
        rw [he] at ih
        exact ih
    · have ha : Pairs rest := by
        have := ha
        simp only [Alternating, if_neg ht] at this
        exact this
      have hsup : supply T (s0 :: rest) = (s0.stance.duration + T - 1) / T + available T rest := by simp only [supply, if_neg ht]
      rw [hsup, ceil_eq hT hd]
      unfold formLoop
      rw [if_pos (show 0 < N from hN)]
      simp only
      rw [if_pos trivial, if_neg ht, quotient_ok hT, ok_bind]
      have hb0 := hb s0 (by simp)
      have hdm := Nat.div_add_mod s0.stance.duration T
      have hqpos : s0.stance.duration % T = 0 → 0 < s0.stance.duration / T := by
        intro e
        rcases Nat.eq_zero_or_pos (s0.stance.duration / T) with e' | e'
        · rw [e, e'] at hdm; omega
        · exact e'
      obtain ⟨q, hq⟩ : ∃ q, s0.stance.duration / T = q := ⟨_, rfl⟩
      rw [hq] at hb0 hdm hqpos
      rw [hq]
      have hleft : (if s0.stance.duration % T = 0 then decr q else q) = if s0.stance.duration % T = 0 then q - 1 else q := by
        split
        · next e => rw [decr_of_pos (hqpos e) (by omega)]
        · rfl
      rw [hleft]
      obtain ⟨y', hy, hF, hw, hx⟩ := firstGroup (N := N) (T := T) (Ttds := Ttds) (height := height)
        (ws := s0 :: rest) (v0 := v0)
        (x := newInterval height s0 (if s0.stance.duration % T = 0 then T else s0.stance.duration % T) 0)
        (left := if s0.stance.duration % T = 0 then q - 1 else q) (walk := 0) hv hN
        (by split <;> omega) hs (show (s0 :: rest)[0]? = some s0 from rfl) ht (by rw [if_neg ht]) ⟨rfl, rfl, rfl, rfl, rfl⟩
        (by rw [if_neg ht]; rfl)
        (fun hA hl => by
          rw [durationOf_succ (show (s0 :: rest)[0]? = some s0 from rfl)]
          show (if s0.stance.duration % T = 0 then T else s0.stance.duration % T) + _ = durationOf _ 0 + _
          have hz : durationOf (s0 :: rest) 0 = 0 := by simp [durationOf]
          rw [hz]
          split
          · next e =>
            have := hqpos e
            obtain ⟨k, rfl⟩ : ∃ k, q = k + 1 := ⟨q - 1, by omega⟩
            rw [e, Nat.mul_comm, Nat.add_mul] at hdm
            show T + (k + 1 - 1) * T = _
            rw [Nat.add_sub_cancel]
            omega
          · rw [Nat.mul_comm] at hdm
            omega)
        (by
          show _ = supply T [s0]
          simp only [supply, if_neg ht, available, ceil_eq hT hd, hq]
          omega)
      change formGroup N T ⟨v0, [], 0, 0⟩ _ _ = .ok y' at hy
      rw [hy, ok_bind]
      have ih := formLoop_pairs hT hb rest y' (by rw [hw]; rfl) ha hF
      rw [hx] at ih
      exact ih

end Humoto.Wpg
