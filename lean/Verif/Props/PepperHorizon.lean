import Verif.Lemmas.Pepper
import Mathlib.Tactic.NormNum

/-!
# C56, C57, C58: motions and preview horizons of Pepper
-/

namespace Humoto.Pepper

open Spec

set_option linter.unusedSectionVars false

variable {K : Type}

/-! ## C56 -/

/-- The time by which a queue is shifted: a given one, or the sampling time if it is omitted. -/
def shiftTime (p : MPCParameters) : Option ℕ → ℕ
  | some t => t
  | none => p.sampling_time_ms

/-- The respective argument of `shift`. -/
def shiftArgument : Option ℕ → ℤ
  | some t => t
  | none => defaultShift

theorem shiftQueue_eq (p : MPCParameters) (q : List (MotionParameters K)) (t : Option ℕ) :
    shiftQueue p q (shiftArgument t) = shiftLoop (shiftTime p t) q := by
  unfold shiftQueue
  cases t with
  | none => rfl
  | some t =>
    rw [if_neg]
    · rfl
    · show ¬ ((t : ℤ) = -1)
      omega

/-- **C56.** Shifting removes exactly the first `t` milliseconds: whatever is executed `s` milliseconds after the start of the new
queue is executed `s + t` milliseconds after the start of the old one. -/
theorem C56_removes (p : MPCParameters) {q : List (MotionParameters K)} (hq : ∀ m ∈ q, ProperMotion m) (t : Option ℕ) {s : ℤ}
    (hs : 0 < s) (c : (Fin 2 → K) × (Fin 2 → K) × K × MotionMode) :
    CommandAt (shiftQueue p q (shiftArgument t)) s c ↔ CommandAt q (s + shiftTime p t) c := by
  rw [shiftQueue_eq]
  exact shiftLoop_inForce hq (by omega) hs c

/-- **C56.** The total duration of a queue which is finite decreases by the shift, but not below zero. -/
theorem C56_total (p : MPCParameters) {q : List (MotionParameters K)} (hq : ∀ m ∈ q, ProperMotion m)
    (hu : ∀ m ∈ q, ¬ Unlimited m) (t : Option ℕ) :
    totalDuration (shiftQueue p q (shiftArgument t)) = max 0 (totalDuration q - shiftTime p t) := by
  rw [shiftQueue_eq]
  exact shiftLoop_total hq hu (by omega)

/-- **C56.** The motions without end in the new queue are those of the old one: none is lost, and none is made of a finite
motion. Durations remain meaningful. -/
theorem C56_unlimited (p : MPCParameters) {q : List (MotionParameters K)} (hq : ∀ m ∈ q, ProperMotion m) (t : Option ℕ) :
    (∀ m, Unlimited m → (m ∈ shiftQueue p q (shiftArgument t) ↔ m ∈ q)) ∧
    ∀ m ∈ shiftQueue p q (shiftArgument t), ProperMotion m := by
  rw [shiftQueue_eq]
  exact ⟨fun m hm => shiftLoop_unlimited hq (by omega) m hm, shiftLoop_proper hq (by omega)⟩

/-- **C56.** Two shifts are one shift by the sum. -/
theorem C56_additive (p : MPCParameters) {q : List (MotionParameters K)} (hq : ∀ m ∈ q, ProperMotion m) (t t' : Option ℕ) :
    shiftQueue p (shiftQueue p q (shiftArgument t)) (shiftArgument t') =
      shiftQueue p q (shiftArgument (some (shiftTime p t + shiftTime p t'))) := by
  rw [shiftQueue_eq, shiftQueue_eq, shiftQueue_eq, shiftLoop_add hq (by omega) (by omega)]
  congr 1

/-- **C56.** One motion instead of a queue: a motion without end does not change; otherwise only the duration does. -/
theorem C56_single (p : MPCParameters) (m : MotionParameters K) (hm : ProperMotion m) (t : Option ℕ) :
    (Unlimited m → shiftSingle p m (shiftArgument t) = m) ∧
    (¬ Unlimited m → command (shiftSingle p m (shiftArgument t)) = command m ∧
      (shiftSingle p m (shiftArgument t)).duration_ms = max 0 (m.duration_ms - shiftTime p t)) ∧
    ProperMotion (shiftSingle p m (shiftArgument t)) := by
  unfold shiftSingle
  by_cases hu : Unlimited m
  · have : ¬ (m.duration_ms ≠ unlimitedDuration) := not_not.mpr hu
    rw [if_neg this]
    exact ⟨fun _ => rfl, fun h => absurd hu h, hm⟩
  · have h : m.duration_ms ≠ unlimitedDuration := hu
    have hd : 0 ≤ m.duration_ms ∧ m.duration_ms < 2 ^ 63 := by
      rcases hm with h | h
      · exact absurd h hu
      · exact h
    rw [if_pos h]
    have he : (if shiftArgument t = defaultShift then m.duration_ms - p.sampling_time_ms else
        m.duration_ms - shiftArgument t) = m.duration_ms - shiftTime p t := by
      cases t with
      | none => rfl
      | some t =>
        rw [if_neg (by show ¬ ((t : ℤ) = -1); omega)]
        rfl
    refine ⟨fun h' => absurd h' hu, fun _ => ⟨rfl, ?_⟩, Or.inr ?_⟩
    · simp only [he]
      split <;> omega
    · simp only [he]
      split <;> omega

/-- A queue of a motion of 250 ms, a motion of 100 ms, and a motion without end. -/
def exampleQueue : List (MotionParameters ℚ) :=
  [⟨![1, 0], 0, 0, 250, .maintainVelocity⟩, ⟨![0, 1], 0, 2, 100, .maintainVelocity⟩, ⟨0, ![3, 4], 0, -1, .maintainPosition⟩]

theorem exampleQueue_proper : ∀ m ∈ exampleQueue, ProperMotion m := by
  intro m hm
  simp only [exampleQueue, List.mem_cons, List.not_mem_nil, or_false] at hm
  rcases hm with rfl | rfl | rfl
  · exact Or.inr ⟨by norm_num, by norm_num⟩
  · exact Or.inr ⟨by norm_num, by norm_num⟩
  · exact Or.inl rfl

/-- The default shift by 100 ms, and a shift by 270 ms. -/
example : (shiftQueue ⟨2, 100, 100⟩ exampleQueue (shiftArgument none)).map (fun m => m.duration_ms) = [150, 100, -1] ∧
    (shiftQueue ⟨2, 100, 100⟩ exampleQueue (shiftArgument (some 270))).map (fun m => m.duration_ms) = [80, -1] ∧
    (shiftQueue ⟨2, 100, 100⟩ exampleQueue (shiftArgument (some 9999))).map (fun m => m.duration_ms) = [-1] :=
  ⟨rfl, rfl, rfl⟩

example (c : (Fin 2 → ℚ) × (Fin 2 → ℚ) × ℚ × MotionMode) :
    CommandAt (shiftQueue ⟨2, 100, 100⟩ exampleQueue (shiftArgument (some 270))) 80 c ↔ CommandAt exampleQueue 350 c :=
  C56_removes _ exampleQueue_proper (some 270) (by norm_num) c

/-! ## C57 -/

variable [Field K]

/-- **C57.** A horizon is formed exactly when the motions last long enough, and then it is the horizon which the motions ask
for. The remaining hypotheses: the sampling time is positive, the horizon is not empty, and numbers are representable. -/
theorem C57_queue (tr : Trig K) (dflt : Interval K) (old : List (Interval K)) (p : MPCParameters) (model : Model K)
    {q : List (MotionParameters K)} (hq : ∀ m ∈ q, ProperMotion m) (hT : 0 < p.sampling_time_ms)
    (hT' : p.sampling_time_ms < 2 ^ 63) (hN : 0 < p.preview_horizon_length) :
    ∃ b ivs, formQueue tr dflt old p model q = .ok (b, ivs) ∧
      (b = true ↔ LastsUntil q (p.preview_horizon_length * p.sampling_time_ms)) ∧
      (b = true → HorizonFor tr p model q ivs) := by
  obtain ⟨b, ivs, h1, -, h2, h3⟩ := formLoop_ok (tr := tr) (model := model) hT hT' hq q [] 0 0
    (resizeIntervals dflt old p.preview_horizon_length, Model.getTheta model.state) rfl (by simp) (by simp) hT hN
    ⟨resizeIntervals_length _ _ _, fun k hk => by omega, rfl⟩
  exact ⟨b, ivs, h1, h2, h3⟩

/-- **C57.** One motion instead of a queue. -/
theorem C57_single (tr : Trig K) (dflt : Interval K) (old : List (Interval K)) (p : MPCParameters) (model : Model K)
    {m : MotionParameters K} (hm : ProperMotion m) (hT : 0 < p.sampling_time_ms)
    (hNT : p.preview_horizon_length * p.sampling_time_ms < 2 ^ 63) :
    ∃ b ivs, formSingle tr dflt old p model m = .ok (b, ivs) ∧
      (b = true ↔ LastsUntil [m] (p.preview_horizon_length * p.sampling_time_ms)) ∧
      (b = true → HorizonFor tr p model [m] ivs) ∧ (b = false → ivs = old) := by
  have hlast : LastsUntil [m] (p.preview_horizon_length * p.sampling_time_ms) ↔ m.duration_ms = unlimitedDuration ∨
      toPtrdiff (p.preview_horizon_length * p.sampling_time_ms) ≤ m.duration_ms := by
    rw [toPtrdiff_of hNT]
    unfold LastsUntil Unlimited unlimitedDuration
    simp
  unfold formSingle
  by_cases h : m.duration_ms = unlimitedDuration ∨
      toPtrdiff (p.preview_horizon_length * p.sampling_time_ms) ≤ m.duration_ms
  · rw [if_pos h]
    have hs : Filled tr p model [m] 0
        (resizeIntervals dflt old p.preview_horizon_length, Model.getTheta model.state) :=
      ⟨resizeIntervals_length _ _ _, fun k hk => by omega, rfl⟩
    obtain ⟨s', h1, h2⟩ := fill_filled (m := m) (n := p.preview_horizon_length) hs (by omega) (by
      intro j hj
      refine inForce_cons.mpr (Or.inl ⟨mul_pos (by omega) (by omega), rfl, ?_⟩)
      rcases h with h | h
      · exact Or.inl h
      · rw [toPtrdiff_of hNT] at h
        refine Or.inr (le_trans ?_ h)
        push_cast
        exact mul_le_mul_of_nonneg_right (by omega) (by omega))
    simp only [zero_add] at h1 h2
    rw [h1, ok_bind]
    exact ⟨true, s'.1, rfl, ⟨fun _ => hlast.mpr h, fun _ => rfl⟩, fun _ => h2.horizon, fun h => by simp at h⟩
  · rw [if_neg h]
    exact ⟨false, old, rfl, ⟨fun h' => by simp at h', fun h' => absurd (hlast.mp h') h⟩, fun h' => by simp at h', fun _ => rfl⟩

theorem intervalFor_unique {tr : Trig K} {p : MPCParameters} {model : Model K} {m : MotionParameters K} {theta : K}
    {iv iv' : Interval K} (h : IntervalFor tr p model m theta iv) (h' : IntervalFor tr p model m theta iv') : iv = iv' := by
  have ht : iv.theta = iv'.theta := by rw [h.turn, h'.turn]
  have hr : iv.rotation = iv'.rotation := by rw [h.rotation, h'.rotation, ht]
  have hv : iv.base_vel_ref = iv'.base_vel_ref := by rw [h.velocity, h'.velocity, hr]
  cases iv
  cases iv'
  simp only [Interval.mk.injEq]
  exact ⟨h.cop_bounds.trans h'.cop_bounds.symm, h.velocity_bounds.trans h'.velocity_bounds.symm,
    h.acceleration_bounds.trans h'.acceleration_bounds.symm, h.body_bounds.trans h'.body_bounds.symm, hv,
    h.position.trans h'.position.symm, h.base_height.trans h'.base_height.symm, h.body_height.trans h'.body_height.symm,
    h.base_mass.trans h'.base_mass.symm, h.body_mass.trans h'.body_mass.symm, h.duration_ms.trans h'.duration_ms.symm,
    h.duration.trans h'.duration.symm, ht, hr⟩

/-- **C57.** The specification determines all intervals. -/
theorem C57_determined {tr : Trig K} {p : MPCParameters} {model : Model K} {q : List (MotionParameters K)}
    (hq : ∀ m ∈ q, ProperMotion m) {ivs ivs' : List (Interval K)} (h : HorizonFor tr p model q ivs)
    (h' : HorizonFor tr p model q ivs') : ivs = ivs' := by
  apply List.ext_getElem?
  intro i
  induction i with
  | zero =>
    rcases hi : ivs[0]? with _ | iv
    · rw [List.getElem?_eq_none]
      rw [h'.1, ← h.1]
      exact List.getElem?_eq_none_iff.mp hi
    · rcases hi' : ivs'[0]? with _ | iv'
      · rw [List.getElem?_eq_none_iff, h'.1, ← h.1, ← List.getElem?_eq_none_iff, hi] at hi'
        cases hi'
      · obtain ⟨m, theta, h1, h2, h3⟩ := h.2 0 iv hi
        obtain ⟨m', theta', h1', h2', h3'⟩ := h'.2 0 iv' hi'
        cases inForce_unique hq h1 h1'
        rw [show theta' = theta from Eq.trans h2' (Eq.symm h2)] at h3'
        rw [intervalFor_unique h3 h3']
  | succ i ih =>
    rcases hi : ivs[i + 1]? with _ | iv
    · rw [List.getElem?_eq_none]
      rw [h'.1, ← h.1]
      exact List.getElem?_eq_none_iff.mp hi
    · rcases hi' : ivs'[i + 1]? with _ | iv'
      · rw [List.getElem?_eq_none_iff, h'.1, ← h.1, ← List.getElem?_eq_none_iff, hi] at hi'
        cases hi'
      · obtain ⟨m, theta, h1, ⟨prev, h2, h4⟩, h3⟩ := h.2 (i + 1) iv hi
        obtain ⟨m', theta', h1', ⟨prev', h2', h4'⟩, h3'⟩ := h'.2 (i + 1) iv' hi'
        cases inForce_unique hq h1 h1'
        rw [ih, h2'] at h2
        cases h2
        rw [h4'] at h3'
        rw [h4] at h3
        rw [intervalFor_unique h3 h3']

/-- **C57.** A queue which consists of one motion gives the same answer and the same horizon as the motion. -/
theorem C57_agree (tr : Trig K) (dflt dflt' : Interval K) (old old' : List (Interval K)) (p : MPCParameters)
    (model : Model K) {m : MotionParameters K} (hm : ProperMotion m) (hT : 0 < p.sampling_time_ms)
    (hN : 0 < p.preview_horizon_length) (hNT : p.preview_horizon_length * p.sampling_time_ms < 2 ^ 63) :
    ∃ b ivs ivs', formQueue tr dflt old p model [m] = .ok (b, ivs) ∧ formSingle tr dflt' old' p model m = .ok (b, ivs') ∧
      (b = true → ivs = ivs') := by
  have hT' : p.sampling_time_ms < 2 ^ 63 := lt_of_le_of_lt (Nat.le_mul_of_pos_left _ hN) hNT
  have hq : ∀ x ∈ [m], ProperMotion x := fun x hx => by rw [List.mem_singleton.mp hx]; exact hm
  obtain ⟨b, ivs, h1, h2, h3⟩ := C57_queue tr dflt old p model hq hT hT' hN
  obtain ⟨b', ivs', h1', h2', h3', -⟩ := C57_single tr dflt' old' p model hm hT hNT
  have hb : b = b' := by
    rw [Bool.eq_iff_iff, h2, h2']
  subst hb
  exact ⟨b, ivs, ivs', h1, h1', fun hb => C57_determined hq (h3 hb) (h3' hb)⟩

/-- **C57**, with C56: after a shift by `t` a horizon is formed exactly when the original motions last `t` longer than the
horizon, and it follows the original motions from the time `t` on. -/
theorem C57_receding (tr : Trig K) (dflt : Interval K) (old : List (Interval K)) (p : MPCParameters) (model : Model K)
    {q : List (MotionParameters K)} (hq : ∀ m ∈ q, ProperMotion m) (hT : 0 < p.sampling_time_ms)
    (hT' : p.sampling_time_ms < 2 ^ 63) (hN : 0 < p.preview_horizon_length) (t : Option ℕ) :
    ∃ b ivs, formQueue tr dflt old p model (shiftQueue p q (shiftArgument t)) = .ok (b, ivs) ∧
      (b = true ↔ LastsUntil q (p.preview_horizon_length * p.sampling_time_ms + shiftTime p t)) ∧
      (b = true → ∀ (i : ℕ) iv, ivs[i]? = some iv → ∃ m theta,
        InForce q ((i + 1) * p.sampling_time_ms + shiftTime p t) m ∧ StartsWith model ivs i theta ∧
        IntervalFor tr p model m theta iv) := by
  obtain ⟨-, hq'⟩ := C56_unlimited p hq t
  obtain ⟨b, ivs, h1, h2, h3⟩ := C57_queue tr dflt old p model hq' hT hT' hN
  have hpos : (0 : ℤ) < p.preview_horizon_length * p.sampling_time_ms := mul_pos (by omega) (by omega)
  refine ⟨b, ivs, h1, ?_, ?_⟩
  · rw [h2, ← inForce_exists hpos hq', ← inForce_exists (by omega) hq]
    constructor
    · rintro ⟨m, hm⟩
      obtain ⟨m', hm', -⟩ := (C56_removes p hq t hpos (command m)).mp ⟨m, hm, rfl⟩
      exact ⟨m', hm'⟩
    · rintro ⟨m, hm⟩
      obtain ⟨m', hm', -⟩ := (C56_removes p hq t hpos (command m)).mpr ⟨m, hm, rfl⟩
      exact ⟨m', hm'⟩
  · intro hb i iv hiv
    obtain ⟨m, theta, h4, h5, h6⟩ := (h3 hb).2 i iv hiv
    have hpos' : (0 : ℤ) < ((i : ℤ) + 1) * p.sampling_time_ms := mul_pos (by omega) (by omega)
    obtain ⟨m', hm', hc⟩ := (C56_removes p hq t hpos' (command m)).mp ⟨m, h4, rfl⟩
    simp only [command, Prod.mk.injEq] at hc
    refine ⟨m', theta, hm', h5, ?_⟩
    exact ⟨h6.duration_ms, h6.duration, by rw [hc.2.2.1]; exact h6.turn, h6.rotation, by rw [hc.1]; exact h6.velocity,
      by rw [hc.2.1]; exact h6.position, h6.base_height, h6.body_height, h6.base_mass, h6.body_mass, h6.cop_bounds,
      h6.velocity_bounds, h6.acceleration_bounds, h6.body_bounds⟩

/-- A zero sampling time leads to a division by zero. -/
theorem C57_zero_sampling (tr : Trig K) (dflt : Interval K) (old : List (Interval K)) (model : Model K) (N Ts : ℕ)
    {m : MotionParameters K} (hm : ¬ Unlimited m) (q : List (MotionParameters K)) :
    formQueue tr dflt old ⟨N, 0, Ts⟩ model (m :: q) = .error .ub := by
  unfold formQueue formLoop
  rw [if_neg (show ¬ (m.duration_ms = unlimitedDuration) from hm), require_false (by simp)]
  rfl

/-- The condition on the horizon is needed: with an empty queue an empty horizon is refused, although no time has to be
covered. -/
example (tr : Trig ℚ) (dflt : Interval ℚ) (model : Model ℚ) :
    formQueue tr dflt [] ⟨0, 100, 100⟩ model [] = .ok (false, []) ∧ LastsUntil ([] : List (MotionParameters ℚ)) (0 * 100) :=
  ⟨rfl, Or.inr (by simp)⟩

/-- Five intervals of 70 ms, which are not aligned with the motions: the second one ends at 140 ms and follows the first motion,
the fourth one ends at 280 ms and follows the second motion although 40 ms of it still belong to the first one; the last
motion is reached at the end of the sixth interval. -/
example : InForce exampleQueue ((1 + 1) * 70) ⟨![1, 0], 0, 0, 250, .maintainVelocity⟩ ∧
    InForce exampleQueue ((3 + 1) * 70) ⟨![0, 1], 0, 2, 100, .maintainVelocity⟩ ∧
    InForce exampleQueue ((4 + 1) * 70) ⟨![0, 1], 0, 2, 100, .maintainVelocity⟩ ∧
    InForce exampleQueue ((5 + 1) * 70) ⟨0, ![3, 4], 0, -1, .maintainPosition⟩ := by
  refine ⟨inForce_cons.mpr (Or.inl ⟨by norm_num, rfl, Or.inr (by norm_num)⟩), ?_, ?_, ?_⟩
  · refine inForce_cons.mpr (Or.inr ⟨by simp [Unlimited], ?_⟩)
    exact inForce_cons.mpr (Or.inl ⟨by norm_num, rfl, Or.inr (by norm_num)⟩)
  · refine inForce_cons.mpr (Or.inr ⟨by simp [Unlimited], ?_⟩)
    exact inForce_cons.mpr (Or.inl ⟨by norm_num, rfl, Or.inr (by norm_num)⟩)
  · refine inForce_cons.mpr (Or.inr ⟨by simp [Unlimited], ?_⟩)
    refine inForce_cons.mpr (Or.inr ⟨by simp [Unlimited], ?_⟩)
    exact inForce_cons.mpr (Or.inl ⟨by norm_num, rfl, Or.inl rfl⟩)

example (tr : Trig ℚ) (dflt : Interval ℚ) (model : Model ℚ) :
    ∃ b ivs, formQueue tr dflt [] ⟨5, 70, 70⟩ model exampleQueue = .ok (b, ivs) ∧
      (b = true ↔ LastsUntil exampleQueue (5 * 70)) ∧ (b = true → HorizonFor tr ⟨5, 70, 70⟩ model exampleQueue ivs) := by
  have := C57_queue tr dflt [] ⟨5, 70, 70⟩ model exampleQueue_proper (by norm_num) (by norm_num) (by norm_num)
  exact_mod_cast this

/-! ## C58 -/

theorem intervalByOffsetMs_spec (ivs : List (Interval K)) (k0 off : ℕ) :
    (∀ k rest, Contains (ivs.map fun iv => iv.T_ms) off k rest → intervalByOffsetMs k0 ivs off = .ok (k0 + k, rest)) ∧
    ((∀ k rest, ¬ Contains (ivs.map fun iv => iv.T_ms) off k rest) → intervalByOffsetMs k0 ivs off = .error .thrown) := by
  induction ivs generalizing k0 off with
  | nil =>
    exact ⟨fun k rest h => absurd h.inside (by simp), fun _ => rfl⟩
  | cons iv ivs ih =>
    unfold intervalByOffsetMs
    by_cases hgt : off > iv.T_ms
    · rw [if_pos hgt]
      obtain ⟨ih1, ih2⟩ := ih (k0 + 1) (off - iv.T_ms)
      constructor
      · intro k rest h
        cases k with
        | zero =>
          have := h.stop
          simp only [List.map_cons, startOf_cons, startOf_zero] at this
          omega
        | succ k =>
          have h1 : Contains (ivs.map fun iv => iv.T_ms) (off - iv.T_ms) k rest := by
            refine ⟨by simpa using h.inside, ?_, h.start, ?_, ?_⟩
            · have := h.offset
              simp only [List.map_cons, startOf_cons] at this
              omega
            · have := h.stop
              simp only [List.map_cons, startOf_cons] at this
              omega
            · intro j hj
              have := h.first (j + 1) (by omega)
              simp only [List.map_cons, startOf_cons] at this
              omega
          rw [ih1 k rest h1]
          congr 2
          omega
      · intro h
        refine ih2 fun k rest h1 => h (k + 1) rest ⟨by simpa using h1.inside, ?_, h1.start, ?_, ?_⟩
        · have := h1.offset
          simp only [List.map_cons, startOf_cons]
          omega
        · have := h1.stop
          simp only [List.map_cons, startOf_cons]
          omega
        · intro j hj
          cases j with
          | zero =>
            simp only [List.map_cons, startOf_cons, startOf_zero]
            omega
          | succ j =>
            have := h1.first j (by omega)
            simp only [List.map_cons, startOf_cons]
            omega
    · rw [if_neg hgt]
      have hc : Contains ((iv :: ivs).map fun iv => iv.T_ms) off 0 off :=
        ⟨by simp, by simp [startOf_zero], Nat.zero_le _, by
          simp only [List.map_cons, startOf_cons, startOf_zero]; omega, fun j hj => by omega⟩
      constructor
      · intro k rest h
        cases k with
        | zero =>
          have := h.offset
          rw [startOf_zero, zero_add] at this
          rw [this]
          rfl
        | succ k =>
          have := h.first 0 (by omega)
          simp only [List.map_cons, startOf_cons, startOf_zero] at this
          omega
      · intro h
        exact absurd hc (h 0 off)

/-- **C58**, milliseconds: the interval which contains the instant is returned, with the offset from its start; there is an
exception exactly when the horizon does not contain the instant. -/
theorem C58_milliseconds (ivs : List (Interval K)) (off : ℕ) :
    (∀ k rest, intervalByOffsetMs 0 ivs off = .ok (k, rest) ↔ Contains (ivs.map fun iv => iv.T_ms) off k rest) ∧
    (intervalByOffsetMs 0 ivs off = .error .thrown ↔ ivs = [] ∨ (ivs.map fun iv => iv.T_ms).sum < off) := by
  obtain ⟨h1, h2⟩ := intervalByOffsetMs_spec ivs 0 off
  have hex : (∃ k rest, Contains (ivs.map fun iv => iv.T_ms) off k rest) ↔
      ¬ (ivs = [] ∨ (ivs.map fun iv => iv.T_ms).sum < off) := by
    clear h1 h2
    induction ivs generalizing off with
    | nil =>
      constructor
      · rintro ⟨k, rest, h⟩
        exact absurd h.inside (by simp)
      · intro h
        exact absurd (Or.inl rfl) h
    | cons iv ivs ih =>
      by_cases hle : off ≤ iv.T_ms
      · refine ⟨fun _ => ?_, fun _ => ⟨0, off, by simp, by simp [startOf_zero], Nat.zero_le _, by
          simp only [List.map_cons, startOf_cons, startOf_zero]; omega, fun j hj => by omega⟩⟩
        simp only [List.map_cons, List.sum_cons, List.cons_ne_nil, false_or, not_lt]
        omega
      · have := ih (off - iv.T_ms)
        constructor
        · rintro ⟨k, rest, h⟩
          cases k with
          | zero =>
            have := h.stop
            simp only [List.map_cons, startOf_cons, startOf_zero] at this
            omega
          | succ k =>
            have hc : Contains (ivs.map fun iv => iv.T_ms) (off - iv.T_ms) k rest := by
              refine ⟨by simpa using h.inside, ?_, h.start, ?_, ?_⟩
              · have := h.offset
                simp only [List.map_cons, startOf_cons] at this
                omega
              · have := h.stop
                simp only [List.map_cons, startOf_cons] at this
                omega
              · intro j hj
                have := h.first (j + 1) (by omega)
                simp only [List.map_cons, startOf_cons] at this
                omega
            have h3 := this.mp ⟨k, rest, hc⟩
            simp only [not_or, not_lt] at h3
            simp only [List.map_cons, List.sum_cons, List.cons_ne_nil, false_or, not_lt]
            omega
        · intro h
          simp only [List.map_cons, List.sum_cons, List.cons_ne_nil, false_or, not_lt] at h
          have h3 : ¬ (ivs = [] ∨ (ivs.map fun iv => iv.T_ms).sum < off - iv.T_ms) := by
            rintro (rfl | h4)
            · simp at h; omega
            · omega
          obtain ⟨k, rest, h1⟩ := this.mpr h3
          refine ⟨k + 1, rest, by simpa using h1.inside, ?_, h1.start, ?_, ?_⟩
          · have := h1.offset
            simp only [List.map_cons, startOf_cons]
            omega
          · have := h1.stop
            simp only [List.map_cons, startOf_cons]
            omega
          · intro j hj
            cases j with
            | zero =>
              simp only [List.map_cons, startOf_cons, startOf_zero]
              omega
            | succ j =>
              have := h1.first j (by omega)
              simp only [List.map_cons, startOf_cons]
              omega
  constructor
  · intro k rest
    constructor
    · intro h
      by_cases hn : ∃ k rest, Contains (ivs.map fun iv => iv.T_ms) off k rest
      · obtain ⟨k', rest', hc⟩ := hn
        rw [h1 k' rest' hc, zero_add] at h
        cases h
        exact hc
      · rw [h2 (fun k rest hc => hn ⟨k, rest, hc⟩)] at h
        cases h
    · intro h
      have := h1 k rest h
      rwa [zero_add] at this
  · constructor
    · intro h
      by_contra hc
      obtain ⟨k, rest, hk⟩ := hex.mpr hc
      rw [h1 k rest hk] at h
      cases h
    · intro h
      exact h2 fun k rest hk => (hex.mp ⟨k, rest, hk⟩) h

variable [LinearOrder K] [IsStrictOrderedRing K]

theorem intervalByOffset_spec (ivs : List (Interval K)) (k0 : ℕ) (off : K) (hd : ∀ iv ∈ ivs, 0 ≤ iv.T) (h0 : 0 ≤ off) :
    (∃ k rest, Contains (ivs.map fun iv => iv.T) off k rest ∧ intervalByOffset k0 ivs off = .ok (k0 + k, rest)) ∨
    ((ivs = [] ∨ (ivs.map fun iv => iv.T).sum < off) ∧ intervalByOffset k0 ivs off = .error .thrown) := by
  induction ivs generalizing k0 off with
  | nil => exact Or.inr ⟨Or.inl rfl, rfl⟩
  | cons iv ivs ih =>
    unfold intervalByOffset
    by_cases hgt : off > iv.T
    · rw [if_pos hgt]
      rcases ih (k0 + 1) (off - iv.T) (fun iv h => hd iv (by simp [h])) (by linarith) with ⟨k, rest, h1, h2⟩ | ⟨h1, h2⟩
      · refine Or.inl ⟨k + 1, rest, ⟨by simpa using h1.inside, ?_, h1.start, ?_, ?_⟩, ?_⟩
        · have := h1.offset
          simp only [List.map_cons, startOf_cons]
          linarith
        · have := h1.stop
          simp only [List.map_cons, startOf_cons]
          linarith
        · intro j hj
          cases j with
          | zero =>
            simp only [List.map_cons, startOf_cons, startOf_zero]
            linarith
          | succ j =>
            have := h1.first j (by omega)
            simp only [List.map_cons, startOf_cons]
            linarith
        · rw [h2]
          congr 2
          omega
      · refine Or.inr ⟨Or.inr ?_, h2⟩
        rw [List.map_cons, List.sum_cons]
        rcases h1 with rfl | h1
        · simpa using hgt
        · linarith
    · rw [if_neg hgt]
      refine Or.inl ⟨0, off, ⟨by simp, by simp [startOf_zero], h0, ?_, fun j hj => by omega⟩, rfl⟩
      simp only [List.map_cons, startOf_cons, startOf_zero]
      linarith [not_lt.mp hgt]

theorem contains_bound {ivs : List (Interval K)} {off rest : K} {k : ℕ} (hd : ∀ iv ∈ ivs, 0 ≤ iv.T)
    (h : Contains (ivs.map fun iv => iv.T) off k rest) : ¬ (ivs = [] ∨ (ivs.map fun iv => iv.T).sum < off) := by
  rintro (rfl | hs)
  · exact absurd h.inside (by simp)
  · have h1 := h.stop
    have h2 : startOf (ivs.map fun iv => iv.T) (k + 1) ≤ (ivs.map fun iv => iv.T).sum := by
      unfold startOf
      rw [← List.sum_take_add_sum_drop (ivs.map fun iv => iv.T) (k + 1)]
      refine le_add_of_nonneg_right (List.sum_nonneg ?_)
      intro x hx
      obtain ⟨iv, hiv, rfl⟩ := List.mem_map.mp (List.mem_of_mem_drop hx)
      exact hd iv hiv
    exact absurd (lt_of_lt_of_le hs h1) (not_lt.mpr h2)

theorem contains_unique {ivs : List (Interval K)} {off rest rest' : K} {k k' : ℕ}
    (h : Contains (ivs.map fun iv => iv.T) off k rest) (h' : Contains (ivs.map fun iv => iv.T) off k' rest') :
    k = k' ∧ rest = rest' := by
  have hk : k = k' := by
    rcases lt_trichotomy k k' with hlt | he | hlt
    · exact absurd (h'.first k hlt) (not_lt.mpr h.stop)
    · exact he
    · exact absurd (h.first k' hlt) (not_lt.mpr h'.stop)
  subst hk
  exact ⟨rfl, by linarith [h.offset, h'.offset]⟩

/-- **C58**, seconds, part: what is missing is the case of negative offsets, see `C58_negative_refuted`. -/
theorem C58_seconds_partial (ivs : List (Interval K)) (off : K) (hd : ∀ iv ∈ ivs, 0 ≤ iv.T) (h0 : 0 ≤ off) :
    (∀ k rest, intervalByOffset 0 ivs off = .ok (k, rest) ↔ Contains (ivs.map fun iv => iv.T) off k rest) ∧
    (intervalByOffset 0 ivs off = .error .thrown ↔ ivs = [] ∨ (ivs.map fun iv => iv.T).sum < off) := by
  rcases intervalByOffset_spec ivs 0 off hd h0 with ⟨k, rest, h1, h2⟩ | ⟨h1, h2⟩
  · rw [zero_add] at h2
    refine ⟨fun k' rest' => ⟨fun h => ?_, fun h => ?_⟩, ⟨fun h => ?_, fun h => ?_⟩⟩
    · rw [h2] at h
      cases h
      exact h1
    · obtain ⟨rfl, rfl⟩ := contains_unique h h1
      exact h2
    · rw [h2] at h; cases h
    · exact absurd h (contains_bound hd h1)
  · refine ⟨fun k' rest' => ⟨fun h => ?_, fun h => ?_⟩, ⟨fun _ => h1, fun _ => h2⟩⟩
    · rw [h2] at h; cases h
    · exact absurd h1 (contains_bound hd h)

/-- **C58** is violated by negative offsets in seconds, which are outside of every horizon: the first interval is returned. -/
theorem C58_negative_refuted (iv : Interval K) (rest : List (Interval K)) (hT : 0 < iv.T) {off : K} (hoff : off < 0) :
    intervalByOffset 0 (iv :: rest) off = .ok (0, off) ∧
    ∀ k r, ¬ Contains ((iv :: rest).map fun iv => iv.T) off k r := by
  constructor
  · unfold intervalByOffset
    rw [if_neg (by linarith)]
  · intro k r h
    cases k with
    | zero =>
      have h1 := h.offset
      rw [startOf_zero, zero_add] at h1
      linarith [h.start]
    | succ k =>
      have h1 := h.first 0 (by omega)
      simp only [List.map_cons, startOf_cons, startOf_zero, add_zero] at h1
      linarith

/-- An interval of the duration 0.1 s, as used in the examples. -/
def exampleInterval : Interval ℚ := ⟨0, 0, 0, 0, 0, 0, 1, 2, 3, 4, 100, 1 / 10, 0, 0⟩

/-- The end of an interval belongs to it, not to the next one. -/
example : intervalByOffsetMs 0 [exampleInterval, exampleInterval, exampleInterval] 200 = .ok (1, 100) ∧
    intervalByOffsetMs 0 [exampleInterval, exampleInterval, exampleInterval] 201 = .ok (2, 1) ∧
    intervalByOffsetMs 0 [exampleInterval, exampleInterval, exampleInterval] 301 = .error .thrown := ⟨rfl, rfl, rfl⟩

example : intervalByOffset 0 [exampleInterval, exampleInterval] (3 / 20 : ℚ) = .ok (1, 1 / 20) := by
  norm_num [intervalByOffset, exampleInterval]

end Humoto.Pepper
