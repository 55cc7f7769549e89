import Verif.Props.PepperProgram

/-!
# The motion of Pepper with the least cost is unique
-/

namespace Humoto.Pepper

open Spec

section
variable {K : Type} [Field K] [LinearOrder K] [IsStrictOrderedRing K] {ivs : List (Interval K)} {x0 : Vec K} {x y : ℕ → K} {X Y : ℕ → Vec K}
  {o : ProblemSetup K}

/-- The middle between two solutions. -/
def midSol (x y : ℕ → K) : ℕ → K := fun i => (x i + y i) / 2

/-- The middle between two states. -/
def midState (X Y : Vec K) : Vec K := ⟨X.n, midSol X.e Y.e⟩

theorem movesTo_mid {p v a j t p' v' a' q w b i q' w' b' : K} (h : MovesTo p v a j t p' v' a') (h' : MovesTo q w b i t q' w' b') :
    MovesTo ((p + q) / 2) ((v + w) / 2) ((a + b) / 2) ((j + i) / 2) t ((p' + q') / 2) ((v' + w') / 2) ((a' + b') / 2) := by
  obtain ⟨rfl, rfl, rfl⟩ := h
  obtain ⟨rfl, rfl, rfl⟩ := h'
  unfold MovesTo positionAt velocityAt accelerationAt
  exact ⟨by ring, by ring, by ring⟩

theorem step_mid {T τ : K} {z z' u u' w w' c : Vec K} (h : PepperStep T τ z u w) (h' : PepperStep T τ z' u' w') (hn : c.n = 4)
    (hc : ∀ i < 4, c.e i = (u.e i + u'.e i) / 2) : PepperStep T τ (midState z z') c (midState w w') := by
  obtain ⟨n1, -, n3, h1, h2⟩ := h
  obtain ⟨-, -, -, h1', h2'⟩ := h'
  refine ⟨n1, hn, n3, fun k hk => ?_, fun k hk hk' => ?_⟩
  · obtain ⟨j, e, m⟩ := h1 k hk
    obtain ⟨j', e', m'⟩ := h1' k hk
    refine ⟨(j + j') / 2, ?_, movesTo_mid m m'⟩
    rw [hc k (by omega), ← e, ← e']
    show velocityAt ((_ + _) / 2) ((_ + _) / 2) _ _ = _
    unfold velocityAt
    ring
  · rw [hc k hk']
    exact movesTo_mid (h2 k hk hk') (h2' k hk hk')

theorem simulates_mid (h : Simulates ivs x0 x X) (h' : Simulates ivs x0 y Y) :
    Simulates ivs x0 (midSol x y) fun k => midState (X k) (Y k) := by
  constructor
  · show midState (X 0) (Y 0) = x0
    rw [h.1, h'.1]
    unfold midState midSol
    obtain ⟨n, e⟩ := x0
    simp only [Vec.mk.injEq, true_and]
    funext i
    ring
  · intro k iv hiv
    refine step_mid (h.2 k iv hiv) (h'.2 k iv hiv) rfl fun i hi => ?_
    interval_cases i <;> rfl

/-- Quantities which are affine. -/
def AffineQuantity (Q : Quantity K) : Prop := ∀ iv X Y X' Y' a, Q iv (midState X X') (midState Y Y') a = (Q iv X Y a + Q iv X' Y' a) / 2

theorem affine_velocity : AffineQuantity (velocityQuantity (K := K)) := fun _ _ _ _ _ _ => rfl

theorem affine_acceleration : AffineQuantity (accelerationQuantity (K := K)) := fun _ _ _ _ _ _ => rfl

theorem affine_cop : AffineQuantity (copQuantity (K := K)) := fun iv X Y X' Y' a => by
  unfold copQuantity intervalCop midState midSol
  ring

theorem affine_body : AffineQuantity (bodyQuantity (K := K)) := fun iv X Y X' Y' a => by
  unfold bodyQuantity bodyOffset midState midSol
  ring

theorem affine_baseJerk : AffineQuantity (baseJerkQuantity (K := K)) := fun iv X Y X' Y' a => by
  unfold baseJerkQuantity baseAcceleration midState midSol
  ring

theorem affine_bodyJerk : AffineQuantity (bodyJerkQuantity (K := K)) := fun iv X Y X' Y' a => by
  unfold bodyJerkQuantity bodyAcceleration midState midSol
  ring

theorem affine_position : AffineQuantity (positionErrorQuantity (K := K)) := fun iv X Y X' Y' a => by
  unfold positionErrorQuantity basePosition midState midSol
  ring

theorem affine_velocityError : AffineQuantity (velocityErrorQuantity (K := K)) := fun iv X Y X' Y' a => by
  unfold velocityErrorQuantity baseVelocity midState midSol
  ring

theorem within_mid {Q : Quantity K} (hQ : AffineQuantity Q) {b : Interval K → Fin 2 → Fin 2 → K} (h : MotionWithin ivs Q b X)
    (h' : MotionWithin ivs Q b Y) : MotionWithin ivs Q b fun k => midState (X k) (Y k) := by
  intro k iv hiv a
  obtain ⟨h1, h2⟩ := h k iv hiv a
  obtain ⟨h3, h4⟩ := h' k iv hiv a
  rw [hQ]
  constructor
  · rw [le_div_iff₀ two_pos]; linarith
  · rw [div_le_iff₀ two_pos]; linarith

theorem pepperAllowed_mid (h : PepperAllowed ivs X) (h' : PepperAllowed ivs Y) : PepperAllowed ivs fun k => midState (X k) (Y k) :=
  ⟨within_mid affine_velocity h.velocity h'.velocity, within_mid affine_acceleration h.acceleration h'.acceleration,
    within_mid affine_cop h.cop h'.cop, within_mid affine_body h.body h'.body⟩

/-- Sum of squared differences of a quantity. -/
def motionDistance (ivs : List (Interval K)) (Q : Quantity K) (X Y : ℕ → Vec K) : K :=
  ∑ k : Fin ivs.length, ∑ a : Fin 2, (Q ivs[k] (X k) (X (k + 1)) a - Q ivs[k] (Y k) (Y (k + 1)) a) ^ 2

theorem motionDistance_nonneg (Q : Quantity K) : 0 ≤ motionDistance ivs Q X Y :=
  Finset.sum_nonneg fun _ _ => Finset.sum_nonneg fun _ _ => sq_nonneg _

theorem motionDistance_zero {Q : Quantity K} (h : motionDistance ivs Q X Y = 0) {k : ℕ} {iv : Interval K} (hiv : ivs[k]? = some iv) (a : Fin 2) :
    Q iv (X k) (X (k + 1)) a = Q iv (Y k) (Y (k + 1)) a := by
  obtain ⟨hk, rfl⟩ := List.getElem?_eq_some_iff.1 hiv
  have h1 := (Finset.sum_eq_zero_iff_of_nonneg fun _ _ => Finset.sum_nonneg fun _ _ => sq_nonneg _).1 h ⟨k, hk⟩ (Finset.mem_univ _)
  have h2 := (Finset.sum_eq_zero_iff_of_nonneg fun _ _ => sq_nonneg _).1 h1 a (Finset.mem_univ _)
  exact sub_eq_zero.1 (pow_eq_zero_iff two_ne_zero |>.1 h2)

theorem motionCost_mid {Q : Quantity K} (hQ : AffineQuantity Q) (X Y : ℕ → Vec K) :
    motionCost ivs Q X + motionCost ivs Q Y - 2 * motionCost ivs Q (fun k => midState (X k) (Y k)) = 1 / 2 * motionDistance ivs Q X Y := by
  unfold motionCost motionDistance
  rw [Finset.mul_sum, Finset.mul_sum, ← Finset.sum_add_distrib, ← Finset.sum_sub_distrib]
  refine Finset.sum_congr rfl fun k _ => ?_
  rw [Finset.mul_sum, Finset.mul_sum, ← Finset.sum_add_distrib, ← Finset.sum_sub_distrib]
  refine Finset.sum_congr rfl fun a _ => ?_
  rw [hQ]
  ring

/-- Two motions with the least cost have the same jerks. -/
theorem jerks_unique (hg : o.baseJerkGain ≠ 0 ∧ o.bodyJerkGain ≠ 0)
    (h : pepperCost o ivs X ≤ pepperCost o ivs fun k => midState (X k) (Y k))
    (h' : pepperCost o ivs Y ≤ pepperCost o ivs fun k => midState (X k) (Y k)) :
    motionDistance ivs baseJerkQuantity X Y = 0 ∧ motionDistance ivs bodyJerkQuantity X Y = 0 := by
  have e1 := motionCost_mid (ivs := ivs) affine_position X Y
  have e2 := motionCost_mid (ivs := ivs) affine_velocityError X Y
  have e3 := motionCost_mid (ivs := ivs) affine_baseJerk X Y
  have e4 := motionCost_mid (ivs := ivs) affine_bodyJerk X Y
  have e5 := motionCost_mid (ivs := ivs) affine_cop X Y
  have d1 : 0 ≤ o.positionGain ^ 2 * motionDistance ivs positionErrorQuantity X Y := mul_nonneg (sq_nonneg _) (motionDistance_nonneg _)
  have d2 : 0 ≤ o.velocityGain ^ 2 * motionDistance ivs velocityErrorQuantity X Y := mul_nonneg (sq_nonneg _) (motionDistance_nonneg _)
  have d3 : 0 ≤ o.baseJerkGain ^ 2 * motionDistance ivs baseJerkQuantity X Y := mul_nonneg (sq_nonneg _) (motionDistance_nonneg _)
  have d4 : 0 ≤ o.bodyJerkGain ^ 2 * motionDistance ivs bodyJerkQuantity X Y := mul_nonneg (sq_nonneg _) (motionDistance_nonneg _)
  have d5 : 0 ≤ o.copGain ^ 2 * motionDistance ivs copQuantity X Y := mul_nonneg (sq_nonneg _) (motionDistance_nonneg _)
  have hsum : o.baseJerkGain ^ 2 * motionDistance ivs baseJerkQuantity X Y + o.bodyJerkGain ^ 2 * motionDistance ivs bodyJerkQuantity X Y ≤ 0 := by
    unfold pepperCost at h h'
    by_cases hm : o.mode = .maintainPosition
    · simp only [if_pos hm] at h h'
      linear_combination 2 * h + 2 * h' - 2 * o.positionGain ^ 2 * e1 - 2 * o.baseJerkGain ^ 2 * e3 - 2 * o.bodyJerkGain ^ 2 * e4 -
        2 * o.copGain ^ 2 * e5 + d1 + d5
    · simp only [if_neg hm] at h h'
      linear_combination 2 * h + 2 * h' - 2 * o.velocityGain ^ 2 * e2 - 2 * o.baseJerkGain ^ 2 * e3 - 2 * o.bodyJerkGain ^ 2 * e4 -
        2 * o.copGain ^ 2 * e5 + d2 + d5
  constructor
  · have : o.baseJerkGain ^ 2 * motionDistance ivs baseJerkQuantity X Y = 0 := by linarith
    exact (mul_eq_zero.1 this).resolve_left (pow_ne_zero 2 hg.1)
  · have : o.bodyJerkGain ^ 2 * motionDistance ivs bodyJerkQuantity X Y = 0 := by linarith
    exact (mul_eq_zero.1 this).resolve_left (pow_ne_zero 2 hg.2)

/-- The same jerks give the same motion and the same controls. -/
theorem motion_of_jerks (hT : ∀ iv ∈ ivs, iv.T ≠ 0) (h : Simulates ivs x0 x X) (h' : Simulates ivs x0 y Y)
    (hb : ∀ (k : ℕ) iv, ivs[k]? = some iv → ∀ a, baseJerkQuantity iv (X k) (X (k + 1)) a = baseJerkQuantity iv (Y k) (Y (k + 1)) a)
    (hd : ∀ (k : ℕ) iv, ivs[k]? = some iv → ∀ a, bodyJerkQuantity iv (X k) (X (k + 1)) a = bodyJerkQuantity iv (Y k) (Y (k + 1)) a) :
    ∀ k ≤ ivs.length, (∀ i < 12, (X k).e i = (Y k).e i) ∧ ∀ j < k, ∀ i < 4,
      (controlAt ivs.length x j).e i = (controlAt ivs.length y j).e i := by
  intro k
  induction k with
  | zero => exact fun _ => ⟨fun i _ => by rw [h.1, h'.1], fun j hj => by omega⟩
  | succ k ih =>
    intro hk
    obtain ⟨i1, i2⟩ := ih (by omega)
    have hiv : ivs[k]? = some ivs[k] := List.getElem?_eq_getElem (by omega)
    generalize ivs[k] = iv at hiv
    have hT := hT iv (List.mem_of_getElem? hiv)
    have s1 := h.2 k iv hiv
    have s2 := h'.2 k iv hiv
    have hacc : ∀ b < 4, (X (k + 1)).e (3 * b + 2) = (Y (k + 1)).e (3 * b + 2) := by
      intro b hb4
      by_cases hb2 : b < 2
      · have := hb k iv hiv ⟨b, hb2⟩
        unfold baseJerkQuantity baseAcceleration at this
        rw [div_left_inj' hT] at this
        have e := i1 (3 * b + 2) (by omega)
        simp only at this
        rw [e] at this
        exact sub_left_inj.1 this
      · have := hd k iv hiv ⟨b - 2, by omega⟩
        unfold bodyJerkQuantity bodyAcceleration at this
        rw [div_left_inj' hT] at this
        have e := i1 (3 * b + 2) (by omega)
        simp only at this
        rw [show 3 * (b - 2 + 2) + 2 = 3 * b + 2 by omega, e] at this
        exact sub_left_inj.1 this
    have hj : ∀ b < 4, stepJerk iv.T (X k) (controlAt ivs.length x k) b = stepJerk iv.T (Y k) (controlAt ivs.length y k) b := by
      intro b hb4
      have e1 := (PepperStep.eq hT s1 hb4).2.2
      have e2 := (PepperStep.eq hT s2 hb4).2.2
      have := hacc b hb4
      rw [e1, e2, i1 (3 * b + 2) (by omega)] at this
      unfold accelerationAt at this
      exact mul_right_cancel₀ hT (add_left_cancel this)
    have hX : ∀ b < 4, ∀ p < 3, (X (k + 1)).e (3 * b + p) = (Y (k + 1)).e (3 * b + p) := by
      intro b hb4 p hp
      obtain ⟨a0, a1, a2⟩ := PepperStep.eq hT s1 hb4
      obtain ⟨b0, b1, b2⟩ := PepperStep.eq hT s2 hb4
      have hp' : p = 0 ∨ p = 1 ∨ p = 2 := by omega
      rcases hp' with rfl | rfl | rfl
      · show (X (k + 1)).e (3 * b) = (Y (k + 1)).e (3 * b)
        rw [a0, b0, hj b hb4, i1 _ (by omega), i1 _ (by omega), i1 _ (by omega)]
      · rw [a1, b1, hj b hb4, i1 _ (by omega), i1 _ (by omega)]
      · rw [a2, b2, hj b hb4, i1 _ (by omega)]
    refine ⟨fun i hi => ?_, fun j hjk i hi => ?_⟩
    · have := hX (i / 3) (by omega) (i % 3) (by omega)
      rwa [show 3 * (i / 3) + i % 3 = i by omega] at this
    · rcases Nat.lt_succ_iff_lt_or_eq.1 hjk with hlt | rfl
      · exact i2 j hlt i hi
      · by_cases hi2 : i < 2
        · obtain ⟨-, -, -, c1, -⟩ := s1
          obtain ⟨-, -, -, c2, -⟩ := s2
          obtain ⟨j1, d1, -, m1, -⟩ := c1 i hi2
          obtain ⟨j2, d2, -, m2, -⟩ := c2 i hi2
          rw [← d1, ← d2, ← m1, ← m2]
          exact hX i hi 1 (by omega)
        · have := hj i hi
          unfold stepJerk at this
          rwa [if_neg hi2, if_neg hi2] at this

/-- The best motion is unique, if all allowed motions are moderate. -/
theorem pepper_unique (hT : ∀ iv ∈ ivs, iv.T ≠ 0) (h0 : x0.n = 12) (hg : o.baseJerkGain ≠ 0 ∧ o.bodyJerkGain ≠ 0)
    (hM : ∀ z, PepperFeasible ivs x0 z → PepperModerate ivs z)
    (hx : PepperBest o ivs x0 0 (PepperModerate ivs) x) (hy : PepperBest o ivs x0 0 (PepperModerate ivs) y) :
    ∀ v < 4 * ivs.length, x v = y v := by
  have s1 := simulation_simulates hT h0 x
  have s2 := simulation_simulates hT h0 y
  have sm := simulates_mid s1 s2
  obtain ⟨a1, l1⟩ := hx _ s1
  obtain ⟨a2, l2⟩ := hy _ s2
  have am := pepperAllowed_mid a1 a2
  have hmm : PepperModerate ivs (midSol x y) := by
    intro v hv
    have m1 := hM x (fun X hX => (hx X hX).1) v hv
    have m2 := hM y (fun X hX => (hy X hX).1) v hv
    unfold midSol
    constructor
    · rw [le_div_iff₀ two_pos]; linarith [m1.1, m2.1]
    · rw [div_le_iff₀ two_pos]; linarith [m1.2, m2.2]
  have l1 := l1 _ _ sm am hmm
  have l2 := l2 _ _ sm am hmm
  rw [zero_mul, zero_mul, add_zero, add_zero] at l1 l2
  obtain ⟨d1, d2⟩ := jerks_unique hg l1 l2
  have key := (motion_of_jerks hT s1 s2 (fun k iv hiv a => motionDistance_zero d1 hiv a) (fun k iv hiv a => motionDistance_zero d2 hiv a)
    ivs.length le_rfl).2
  intro v hv
  by_cases hv2 : v < 2 * ivs.length
  · have := key (v / 2) (by omega) (v % 2) (by omega)
    have hp : v % 2 = 0 ∨ v % 2 = 1 := by omega
    rcases hp with hp | hp <;> rw [hp] at this
    · have this : x (2 * (v / 2)) = y (2 * (v / 2)) := this
      rwa [show 2 * (v / 2) = v by omega] at this
    · have this : x (2 * (v / 2) + 1) = y (2 * (v / 2) + 1) := this
      rwa [show 2 * (v / 2) + 1 = v by omega] at this
  · have := key ((v - 2 * ivs.length) / 2) (by omega) (v % 2 + 2) (by omega)
    have hp : v % 2 = 0 ∨ v % 2 = 1 := by omega
    rcases hp with hp | hp <;> rw [hp] at this
    · have this : x (2 * ivs.length + 2 * ((v - 2 * ivs.length) / 2)) = y (2 * ivs.length + 2 * ((v - 2 * ivs.length) / 2)) := this
      rwa [show 2 * ivs.length + 2 * ((v - 2 * ivs.length) / 2) = v by omega] at this
    · have this : x (2 * ivs.length + 2 * ((v - 2 * ivs.length) / 2) + 1) = y (2 * ivs.length + 2 * ((v - 2 * ivs.length) / 2) + 1) := this
      rwa [show 2 * ivs.length + 2 * ((v - 2 * ivs.length) / 2) + 1 = v by omega] at this

end

end Humoto.Pepper
