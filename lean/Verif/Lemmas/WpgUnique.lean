import Verif.Props.WpgProblem

/-!
# The motion with the least cost is unique
-/

namespace Humoto.Wpg

open Spec Spec.Wpg
open PointMass6z

/-- The middle between two solutions, states or positions. -/
noncomputable def mid {α : Type} (x y : α → ℝ) : α → ℝ := fun i => (x i + y i) / 2

theorem isTurned_mid {θ : ℝ} {v v' r r' : Fin 2 → ℝ} (h : IsTurned θ v r) (h' : IsTurned θ v' r') : IsTurned θ (mid v v') (mid r r') := by
  unfold IsTurned mid at *
  obtain ⟨h1, h2⟩ := h
  obtain ⟨h3, h4⟩ := h'
  constructor
  · rw [h1, h3]; ring
  · rw [h2, h4]; ring

theorem isTurned_inj {θ : ℝ} {v v' r : Fin 2 → ℝ} (h : IsTurned θ v r) (h' : IsTurned θ v' r) : v = v' := by
  unfold IsTurned at *
  obtain ⟨h1, h2⟩ := h
  obtain ⟨h3, h4⟩ := h'
  have hs := Real.sin_sq_add_cos_sq θ
  have key : ∀ w : Fin 2 → ℝ, r 0 = Real.cos θ * w 0 - Real.sin θ * w 1 → r 1 = Real.sin θ * w 0 + Real.cos θ * w 1 →
      w 0 = Real.cos θ * r 0 + Real.sin θ * r 1 ∧ w 1 = Real.cos θ * r 1 - Real.sin θ * r 0 := by
    intro w e1 e2
    rw [e1, e2]
    constructor
    · linear_combination -(w 0) * hs
    · linear_combination -(w 1) * hs
  ext a
  fin_cases a
  · exact (key v h1 h2).1.trans (key v' h3 h4).1.symm
  · exact (key v h1 h2).2.trans (key v' h3 h4).2.symm

theorem mid_pair (x y : ℕ → ℝ) (i j : ℕ) : ![mid x y i, mid x y j] = mid ![x i, x j] ![y i, y j] := by
  ext a
  fin_cases a <;> rfl

theorem mid_sub (a b c d : Fin 2 → ℝ) : mid a b - mid c d = mid (a - c) (b - d) := by
  ext i
  simp only [mid, Pi.sub_apply]
  ring

theorem evaluate_mid (t T h : ℝ) (x y : Fin 6 → ℝ) (u v : Fin 2 → ℝ) :
    fromCoMState (evaluate t T h (mid x y) (mid u v)) = mid (fromCoMState (evaluate t T h x u)) (fromCoMState (evaluate t T h y v)) := by
  have e : ∀ z : Fin 6 → ℝ, fromCoMState (toCoMState z h) = z := by
    intro z
    ext i
    fin_cases i <;> rfl
  unfold evaluate
  rw [e, e, e]
  have hx : mid x y = (1 / 2 : ℝ) • (x + y) := by ext; simp [mid]; ring
  have hu : mid u v = (1 / 2 : ℝ) • (u + v) := by ext; simp [mid]; ring
  rw [hx, hu, Matrix.mulVec_smul, Matrix.mulVec_smul, Matrix.mulVec_add, Matrix.mulVec_add]
  ext i
  simp [mid]
  ring

section
variable {model : Model} {mpc : Mpc} {o : ProblemSetup}

/-- The motion which the middle of two solutions produces. -/
theorem prediction_mid (hR : Ready model mpc) {x y : ℕ → ℝ} {P P' cop cop' : ℕ → Fin 2 → ℝ} {X X' : ℕ → Fin 6 → ℝ}
    (h : Prediction mpc.horizon model x P cop X) (h' : Prediction mpc.horizon model y P' cop' X') :
    Prediction mpc.horizon model (mid x y) (fun j => mid (P j) (P' j)) (fun i => mid (cop i) (cop' i)) (fun i => mid (X i) (X' i)) := by
  refine ⟨⟨?_, ?_⟩, ?_, ?_, ?_⟩
  · rw [h.footsteps.start, h'.footsteps.start]
    ext; simp [mid]
  · intro j k s hk hs
    rw [mid_pair, mid_sub]
    exact isTurned_mid (h.footsteps.step j k s hk hs) (h'.footsteps.step j k s hk hs)
  · intro i s hi hs
    rw [mid_pair, mid_sub]
    exact isTurned_mid (h.pressure i s hi hs) (h'.pressure i s hi hs)
  · rw [h.start, h'.start]
    ext; simp [mid]
  · intro i hi
    have e1 := h.motion i hi
    have e2 := h'.motion i hi
    rw [moves_iff hR.consistent.height (hR.consistent.times i hi).1.ne'] at e1 e2 ⊢
    rw [e1, e2, evaluate_mid]

theorem copVelocity_mid {h T : ℝ} {x y : Fin 6 → ℝ} {u u' : Fin 2 → ℝ} {a : Fin 2} {v v' : ℝ} (e : IsCopVelocity h T x u a v)
    (e' : IsCopVelocity h T y u' a v') : IsCopVelocity h T (mid x y) (mid u u') a ((v + v') / 2) := by
  obtain ⟨z, h1, h2⟩ := e
  obtain ⟨z', h3, h4⟩ := e'
  refine ⟨(z + z') / 2, ?_, ?_⟩
  · unfold IsZmp at *
    simp only [mid]
    linear_combination (1 / 2 : ℝ) * h1 + (1 / 2 : ℝ) * h3
  · simp only [mid]
    linear_combination (1 / 2 : ℝ) * h2 + (1 / 2 : ℝ) * h4

theorem capture_mid {h : ℝ} (hh : 0 < h) {x y : Fin 6 → ℝ} {a : Fin 2} (e : IsCapturePointVelocity h x a 0)
    (e' : IsCapturePointVelocity h y a 0) : IsCapturePointVelocity h (mid x y) a 0 := by
  obtain ⟨w, h1, h2, h3⟩ := e
  obtain ⟨w', h1', h2', h3'⟩ := e'
  have ew : w' = w := by
    have : (w' - w) * (w' + w) * h = 0 := by linear_combination h2' - h2
    rcases mul_eq_zero.1 this with h4 | h4
    · rcases mul_eq_zero.1 h4 with h5 | h5
      · linarith
      · linarith
    · exact absurd h4 hh.ne'
  subst ew
  refine ⟨w', h1, h2, ?_⟩
  simp only [mid]
  linear_combination (1 / 2 : ℝ) * h3 + (1 / 2 : ℝ) * h3'

theorem allowed_mid (hR : Ready model mpc) {x y : ℕ → ℝ} (hx : AllowedMotion o mpc.horizon model x)
    (hy : AllowedMotion o mpc.horizon model y) : AllowedMotion o mpc.horizon model (mid x y) := by
  refine ⟨?_, ?_, fun ht P cop X hP a => ?_⟩
  · have h1 := hx.steps
    have h2 := hy.steps
    split_ifs at h1 h2 ⊢ with hf
    · intro j k s hk hs
      obtain ⟨a1, a2⟩ := h1 j k s hk hs
      obtain ⟨b1, b2⟩ := h2 j k s hk hs
      simp only [mid]
      rw [a1, a2, b1, b2]
      constructor <;> ring
    · intro j k s hk hs a
      obtain ⟨a1, a2⟩ := h1 j k s hk hs a
      obtain ⟨b1, b2⟩ := h2 j k s hk hs a
      simp only [mid]
      constructor <;> linarith
  · intro i s hi hs a
    obtain ⟨a1, a2⟩ := hx.cop i s hi hs a
    obtain ⟨b1, b2⟩ := hy.cop i s hi hs a
    simp only [mid]
    constructor <;> linarith
  · obtain ⟨P1, cop1, X1, p1, -⟩ := C75_motion hR.consistent x
    obtain ⟨P2, cop2, X2, p2, -⟩ := C75_motion hR.consistent y
    obtain ⟨-, -, e⟩ := prediction_unique hR.consistent.matrices (prediction_mid hR p1 p2) hP
    rw [e _ le_rfl]
    exact capture_mid hR.consistent.height (hx.terminal ht _ _ _ p1 a) (hy.terminal ht _ _ _ p2 a)

/-- In terms of the predicted motion: the cost is the least, so that the squared differences vanish. -/
theorem least_unique (hR : Ready model mpc) {S : (ℕ → ℝ) → Prop} {x y : ℕ → ℝ} (hx : BestMotion o mpc.horizon model 0 S x)
    (hy : BestMotion o mpc.horizon model 0 S y) (hSx : S x) (hSy : S y) (hSm : S (mid x y))
    {P P' cop cop' : ℕ → Fin 2 → ℝ} {X X' : ℕ → Fin 6 → ℝ} (p1 : Prediction mpc.horizon model x P cop X)
    (p2 : Prediction mpc.horizon model y P' cop' X') {i : ℕ} (hi : i < mpc.horizon.intervals.n) (a : Fin 2) :
    (o.comVelocityGain ≠ 0 → velocityOf (X (i + 1)) a = velocityOf (X' (i + 1)) a) ∧
    (o.copPositionGain ≠ 0 → x (2 * i + a) = y (2 * i + a)) := by
  have hV : ∀ {x : ℕ → ℝ} {P cop : ℕ → Fin 2 → ℝ} {X : ℕ → Fin 6 → ℝ}, Prediction mpc.horizon model x P cop X → ∃ V : ℕ → Fin 2 → ℝ,
      ∀ i < mpc.horizon.intervals.n, ∀ a : Fin 2,
      IsCopVelocity model.getCoMHeight (mpc.horizon.intervals.e i).T (X i) (cop i) a (V i a) := by
    intro x P cop X p
    have := hR.consistent.matrices.velocities _ _ _ _ p
    choose! V hV using this
    exact ⟨V, fun i hi a => (hV i hi a).2⟩
  obtain ⟨V, v1⟩ := hV p1
  obtain ⟨V', v2⟩ := hV p2
  have pm := prediction_mid hR p1 p2
  have cx : IsCost o mpc.horizon model x _ := ⟨P, cop, X, V, p1, v1, rfl⟩
  have cy : IsCost o mpc.horizon model y _ := ⟨P', cop', X', V', p2, v2, rfl⟩
  have cm : IsCost o mpc.horizon model (mid x y) _ :=
    ⟨_, _, _, fun i a => (V i a + V' i a) / 2, pm, fun i hi a => copVelocity_mid (v1 i hi a) (v2 i hi a), rfl⟩
  have l1 := hx.least _ _ _ cx (allowed_mid hR hx.allowed hy.allowed) hSm cm
  have l2 := hy.least _ _ _ cy (allowed_mid hR hx.allowed hy.allowed) hSm cm
  rw [zero_mul, zero_mul, add_zero, add_zero] at l1 l2
  have key : walkCost o mpc.horizon x X V + walkCost o mpc.horizon y X' V' -
      2 * walkCost o mpc.horizon (mid x y) (fun i => mid (X i) (X' i)) (fun i a => (V i a + V' i a) / 2) =
      1 / 2 * ∑ i ∈ Finset.range mpc.horizon.intervals.n, ∑ a : Fin 2,
        (o.comVelocityGain ^ 2 * (velocityOf (X (i + 1)) a - velocityOf (X' (i + 1)) a) ^ 2 +
          o.copVelocityGain ^ 2 * (V i a - V' i a) ^ 2 + o.copPositionGain ^ 2 * (x (2 * i + a) - y (2 * i + a)) ^ 2) := by
    unfold walkCost
    rw [Finset.mul_sum, Finset.mul_sum, ← Finset.sum_add_distrib, ← Finset.sum_sub_distrib]
    refine Finset.sum_congr rfl fun j _ => ?_
    rw [Finset.mul_sum, Finset.mul_sum, ← Finset.sum_add_distrib, ← Finset.sum_sub_distrib]
    refine Finset.sum_congr rfl fun b _ => ?_
    have e : velocityOf (mid (X (j + 1)) (X' (j + 1))) b = (velocityOf (X (j + 1)) b + velocityOf (X' (j + 1)) b) / 2 := rfl
    rw [e]
    simp only [mid]
    ring
  have hn : ∀ j ∈ Finset.range mpc.horizon.intervals.n, 0 ≤ ∑ a : Fin 2,
        (o.comVelocityGain ^ 2 * (velocityOf (X (j + 1)) a - velocityOf (X' (j + 1)) a) ^ 2 +
          o.copVelocityGain ^ 2 * (V j a - V' j a) ^ 2 + o.copPositionGain ^ 2 * (x (2 * j + a) - y (2 * j + a)) ^ 2) :=
    fun j _ => Finset.sum_nonneg fun b _ => by positivity
  have hz := (Finset.sum_eq_zero_iff_of_nonneg hn).1 (le_antisymm (by linarith) (Finset.sum_nonneg hn)) i (Finset.mem_range.2 hi)
  have hz' := (Finset.sum_eq_zero_iff_of_nonneg (fun b _ => by positivity)).1 hz a (Finset.mem_univ a)
  have n1 := mul_nonneg (sq_nonneg o.comVelocityGain) (sq_nonneg (velocityOf (X (i + 1)) a - velocityOf (X' (i + 1)) a))
  have n2 := mul_nonneg (sq_nonneg o.copVelocityGain) (sq_nonneg (V i a - V' i a))
  have n3 := mul_nonneg (sq_nonneg o.copPositionGain) (sq_nonneg (x (2 * i + a) - y (2 * i + a)))
  constructor
  · intro hg
    have : o.comVelocityGain ^ 2 * (velocityOf (X (i + 1)) a - velocityOf (X' (i + 1)) a) ^ 2 = 0 := by linarith
    rcases mul_eq_zero.1 this with h | h
    · exact absurd (pow_eq_zero_iff two_ne_zero |>.1 h) hg
    · exact sub_eq_zero.1 (pow_eq_zero_iff two_ne_zero |>.1 h)
  · intro hg
    have : o.copPositionGain ^ 2 * (x (2 * i + a) - y (2 * i + a)) ^ 2 = 0 := by linarith
    rcases mul_eq_zero.1 this with h | h
    · exact absurd (pow_eq_zero_iff two_ne_zero |>.1 h) hg
    · exact sub_eq_zero.1 (pow_eq_zero_iff two_ne_zero |>.1 h)

/-- The velocity at the end of an interval determines the centre of pressure. -/
theorem cop_of_velocity {h T : ℝ} (hh : 0 < h) (hT : 0 < T) {x : Fin 6 → ℝ} {u u' : Fin 2 → ℝ} {y y' : Fin 6 → ℝ} (m : Moves h T T x u y)
    (m' : Moves h T T x u' y') (hv : ∀ a, velocityOf y a = velocityOf y' a) : u = u' := by
  rw [moves_iff hh hT.ne'] at m m'
  have hw : 0 < getOmega h := Real.sqrt_pos.2 (div_pos (by norm_num [gravity]) hh)
  have hb : getB3s T (getOmega h) T 1 ≠ 0 := by
    have : (1 : ℝ) < Real.cosh (T * getOmega h) := Real.one_lt_cosh.2 (mul_pos hT hw).ne'
    show (-Real.cosh (T * getOmega h) + 1) / T ≠ 0
    exact div_ne_zero (by linarith) hT.ne'
  have e : ∀ (u : Fin 2 → ℝ) (a : Fin 2), velocityOf (fromCoMState (evaluate T T h x u)) a =
      ((getA6s T (getOmega h) T).mulVec x) (if a = 0 then 1 else 4) + getB3s T (getOmega h) T 1 * u a := by
    intro u a
    fin_cases a
    · show ((getA6s T (getOmega h) T).mulVec x) 1 + ((getB6s T (getOmega h) T).mulVec u) 1 = _
      simp [getB6s, Matrix.mulVec, dotProduct, Fin.sum_univ_two]
    · show ((getA6s T (getOmega h) T).mulVec x) 4 + ((getB6s T (getOmega h) T).mulVec u) 4 = _
      simp [getB6s, Matrix.mulVec, dotProduct, Fin.sum_univ_two]
  ext a
  have := hv a
  rw [m, m', e, e] at this
  exact mul_left_cancel₀ hb (add_left_cancel this)

theorem stepsBy_step {l : List ℕ} (hl : l.Pairwise (· < ·)) {j k : ℕ} (hk : l[j]? = some k) : (l.filter (· ≤ k)).length = j + 1 := by
  induction l generalizing j with
  | nil => cases hk
  | cons a l ih =>
    rw [List.pairwise_cons] at hl
    cases j with
    | zero =>
      cases hk
      rw [List.filter_cons_of_pos (by simp), List.filter_eq_nil_iff.2]
      · rfl
      · intro b hb
        have := hl.1 b hb
        simp only [decide_eq_true_eq]
        omega
    | succ j =>
      rw [List.getElem?_cons_succ] at hk
      have := hl.1 k (List.mem_of_getElem? hk)
      rw [List.filter_cons_of_pos (by simpa using this.le), List.length_cons, ih hl.2 hk]

/-- Two solutions with the same centres of pressure in the frames of the supports and the same predicted velocities are the same. -/
theorem steps_of_velocities (hR : Ready model mpc) {x y : ℕ → ℝ} {P P' cop cop' : ℕ → Fin 2 → ℝ} {X X' : ℕ → Fin 6 → ℝ}
    (p1 : Prediction mpc.horizon model x P cop X) (p2 : Prediction mpc.horizon model y P' cop' X')
    (hv : ∀ i < mpc.horizon.intervals.n, ∀ a, velocityOf (X (i + 1)) a = velocityOf (X' (i + 1)) a)
    (hz : ∀ i < mpc.horizon.intervals.n, ∀ a : Fin 2, x (2 * i + a) = y (2 * i + a)) {j : ℕ} (hj : j < mpc.horizon.variable_steps.length)
    (a : Fin 2) : x (2 * mpc.horizon.intervals.n + 2 * j + a) = y (2 * mpc.horizon.intervals.n + 2 * j + a) := by
  have hX : ∀ i ≤ mpc.horizon.intervals.n, X i = X' i ∧ ∀ k < i, cop k = cop' k := by
    intro i
    induction i with
    | zero => exact fun _ => ⟨p1.start.trans p2.start.symm, fun k hk => by omega⟩
    | succ i ih =>
      intro hi
      obtain ⟨e1, e2⟩ := ih (by omega)
      have m1 := p1.motion i hi
      have m2 := p2.motion i hi
      rw [← e1] at m2
      have ec := cop_of_velocity hR.consistent.height (hR.consistent.times i hi).1 m1 m2 (hv i hi)
      refine ⟨?_, fun k hk => ?_⟩
      · rw [← ec] at m2
        rw [moves_iff hR.consistent.height (hR.consistent.times i hi).1.ne'] at m1 m2
        rw [m1, m2]
      · by_cases h : k < i
        · exact e2 k h
        · obtain rfl : k = i := by omega
          exact ec
  have hcop := (hX _ le_rfl).2
  have hP : ∀ i < mpc.horizon.intervals.n, P (stepsBy mpc.horizon i) = P' (stepsBy mpc.horizon i) := by
    intro i hi
    obtain ⟨s, hs⟩ := hR.states i hi
    have t1 := p1.pressure i s hi hs
    have t2 := p2.pressure i s hi hs
    have z0 := hz i hi 0
    have z1 := hz i hi 1
    simp only [Fin.val_zero, Fin.val_one, add_zero] at z0 z1
    rw [← z0, ← z1, ← hcop i hi] at t2
    have : cop i - P (stepsBy mpc.horizon i) = cop i - P' (stepsBy mpc.horizon i) := by
      ext b
      fin_cases b
      · exact t1.1.trans t2.1.symm
      · exact t1.2.trans t2.2.symm
    exact sub_right_injective this
  have hPj : ∀ j ≤ mpc.horizon.variable_steps.length, P j = P' j := by
    intro j hj
    cases j with
    | zero => rw [p1.footsteps.start, p2.footsteps.start]
    | succ j =>
      have hk : mpc.horizon.variable_steps[j]? = some mpc.horizon.variable_steps[j] := List.getElem?_eq_getElem hj
      have := hP _ (hR.steps _ (List.getElem_mem hj)).2
      unfold stepsBy at this
      rwa [stepsBy_step hR.sorted hk] at this
  have hk : mpc.horizon.variable_steps[j]? = some mpc.horizon.variable_steps[j] := List.getElem?_eq_getElem hj
  have hkn := hR.steps _ (List.getElem_mem hj)
  obtain ⟨s, hs⟩ := hR.states (mpc.horizon.variable_steps[j] - 1) (by omega)
  have t1 := p1.footsteps.step j _ s hk hs
  have t2 := p2.footsteps.step j _ s hk hs
  rw [← hPj (j + 1) (by omega), ← hPj j (by omega)] at t2
  have := isTurned_inj t1 t2
  fin_cases a
  · exact congrFun this 0
  · exact congrFun this 1

/-- The best motion is unique. -/
theorem best_unique (hR : Ready model mpc) (hz : o.copPositionGain ≠ 0) (hv : o.fixed = true ∨ o.comVelocityGain ≠ 0)
    {S : (ℕ → ℝ) → Prop} (hS : ∀ x, AllowedMotion o mpc.horizon model x → S x) {x y : ℕ → ℝ}
    (hx : BestMotion o mpc.horizon model 0 S x) (hy : BestMotion o mpc.horizon model 0 S y) :
    ∀ v < 2 * mpc.horizon.intervals.n + 2 * mpc.horizon.variable_steps.length, x v = y v := by
  obtain ⟨P, cop, X, p1, -⟩ := C75_motion hR.consistent x
  obtain ⟨P', cop', X', p2, -⟩ := C75_motion hR.consistent y
  have hl : ∀ i < mpc.horizon.intervals.n, ∀ a : Fin 2, _ := fun i hi a =>
    least_unique hR hx hy (hS x hx.allowed) (hS y hy.allowed) (hS _ (allowed_mid hR hx.allowed hy.allowed)) p1 p2 hi a
  have key : ∀ j < mpc.horizon.variable_steps.length, ∀ a : Fin 2,
      x (2 * mpc.horizon.intervals.n + 2 * j + a) = y (2 * mpc.horizon.intervals.n + 2 * j + a) := by
    intro j hj a
    rcases hv with hf | hv
    · have hk : mpc.horizon.variable_steps[j]? = some mpc.horizon.variable_steps[j] := List.getElem?_eq_getElem hj
      obtain ⟨s, hs⟩ := hR.states _ (hR.steps _ (List.getElem_mem hj)).2
      have h1 := hx.allowed.steps
      have h2 := hy.allowed.steps
      rw [if_pos hf] at h1 h2
      obtain ⟨a1, a2⟩ := h1 j _ s hk hs
      obtain ⟨b1, b2⟩ := h2 j _ s hk hs
      fin_cases a
      · exact a1.trans b1.symm
      · exact a2.trans b2.symm
    · exact steps_of_velocities hR p1 p2 (fun i hi a => (hl i hi a).1 hv) (fun i hi a => (hl i hi a).2 hz) hj a
  intro v hvn
  by_cases h : v < 2 * mpc.horizon.intervals.n
  · have := (hl (v / 2) (by omega) ⟨v % 2, Nat.mod_lt _ (by decide)⟩).2 hz
    simp only at this
    rwa [Nat.div_add_mod] at this
  · have := key ((v - 2 * mpc.horizon.intervals.n) / 2) (by omega) ⟨(v - 2 * mpc.horizon.intervals.n) % 2, Nat.mod_lt _ (by decide)⟩
    simp only at this
    rwa [show 2 * mpc.horizon.intervals.n + 2 * ((v - 2 * mpc.horizon.intervals.n) / 2) + (v - 2 * mpc.horizon.intervals.n) % 2 = v by omega]
      at this

end

end Humoto.Wpg
