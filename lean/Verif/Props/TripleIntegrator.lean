import Verif.Lemmas.TripleIntegrator
import Mathlib.Data.Rat.Defs
import Mathlib.Tactic.NormNum
import Mathlib.Analysis.Calculus.Deriv.Pow
import Mathlib.Analysis.Calculus.Deriv.Mul
import Mathlib.Analysis.Calculus.Deriv.Add
import Mathlib.Tactic.Linarith

/-!
# C26, C27, C28: triple integrator
-/

namespace Humoto

open Spec TripleIntegrator

set_option linter.unusedSectionVars false

variable {K : Type} [Field K] [LinearOrder K] [IsStrictOrderedRing K]

/-! ## C27: the motion -/

/-- **C27.** The jerk controlled system moves each coordinate along the cubic polynomial. -/
theorem C27_polynomial (n : ℕ) (T : K) (x j : Vec K) (hx : x.n = 3 * n) (hj : j.n = n) :
    ∃ A B y, getAJerk n T = .ok A ∧ getBJerk n T = .ok B ∧ affine A x B j = .ok y ∧ Reaches n x j T y := by
  obtain ⟨A, B, y, hA, hB, hy, hyn, hye⟩ := affine3 (n := n) (RA := getAJerk n T) (RB := getBJerk n T) rfl rfl hx hj
  refine ⟨A, B, y, hA, hB, hy, hx, hj, hyn, ?_⟩
  intro k hk
  obtain ⟨e0, e1, e2⟩ := hye k hk
  rw [e0, e1, e2]
  unfold positionAt velocityAt accelerationAt
  refine ⟨by field_simp, by field_simp; ring, by ring⟩

/-- **C27.** Moving for the time `T1` and then for `T2` is moving for `T1 + T2`. -/
theorem C27_compose (n : ℕ) (T1 T2 : K) (x j : Vec K) (hx : x.n = 3 * n) (hj : j.n = n) :
    ∃ A1 B1 A2 B2 A12 B12 y z z', getAJerk n T1 = .ok A1 ∧ getBJerk n T1 = .ok B1 ∧
      getAJerk n T2 = .ok A2 ∧ getBJerk n T2 = .ok B2 ∧ getAJerk n (T1 + T2) = .ok A12 ∧ getBJerk n (T1 + T2) = .ok B12 ∧
      affine A1 x B1 j = .ok y ∧ affine A2 y B2 j = .ok z ∧ affine A12 x B12 j = .ok z' ∧ z.Equiv z' := by
  obtain ⟨A1, B1, y, hA1, hB1, hy, -, -, hyn, hye⟩ := C27_polynomial n T1 x j hx hj
  obtain ⟨A2, B2, z, hA2, hB2, hz, -, -, hzn, hze⟩ := C27_polynomial n T2 y j hyn hj
  obtain ⟨A12, B12, z', hA12, hB12, hz', -, -, hzn', hze'⟩ := C27_polynomial n (T1 + T2) x j hx hj
  refine ⟨A1, B1, A2, B2, A12, B12, y, z, z', hA1, hB1, hA2, hB2, hA12, hB12, hy, hz, hz', by rw [hzn, hzn'], ?_⟩
  intro i hi
  rw [hzn] at hi
  have hk : i / 3 < n := by omega
  obtain ⟨p1, v1, a1⟩ := hye _ hk
  obtain ⟨p2, v2, a2⟩ := hze _ hk
  obtain ⟨p3, v3, a3⟩ := hze' _ hk
  have hi3 : i = 3 * (i / 3) ∨ i = 3 * (i / 3) + 1 ∨ i = 3 * (i / 3) + 2 := by omega
  rcases hi3 with h | h | h
  · rw [h, p2, p3, p1, v1, a1]
    unfold positionAt velocityAt accelerationAt
    field_simp; ring
  · rw [h, v2, v3, v1, a1]
    unfold velocityAt accelerationAt
    field_simp; ring
  · rw [h, a2, a3, a1]
    unfold accelerationAt
    ring

/-- **C27.** Velocity, acceleration and jerk are the derivatives of position, velocity and acceleration. -/
theorem C27_derivative (p v a j t : ℝ) :
    HasDerivAt (positionAt p v a j) (velocityAt v a j t) t ∧ HasDerivAt (velocityAt v a j) (accelerationAt a j t) t ∧
      HasDerivAt (accelerationAt a j) j t := by
  unfold positionAt velocityAt accelerationAt
  refine ⟨?_, ?_, ?_⟩
  · have h := ((((hasDerivAt_const t p).add ((hasDerivAt_id t).const_mul v)).add
      (((hasDerivAt_pow 2 t).const_mul a).div_const 2)).add (((hasDerivAt_pow 3 t).const_mul j).div_const 6))
    refine h.congr_deriv ?_
    simp; ring
  · have h := (((hasDerivAt_const t v).add ((hasDerivAt_id t).const_mul a)).add
      (((hasDerivAt_pow 2 t).const_mul j).div_const 2))
    refine h.congr_deriv ?_
    simp; ring
  · have h := (hasDerivAt_const t a).add ((hasDerivAt_id t).const_mul j)
    refine h.congr_deriv ?_
    simp

/-- At time 0 nothing has moved. -/
theorem C27_start (n : ℕ) (x j : Vec K) (hx : x.n = 3 * n) (hj : j.n = n) : Reaches n x j 0 x := by
  refine ⟨hx, hj, hx, fun k _ => ?_⟩
  unfold positionAt velocityAt accelerationAt
  refine ⟨by ring, by ring, by ring⟩

/-! ## C26: control by acceleration, velocity and position -/

/-- **C26.** Control by acceleration: `D x + E u` is a jerk with which the state `A x + B u` is reached after the time `T`, and
the acceleration of this state is `u`. -/
theorem C26_acceleration (n : ℕ) (T : K) (hT : T ≠ 0) (x u : Vec K) (hx : x.n = 3 * n) (hu : u.n = n) :
    ∃ A B D y j, getAAcc n T = .ok A ∧ getBAcc n T = .ok B ∧ getDAcc n T = .ok D ∧ affine A x B u = .ok y ∧
      affine D x (getEAcc n T) u = .ok j ∧ Reaches n x j T y ∧ Component n 2 y u := by
  obtain ⟨A, B, D, y, j, hA, hB, hD, hy, hj, hr⟩ := command (n := n) (t := T) (RA := getAAcc n T) (RB := getBAcc n T)
    (RD := getDAcc n T) (E := getEAcc n T) rfl rfl rfl rfl (x := x) (u := u)
    (by intro p v a u; unfold positionAt; field_simp; ring) (by intro p v a u; unfold velocityAt; field_simp; ring)
    (by intro p v a u; unfold accelerationAt; field_simp; ring) hx hu
  refine ⟨A, B, D, y, j, hA, hB, hD, hy, hj, hr, hu, ?_⟩
  obtain ⟨A', B', y', hA', hB', hy', -, hye⟩ := affine3 (n := n) (RA := getAAcc n T) (RB := getBAcc n T) rfl rfl hx hu
  rw [hA] at hA'; cases hA'
  rw [hB] at hB'; cases hB'
  rw [hy] at hy'; cases hy'
  intro k hk
  rw [(hye k hk).2.2]
  ring

/-- **C26.** Control by velocity. -/
theorem C26_velocity (n : ℕ) (T : K) (hT : T ≠ 0) (x u : Vec K) (hx : x.n = 3 * n) (hu : u.n = n) :
    ∃ A B D y j, getAVel n T = .ok A ∧ getBVel n T = .ok B ∧ getDVel n T = .ok D ∧ affine A x B u = .ok y ∧
      affine D x (getEVel n T) u = .ok j ∧ Reaches n x j T y ∧ Component n 1 y u := by
  obtain ⟨A, B, D, y, j, hA, hB, hD, hy, hj, hr⟩ := command (n := n) (t := T) (RA := getAVel n T) (RB := getBVel n T)
    (RD := getDVel n T) (E := getEVel n T) rfl rfl rfl rfl (x := x) (u := u)
    (by intro p v a u; unfold positionAt; field_simp; ring) (by intro p v a u; unfold velocityAt; field_simp; ring)
    (by intro p v a u; unfold accelerationAt; field_simp; ring) hx hu
  refine ⟨A, B, D, y, j, hA, hB, hD, hy, hj, hr, hu, ?_⟩
  obtain ⟨A', B', y', hA', hB', hy', -, hye⟩ := affine3 (n := n) (RA := getAVel n T) (RB := getBVel n T) rfl rfl hx hu
  rw [hA] at hA'; cases hA'
  rw [hB] at hB'; cases hB'
  rw [hy] at hy'; cases hy'
  intro k hk
  rw [(hye k hk).2.1]
  ring

/-- **C26.** Control by position. -/
theorem C26_position (n : ℕ) (T : K) (hT : T ≠ 0) (x u : Vec K) (hx : x.n = 3 * n) (hu : u.n = n) :
    ∃ A B D y j, getAPos n T = .ok A ∧ getBPos n T = .ok B ∧ getDPos n T = .ok D ∧ affine A x B u = .ok y ∧
      affine D x (getEPos n T) u = .ok j ∧ Reaches n x j T y ∧ Component n 0 y u := by
  obtain ⟨A, B, D, y, j, hA, hB, hD, hy, hj, hr⟩ := command (n := n) (t := T) (RA := getAPos n T) (RB := getBPos n T)
    (RD := getDPos n T) (E := getEPos n T) rfl rfl rfl rfl (x := x) (u := u)
    (by intro p v a u; unfold positionAt; field_simp; ring) (by intro p v a u; unfold velocityAt; field_simp; ring)
    (by intro p v a u; unfold accelerationAt; field_simp; ring) hx hu
  refine ⟨A, B, D, y, j, hA, hB, hD, hy, hj, hr, hu, ?_⟩
  obtain ⟨A', B', y', hA', hB', hy', -, hye⟩ := affine3 (n := n) (RA := getAPos n T) (RB := getBPos n T) rfl rfl hx hu
  rw [hA] at hA'; cases hA'
  rw [hB] at hB'; cases hB'
  rw [hy] at hy'; cases hy'
  intro k hk
  rw [Nat.add_zero, (hye k hk).1]
  ring

/-- The state and the command reached determine the jerk: for nonzero `T` two motions which start in the same state and agree
in a component of the final state are the same motion. -/
theorem reaches_unique {n c : ℕ} {T : K} (hT : T ≠ 0) {x j j' y y' u : Vec K} (hc : c < 3) (h : Reaches n x j T y)
    (h' : Reaches n x j' T y') (hu : Component n c y u) (hu' : Component n c y' u) : j.Equiv j' ∧ y.Equiv y' := by
  obtain ⟨hx, hj, hy, he⟩ := h
  obtain ⟨-, hj', hy', he'⟩ := h'
  have key : ∀ k < n, j.e k = j'.e k := by
    intro k hk
    obtain ⟨p, v, a⟩ := he k hk
    obtain ⟨p', v', a'⟩ := he' k hk
    have e : y.e (3 * k + c) = y'.e (3 * k + c) := by rw [← hu.2 k hk, ← hu'.2 k hk]
    have hT2 : T ^ 2 ≠ 0 := pow_ne_zero _ hT
    have hT3 : T ^ 3 ≠ 0 := pow_ne_zero _ hT
    obtain rfl | rfl | rfl : c = 0 ∨ c = 1 ∨ c = 2 := by omega
    · rw [Nat.add_zero, p, p'] at e
      unfold positionAt at e
      have : j.e k * T ^ 3 = j'.e k * T ^ 3 := by field_simp at e; linarith
      exact mul_right_cancel₀ hT3 this
    · rw [v, v'] at e
      unfold velocityAt at e
      have : j.e k * T ^ 2 = j'.e k * T ^ 2 := by field_simp at e; linarith
      exact mul_right_cancel₀ hT2 this
    · rw [a, a'] at e
      unfold accelerationAt at e
      have : j.e k * T = j'.e k * T := by linarith
      exact mul_right_cancel₀ hT this
  refine ⟨⟨by rw [hj, hj'], fun k hk => key k (by omega)⟩, by rw [hy, hy'], ?_⟩
  intro i hi
  rw [hy] at hi
  have hk : i / 3 < n := by omega
  obtain ⟨p, v, a⟩ := he _ hk
  obtain ⟨p', v', a'⟩ := he' _ hk
  have hi3 : i = 3 * (i / 3) ∨ i = 3 * (i / 3) + 1 ∨ i = 3 * (i / 3) + 2 := by omega
  rcases hi3 with h | h | h
  · rw [h, p, p', key _ hk]
  · rw [h, v, v', key _ hk]
  · rw [h, a, a', key _ hk]

/-- **C26.** Feeding the acceleration which is reached with a constant jerk gives the same next state and returns the jerk. -/
theorem C26_agree_acceleration (n : ℕ) (T : K) (hT : T ≠ 0) (x j y u : Vec K) (hr : Reaches n x j T y)
    (hu : Component n 2 y u) : ∃ A B D y' j', getAAcc n T = .ok A ∧ getBAcc n T = .ok B ∧ getDAcc n T = .ok D ∧
      affine A x B u = .ok y' ∧ affine D x (getEAcc n T) u = .ok j' ∧ y'.Equiv y ∧ j'.Equiv j := by
  obtain ⟨A, B, D, y', j', hA, hB, hD, hy, hj, hr', hu'⟩ := C26_acceleration n T hT x u hr.1 hu.1
  obtain ⟨e1, e2⟩ := reaches_unique hT (by omega) hr' hr hu' hu
  exact ⟨A, B, D, y', j', hA, hB, hD, hy, hj, e2, e1⟩

/-- **C26.** Feeding the velocity which is reached with a constant jerk. -/
theorem C26_agree_velocity (n : ℕ) (T : K) (hT : T ≠ 0) (x j y u : Vec K) (hr : Reaches n x j T y)
    (hu : Component n 1 y u) : ∃ A B D y' j', getAVel n T = .ok A ∧ getBVel n T = .ok B ∧ getDVel n T = .ok D ∧
      affine A x B u = .ok y' ∧ affine D x (getEVel n T) u = .ok j' ∧ y'.Equiv y ∧ j'.Equiv j := by
  obtain ⟨A, B, D, y', j', hA, hB, hD, hy, hj, hr', hu'⟩ := C26_velocity n T hT x u hr.1 hu.1
  obtain ⟨e1, e2⟩ := reaches_unique hT (by omega) hr' hr hu' hu
  exact ⟨A, B, D, y', j', hA, hB, hD, hy, hj, e2, e1⟩

/-- **C26.** Feeding the position which is reached with a constant jerk. -/
theorem C26_agree_position (n : ℕ) (T : K) (hT : T ≠ 0) (x j y u : Vec K) (hr : Reaches n x j T y)
    (hu : Component n 0 y u) : ∃ A B D y' j', getAPos n T = .ok A ∧ getBPos n T = .ok B ∧ getDPos n T = .ok D ∧
      affine A x B u = .ok y' ∧ affine D x (getEPos n T) u = .ok j' ∧ y'.Equiv y ∧ j'.Equiv j := by
  obtain ⟨A, B, D, y', j', hA, hB, hD, hy, hj, hr', hu'⟩ := C26_position n T hT x u hr.1 hu.1
  obtain ⟨e1, e2⟩ := reaches_unique hT (by omega) hr' hr hu' hu
  exact ⟨A, B, D, y', j', hA, hB, hD, hy, hj, e2, e1⟩

/-- Two coordinates which move with jerks 6 and -6 for 2 seconds. -/
example : Reaches 2 (Vec.ofList [0, 1, 2, 3, 4, (5 : ℚ)]) (Vec.ofList [6, -6]) 2 (Vec.ofList [14, 17, 14, 13, 2, -7]) := by
  refine ⟨rfl, rfl, rfl, ?_⟩
  intro k hk
  obtain rfl | rfl : k = 0 ∨ k = 1 := by omega
  all_goals norm_num [positionAt, velocityAt, accelerationAt, Vec.ofList]

/-! ## C28: subsampling -/

/-- **C28.** Control by acceleration: the subsampled matrices give the state at the time `Ts` of the motion which reaches the
commanded acceleration at the time `T`. -/
theorem C28_acceleration (n : ℕ) (T Ts : K) (hT : T ≠ 0) (x j y u : Vec K) (hr : Reaches n x j T y) (hu : Component n 2 y u) :
    ∃ A B z, getAsAcc n T Ts = .ok A ∧ getBsAcc n T Ts = .ok B ∧ affine A x B u = .ok z ∧ Reaches n x j Ts z := by
  obtain ⟨A, B, z, hA, hB, hz, hzn, hze⟩ := affine3 (n := n) (RA := getAsAcc n T Ts) (RB := getBsAcc n T Ts) rfl rfl hr.1 hu.1
  refine ⟨A, B, z, hA, hB, hz, hr.1, hr.2.1, hzn, ?_⟩
  intro k hk
  obtain ⟨e0, e1, e2⟩ := hze k hk
  obtain ⟨-, -, a⟩ := hr.2.2.2 k hk
  rw [e0, e1, e2, hu.2 k hk, a]
  unfold positionAt velocityAt accelerationAt
  refine ⟨by field_simp; ring, by field_simp; ring, by field_simp; ring⟩

/-- **C28.** Control by velocity. -/
theorem C28_velocity (n : ℕ) (T Ts : K) (hT : T ≠ 0) (x j y u : Vec K) (hr : Reaches n x j T y) (hu : Component n 1 y u) :
    ∃ A B z, getAsVel n T Ts = .ok A ∧ getBsVel n T Ts = .ok B ∧ affine A x B u = .ok z ∧ Reaches n x j Ts z := by
  obtain ⟨A, B, z, hA, hB, hz, hzn, hze⟩ := affine3 (n := n) (RA := getAsVel n T Ts) (RB := getBsVel n T Ts) rfl rfl hr.1 hu.1
  refine ⟨A, B, z, hA, hB, hz, hr.1, hr.2.1, hzn, ?_⟩
  intro k hk
  obtain ⟨e0, e1, e2⟩ := hze k hk
  obtain ⟨-, v, -⟩ := hr.2.2.2 k hk
  rw [e0, e1, e2, hu.2 k hk, v]
  unfold positionAt velocityAt accelerationAt
  refine ⟨by field_simp; ring, by field_simp; ring, by field_simp; ring⟩

/-- **C28.** Control by position. -/
theorem C28_position (n : ℕ) (T Ts : K) (hT : T ≠ 0) (x j y u : Vec K) (hr : Reaches n x j T y) (hu : Component n 0 y u) :
    ∃ A B z, getAsPos n T Ts = .ok A ∧ getBsPos n T Ts = .ok B ∧ affine A x B u = .ok z ∧ Reaches n x j Ts z := by
  obtain ⟨A, B, z, hA, hB, hz, hzn, hze⟩ := affine3 (n := n) (RA := getAsPos n T Ts) (RB := getBsPos n T Ts) rfl rfl hr.1 hu.1
  refine ⟨A, B, z, hA, hB, hz, hr.1, hr.2.1, hzn, ?_⟩
  intro k hk
  obtain ⟨e0, e1, e2⟩ := hze k hk
  obtain ⟨p, -, -⟩ := hr.2.2.2 k hk
  rw [e0, e1, e2, show u.e k = y.e (3 * k) from hu.2 k hk, p]
  unfold positionAt velocityAt accelerationAt
  refine ⟨by field_simp; ring, by field_simp; ring, by field_simp; ring⟩

/-- **C28.** With `Ts = T` the subsampled matrices are the matrices of the full step. -/
theorem C28_full (n : ℕ) (T : K) (hT : T ≠ 0) :
    getAsAcc n T T = getAAcc n T ∧ getBsAcc n T T = getBAcc n T ∧ getAsVel n T T = getAVel n T ∧
      getBsVel n T T = getBVel n T ∧ getAsPos n T T = getAPos n T ∧ getBsPos n T T = getBPos n T := by
  unfold getAsAcc getAAcc getBsAcc getBAcc getAsVel getAVel getBsVel getBVel getAsPos getAPos getBsPos getBPos
  refine ⟨?_, ?_, ?_, ?_, ?_, ?_⟩ <;> congr 2 <;> simp only [List.cons.injEq, and_true, true_and]
  · refine ⟨by field_simp; ring, by field_simp; ring, by simp⟩
  · refine ⟨by field_simp, by field_simp, by field_simp⟩
  · refine ⟨⟨by field_simp; ring, by field_simp; ring⟩, ⟨by simp, by simp⟩, by field_simp, by field_simp; ring⟩
  · refine ⟨by field_simp, by field_simp, by field_simp⟩
  · refine ⟨⟨by simp, by simp, by simp⟩, ⟨by field_simp, by field_simp; ring, by field_simp; ring⟩, by field_simp, by field_simp,
      by field_simp; ring⟩
  · refine ⟨by field_simp, by field_simp, by field_simp⟩

/-- The motion of the example above in the middle of the interval. -/
example : ∃ A B z, getAsVel 2 (2 : ℚ) 1 = .ok A ∧ getBsVel 2 2 1 = .ok B ∧
    affine A (Vec.ofList [0, 1, 2, 3, 4, 5]) B (Vec.ofList [17, 2]) = .ok z ∧
    Reaches 2 (Vec.ofList [0, 1, 2, 3, 4, 5]) (Vec.ofList [6, -6]) 1 z := by
  refine C28_velocity 2 2 1 (by norm_num) _ (Vec.ofList [6, -6]) (Vec.ofList [14, 17, 14, 13, 2, -7]) _ ?_ ?_
  · refine ⟨rfl, rfl, rfl, ?_⟩
    intro k hk
    obtain rfl | rfl : k = 0 ∨ k = 1 := by omega
    all_goals norm_num [positionAt, velocityAt, accelerationAt, Vec.ofList]
  · refine ⟨rfl, ?_⟩
    intro k hk
    obtain rfl | rfl : k = 0 ∨ k = 1 := by omega
    all_goals norm_num [Vec.ofList]

end Humoto
