import Verif.Lemmas.PepperUnique
import Verif.Spec.PepperHotstart

/-!
# Allowed motions of Pepper are far from the library infinity
-/

namespace Humoto.Pepper

open Spec

section
variable {K : Type} [Field K] [LinearOrder K] [IsStrictOrderedRing K]

theorem abs_le_of_bounds {l u x B : K} (hl : |l| ≤ B) (hu : |u| ≤ B) (h : l ≤ x ∧ x ≤ u) : |x| ≤ B := by
  rw [abs_le] at *
  exact ⟨hl.1.trans h.1, h.2.trans hu.2⟩

/-- The acceleration of the body follows from the centre of pressure, from the position of the body and from the acceleration of the base. -/
theorem body_acceleration {M m h H p P a A c : K} (hm : 0 < m) (hM : 0 ≤ M) (hMm : M ≤ 1000 * m) (hH : 1 / 1000 ≤ H) (hh : |h| ≤ 1000)
    (ha : |a| ≤ 10 ^ 6) (hc : |c| ≤ 10 ^ 6) (hP : |P - p| ≤ 2 * 10 ^ 6)
    (e : (M * (p - h * a / (98 / 10)) + m * (P - H * A / (98 / 10))) / (M + m) - p = c) : |A| ≤ 10 ^ 16 := by
  have hS : M + m ≠ 0 := by linarith
  have hS0 : 0 ≤ M + m := by linarith
  have e' : m * (H * A) = (98 / 10) * (m * (P - p) - c * (M + m)) - M * (h * a) := by
    field_simp at e
    linear_combination -e / 10
  have b1 : |m * (P - p)| ≤ m * (2 * 10 ^ 6) := by
    rw [abs_mul, abs_of_pos hm]
    exact mul_le_mul_of_nonneg_left hP hm.le
  have b2 : |c * (M + m)| ≤ 10 ^ 6 * (1001 * m) := by
    rw [abs_mul, abs_of_nonneg hS0]
    exact mul_le_mul hc (by linarith) hS0 (by norm_num)
  have b3 : |M * (h * a)| ≤ 1000 * m * (1000 * 10 ^ 6) := by
    rw [abs_mul, abs_of_nonneg hM, abs_mul]
    exact mul_le_mul hMm (mul_le_mul hh ha (abs_nonneg _) (by norm_num)) (mul_nonneg (abs_nonneg _) (abs_nonneg _)) (by linarith)
  have b4 : |m * (H * A)| ≤ m * (2 * 10 ^ 12) := by
    rw [abs_le] at *
    constructor <;> rw [e'] <;> linarith [b1.1, b1.2, b2.1, b2.2, b3.1, b3.2]
  rw [abs_mul, abs_of_pos hm] at b4
  have b5 := le_of_mul_le_mul_left b4 hm
  have hH0 : 0 < H := lt_of_lt_of_le (by norm_num) hH
  rw [abs_mul, abs_of_pos hH0] at b5
  have b6 : 1 / 1000 * |A| ≤ H * |A| := mul_le_mul_of_nonneg_right hH (abs_nonneg _)
  linarith

theorem unit_abs {tr : Trig K} (h : UnitCircle tr) (t : K) : |tr.cos t| ≤ 1 ∧ |tr.sin t| ≤ 1 := by
  have := h t
  constructor <;> rw [abs_le] <;> constructor <;> nlinarith [sq_nonneg (tr.cos t), sq_nonneg (tr.sin t)]

/-- The position of the body along the axes follows from its position in the frame of the base. -/
theorem offset_bound {tr : Trig K} (htr : UnitCircle tr) (t dx dy B : K) (h0 : |tr.cos t * dx + tr.sin t * dy| ≤ B)
    (h1 : |-tr.sin t * dx + tr.cos t * dy| ≤ B) : |dx| ≤ 2 * B ∧ |dy| ≤ 2 * B := by
  have hu := htr t
  obtain ⟨hc, hs⟩ := unit_abs htr t
  generalize tr.cos t = c at *
  generalize tr.sin t = s at *
  have hB : 0 ≤ B := (abs_nonneg _).trans h0
  have key : ∀ u v r : K, |u| ≤ 1 → |v| ≤ B → |u * v| ≤ B := by
    intro u v _ h h'
    rw [abs_mul]
    calc |u| * |v| ≤ 1 * B := mul_le_mul h h' (abs_nonneg _) (by norm_num)
      _ = B := one_mul B
  constructor
  · have e : dx = c * (c * dx + s * dy) + (-s) * (-s * dx + c * dy) := by linear_combination (-dx) * hu
    rw [e]
    refine (abs_add_le _ _).trans ?_
    have k1 := key c _ 0 hc h0
    have k2 := key (-s) _ 0 (by rwa [abs_neg]) h1
    linarith
  · have e : dy = s * (c * dx + s * dy) + c * (-s * dx + c * dy) := by linear_combination (-dy) * hu
    rw [e]
    refine (abs_add_le _ _).trans ?_
    have k1 := key s _ 0 hs h0
    have k2 := key c _ 0 hc h1
    linarith

variable {tr : Trig K} {q : MPCParameters} {model : Model K} {mo : MotionParameters K} {ivs : List (Interval K)}

/-- The acceleration of the body at the ends of intervals. -/
theorem allowed_acceleration (htr : UnitCircle tr) (hR : ReasonableRobot model.robot_parameters model.state)
    (hH : HorizonFor tr q model [mo] ivs) {X : ℕ → Vec K} (hA : PepperAllowed ivs X) {k : ℕ} (hk : k < ivs.length) (a : Fin 2) :
    |(X (k + 1)).e (3 * (a + 2) + 2)| ≤ 10 ^ 16 := by
  have hiv : ivs[k]? = some ivs[k] := List.getElem?_eq_getElem hk
  generalize ivs[k] = iv at hiv
  obtain ⟨_, _, -, -, hif⟩ := hH.2 k iv hiv
  have hacc : ∀ b : Fin 2, |(X (k + 1)).e (3 * b + 2)| ≤ 10 ^ 6 := fun b =>
    abs_le_of_bounds (hR.acceleration b 0) (hR.acceleration b 1) (by rw [← hif.acceleration_bounds]; exact hA.acceleration k iv hiv b)
  have hcop : ∀ b : Fin 2, |intervalCop iv (X (k + 1)) b| ≤ 10 ^ 6 := fun b =>
    abs_le_of_bounds (hR.cop b 0) (hR.cop b 1) (by rw [← hif.cop_bounds]; exact hA.cop k iv hiv b)
  have hoff : ∀ b : Fin 2, |bodyOffset iv (X (k + 1)) b| ≤ 10 ^ 6 := fun b =>
    abs_le_of_bounds (hR.body b 0) (hR.body b 1) (by rw [← hif.body_bounds]; exact hA.body k iv hiv b)
  have o0 := hoff 0
  have o1 := hoff 1
  unfold bodyOffset at o0 o1
  rw [hif.rotation] at o0 o1
  obtain ⟨p0, p1⟩ := offset_bound htr iv.theta ((X (k + 1)).e 6 - (X (k + 1)).e 0) ((X (k + 1)).e 9 - (X (k + 1)).e 3) (10 ^ 6) o0 o1
  have hP : ∀ b : Fin 2, |(X (k + 1)).e (3 * (b + 2)) - (X (k + 1)).e (3 * b)| ≤ 2 * 10 ^ 6 := by
    intro b
    fin_cases b
    · exact p0
    · exact p1
  obtain ⟨m1, m2, m3⟩ := hR.masses
  refine body_acceleration (M := iv.base_mass) (m := iv.body_mass) (h := iv.base_height) (H := iv.body_height) ?_ ?_ ?_ ?_ ?_ (hacc a) (hcop a)
    (hP a) rfl
  · rw [hif.body_mass]; exact m1
  · rw [hif.base_mass]; exact m2
  · rw [hif.base_mass, hif.body_mass]; exact m3
  · rw [hif.body_height]; exact hR.heights.1
  · rw [hif.base_height]; exact hR.heights.2

/-- Allowed motions are moderate. -/
theorem pepper_moderate (htr : UnitCircle tr) (hq : 0 < q.sampling_time_ms) (hR : ReasonableRobot model.robot_parameters model.state)
    (hH : HorizonFor tr q model [mo] ivs) {x : ℕ → K} (hx : PepperFeasible ivs model.getMPCState x) : PepperModerate ivs x := by
  have hT := horizon_times hH hq
  have hX := simulation_simulates hT (x0 := model.getMPCState) rfl x
  have hA := hx _ hX
  generalize simulation ivs model.getMPCState x = X at hX hA
  have hb : ∀ k ≤ ivs.length, ∀ a : Fin 2, |(X k).e (3 * (a + 2) + 2)| ≤ 10 ^ 16 := by
    intro k hk a
    cases k with
    | zero =>
      rw [hX.1]
      have := hR.start a
      fin_cases a <;> exact this
    | succ k => exact allowed_acceleration htr hR hH hA hk a
  have hctl : ∀ k < ivs.length, ∀ a : Fin 2, |x (2 * k + a)| ≤ 10 ^ 20 ∧ |x (2 * ivs.length + 2 * k + a)| ≤ 10 ^ 20 := by
    intro k hk a
    have hiv : ivs[k]? = some ivs[k] := List.getElem?_eq_getElem hk
    generalize ivs[k] = iv at hiv
    obtain ⟨_, _, -, -, hif⟩ := hH.2 k iv hiv
    obtain ⟨-, -, -, s1, s2⟩ := hX.2 k iv hiv
    constructor
    · have hv : |(X (k + 1)).e (3 * a + 1)| ≤ 10 ^ 6 :=
        abs_le_of_bounds (hR.velocity a 0) (hR.velocity a 1) (by rw [← hif.velocity_bounds]; exact hA.velocity k iv hiv a)
      obtain ⟨j, e, -, e', -⟩ := s1 a a.2
      have hx' : (controlAt ivs.length x k).e a = x (2 * k + a) := by fin_cases a <;> rfl
      rw [e', e, hx'] at hv
      exact hv.trans (by norm_num)
    · obtain ⟨-, -, e⟩ := s2 (a + 2) (by omega) (by omega)
      have hx' : (controlAt ivs.length x k).e (a + 2) = x (2 * ivs.length + 2 * k + a) := by fin_cases a <;> rfl
      rw [hx'] at e
      unfold accelerationAt at e
      have b1 := hb k hk.le a
      have b2 := hb (k + 1) hk a
      have hT1 : 1 / 1000 ≤ iv.T := by
        rw [hif.duration]
        have : (1 : K) ≤ q.sampling_time_ms := by exact_mod_cast hq
        gcongr
      rw [e] at b2
      generalize x (2 * ivs.length + 2 * k + a) = j at *
      generalize (X k).e (3 * (a + 2) + 2) = A at *
      have hjT : |j * iv.T| ≤ 2 * 10 ^ 16 := by
        rw [abs_le] at *
        constructor <;> linarith [b1.1, b1.2, b2.1, b2.2]
      have hT0 : 0 < iv.T := lt_of_lt_of_le (by norm_num) hT1
      rw [abs_mul, abs_of_pos hT0] at hjT
      have : |j| * (1 / 1000) ≤ |j| * iv.T := mul_le_mul_of_nonneg_left hT1 (abs_nonneg _)
      linarith
  intro v hv
  rw [← abs_le]
  by_cases hv2 : v < 2 * ivs.length
  · have := (hctl (v / 2) (by omega) ⟨v % 2, by omega⟩).1
    simp only at this
    rwa [show 2 * (v / 2) + v % 2 = v by omega] at this
  · have := (hctl ((v - 2 * ivs.length) / 2) (by omega) ⟨v % 2, by omega⟩).2
    simp only at this
    rwa [show 2 * ivs.length + 2 * ((v - 2 * ivs.length) / 2) + v % 2 = v by omega] at this

end

end Humoto.Pepper
