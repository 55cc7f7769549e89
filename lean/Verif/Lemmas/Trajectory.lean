import Verif.Model.Trajectory
import Verif.Spec.Trajectory
import Verif.Lemmas.Constraints
import Mathlib.Analysis.Calculus.Deriv.Mul
import Mathlib.Analysis.Calculus.Deriv.Add
import Mathlib.Analysis.Calculus.Deriv.Comp
import Mathlib.Tactic.FieldSimp
import Mathlib.Tactic.Ring
import Mathlib.Tactic.Linarith
import Mathlib.Tactic.NormNum

/-!
# Lemmas on trajectories
-/

namespace Humoto

open Spec

set_option linter.unusedSectionVars false

variable {K : Type} [Field K] [LinearOrder K] [IsStrictOrderedRing K]

namespace Cubic

/-- Value of the polynomial. -/
def value (c : Cubic K) (t : K) : K := c.a0 + c.a1 * t + c.a2 * t * t + c.a3 * t * t * t

/-- First derivative. -/
def rate (c : Cubic K) (t : K) : K := c.a1 + 2 * c.a2 * t + 3 * c.a3 * t * t

/-- Second derivative. -/
def rate2 (c : Cubic K) (t : K) : K := 2 * c.a2 + 6 * c.a3 * t

theorem getPosition_ok (c : Cubic K) {t : K} (h : 0 ≤ t ∧ t ≤ 1) : c.getPosition t = .ok (c.value t) := by
  unfold getPosition; rw [assertThat_true h]; rfl

theorem getVelocity_ok (c : Cubic K) {t : K} (h : 0 ≤ t ∧ t ≤ 1) : c.getVelocity t = .ok (c.rate t) := by
  unfold getVelocity; rw [assertThat_true h]; rfl

theorem getAcceleration_ok (c : Cubic K) {t : K} (h : 0 ≤ t ∧ t ≤ 1) : c.getAcceleration t = .ok (c.rate2 t) := by
  unfold getAcceleration; rw [assertThat_true h]; rfl

theorem value_hasDerivAt (c : Cubic ℝ) (t : ℝ) : HasDerivAt c.value (c.rate t) t := by
  have h1 := (hasDerivAt_id t).const_mul c.a1
  have h2 := ((hasDerivAt_id t).const_mul c.a2).mul (hasDerivAt_id t)
  have h3 := (((hasDerivAt_id t).const_mul c.a3).mul (hasDerivAt_id t)).mul (hasDerivAt_id t)
  have h := (((hasDerivAt_const t c.a0).add h1).add h2).add h3
  refine h.congr_deriv ?_
  unfold rate
  simp; ring

theorem rate_hasDerivAt (c : Cubic ℝ) (t : ℝ) : HasDerivAt c.rate (c.rate2 t) t := by
  have h2 := (hasDerivAt_id t).const_mul (2 * c.a2)
  have h3 := ((hasDerivAt_id t).const_mul (3 * c.a3)).mul (hasDerivAt_id t)
  have h := ((hasDerivAt_const t c.a1).add h2).add h3
  refine h.congr_deriv ?_
  unfold rate2
  simp; ring

theorem ends_value (a b t : K) : (ends a b).value t = a + (b - a) * (t * t * (3 - 2 * t)) := by
  unfold value ends; ring

/-- Between the ends the polynomial stays between the values at the ends. -/
theorem blend_mem {t : K} (h0 : 0 ≤ t) (h1 : t ≤ 1) : 0 ≤ t * t * (3 - 2 * t) ∧ t * t * (3 - 2 * t) ≤ 1 := by
  constructor
  · exact mul_nonneg (mul_self_nonneg t) (by linarith)
  · have : 1 - t * t * (3 - 2 * t) = (1 - t) * (1 - t) * (1 + 2 * t) := by ring
    have h := mul_nonneg (mul_self_nonneg (1 - t)) (show 0 ≤ 1 + 2 * t by linarith)
    linarith

end Cubic

namespace FootTrajectory

/-- Height. -/
def height (f : FootTrajectory K) (t : K) : K := if t ≤ 1 / 2 then f.z1.value (t * 2) else f.z2.value ((t - 1 / 2) * 2)

/-- Reported vertical velocity. -/
def heightRate (f : FootTrajectory K) (t : K) : K := if t ≤ 1 / 2 then f.z1.rate (t * 2) else f.z2.rate ((t - 1 / 2) * 2)

theorem half_range {t : K} (h : 0 ≤ t ∧ t ≤ 1) :
    (t ≤ 1 / 2 → 0 ≤ t * 2 ∧ t * 2 ≤ 1) ∧ (¬ t ≤ 1 / 2 → 0 ≤ (t - 1 / 2) * 2 ∧ (t - 1 / 2) * 2 ≤ 1) := by
  constructor
  · intro ht; constructor <;> linarith [h.1, h.2]
  · intro ht
    rw [not_le] at ht
    constructor <;> linarith [h.1, h.2]

theorem evalz_position (f : FootTrajectory K) {t : K} (h : 0 ≤ t ∧ t ≤ 1) : f.evalz t .position = .ok (f.height t) := by
  unfold evalz height Cubic.eval
  split
  · rename_i ht; exact Cubic.getPosition_ok _ ((half_range h).1 ht)
  · rename_i ht; exact Cubic.getPosition_ok _ ((half_range h).2 ht)

theorem evalz_velocity (f : FootTrajectory K) {t : K} (h : 0 ≤ t ∧ t ≤ 1) : f.evalz t .velocity = .ok (f.heightRate t) := by
  unfold evalz heightRate Cubic.eval
  split
  · rename_i ht; exact Cubic.getVelocity_ok _ ((half_range h).1 ht)
  · rename_i ht; exact Cubic.getVelocity_ok _ ((half_range h).2 ht)

theorem eval_position (f : FootTrajectory K) {t : K} (h : 0 ≤ t ∧ t ≤ 1) :
    f.eval t .position = .ok ![f.x.value t, f.y.value t, f.height t] := by
  unfold eval
  rw [f.evalz_position h]
  unfold Cubic.eval
  simp only
  rw [Cubic.getPosition_ok _ h, Cubic.getPosition_ok _ h]
  rfl

theorem eval_velocity (f : FootTrajectory K) {t : K} (h : 0 ≤ t ∧ t ≤ 1) :
    f.eval t .velocity = .ok ![f.x.rate t, f.y.rate t, f.heightRate t] := by
  unfold eval
  rw [f.evalz_velocity h]
  unfold Cubic.eval
  simp only
  rw [Cubic.getVelocity_ok _ h, Cubic.getVelocity_ok _ h]
  rfl

theorem first_hasDerivAt (f : FootTrajectory ℝ) (t : ℝ) :
    HasDerivAt (fun s => f.z1.value (s * 2)) (2 * f.z1.rate (t * 2)) t := by
  have h := (f.z1.value_hasDerivAt (t * 2)).comp t ((hasDerivAt_id t).mul_const 2)
  refine HasDerivAt.congr_deriv (f := fun s => f.z1.value (s * 2)) h ?_
  simp; ring

theorem second_hasDerivAt (f : FootTrajectory ℝ) (t : ℝ) :
    HasDerivAt (fun s => f.z2.value ((s - 1 / 2) * 2)) (2 * f.z2.rate ((t - 1 / 2) * 2)) t := by
  have h := (f.z2.value_hasDerivAt ((t - 1 / 2) * 2)).comp t (((hasDerivAt_id t).sub_const (1 / 2)).mul_const 2)
  refine HasDerivAt.congr_deriv (f := fun s => f.z2.value ((s - 1 / 2) * 2)) h ?_
  simp; ring

/-- When the two parts fit together, the derivative of the height is *twice* the reported velocity. -/
theorem height_hasDerivAt (f : FootTrajectory ℝ) (hv : f.z1.value 1 = f.z2.value 0) (hr : f.z1.rate 1 = f.z2.rate 0) (t : ℝ) :
    HasDerivAt f.height (2 * f.heightRate t) t := by
  rcases lt_trichotomy t (1 / 2) with ht | ht | ht
  · have e : f.height =ᶠ[nhds t] fun s => f.z1.value (s * 2) := by
      filter_upwards [Iio_mem_nhds ht] with s hs
      exact if_pos (le_of_lt hs)
    refine HasDerivAt.congr_of_eventuallyEq ?_ e
    rw [show f.heightRate t = f.z1.rate (t * 2) from if_pos ht.le]
    exact f.first_hasDerivAt t
  · subst ht
    have h1 : HasDerivWithinAt f.height (2 * f.heightRate (1 / 2)) (Set.Iic (1 / 2)) (1 / 2) := by
      refine HasDerivWithinAt.congr (f := fun s => f.z1.value (s * 2)) ?_ (fun s hs => if_pos hs) (if_pos le_rfl)
      rw [show f.heightRate (1 / 2) = f.z1.rate (1 / 2 * 2) from if_pos le_rfl]
      exact (f.first_hasDerivAt _).hasDerivWithinAt
    have h2 : HasDerivWithinAt f.height (2 * f.heightRate (1 / 2)) (Set.Ici (1 / 2)) (1 / 2) := by
      refine HasDerivWithinAt.congr (f := fun s => f.z2.value ((s - 1 / 2) * 2)) ?_ ?_ ?_
      · have e : f.heightRate (1 / 2) = f.z2.rate ((1 / 2 - 1 / 2) * 2) := by
          rw [show f.heightRate (1 / 2) = f.z1.rate (1 / 2 * 2) from if_pos le_rfl]
          norm_num [hr]
        rw [e]
        exact (f.second_hasDerivAt _).hasDerivWithinAt
      · intro s hs
        rcases eq_or_lt_of_le (show 1 / 2 ≤ s from hs) with he | hlt
        · subst he
          rw [show f.height (1 / 2) = f.z1.value (1 / 2 * 2) from if_pos le_rfl]
          norm_num [hv]
        · exact if_neg (not_le.mpr hlt)
      · rw [show f.height (1 / 2) = f.z1.value (1 / 2 * 2) from if_pos le_rfl]
        norm_num [hv]
    have h := h1.union h2
    rw [Set.Iic_union_Ici] at h
    exact hasDerivWithinAt_univ.mp h
  · have e : f.height =ᶠ[nhds t] fun s => f.z2.value ((s - 1 / 2) * 2) := by
      filter_upwards [Ioi_mem_nhds ht] with s hs
      exact if_neg (not_le.mpr hs)
    refine HasDerivAt.congr_of_eventuallyEq ?_ e
    rw [show f.heightRate t = f.z2.rate ((t - 1 / 2) * 2) from if_neg (not_le.mpr ht)]
    exact f.second_hasDerivAt t

end FootTrajectory

end Humoto
