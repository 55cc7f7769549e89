import Verif.Model.PointMass
import Verif.Spec.PointMass
import Mathlib.Analysis.SpecialFunctions.Trigonometric.DerivHyp
import Mathlib.Analysis.Calculus.Deriv.Mul
import Mathlib.Analysis.Calculus.Deriv.Add
import Mathlib.Analysis.Calculus.Deriv.Comp
import Mathlib.Tactic.Ring
import Mathlib.Tactic.Linarith
import Mathlib.Tactic.LinearCombination
import Mathlib.Tactic.NormNum
import Mathlib.Tactic.FinCases
import Mathlib.Tactic.FieldSimp

/-!
# C35: point mass model for walking
-/

namespace Humoto

open Spec PointMass6z

theorem gravity_pos : 0 < gravity := by unfold gravity; norm_num

theorem getOmega_sq (h : ℝ) (hh : 0 < h) : getOmega h * getOmega h = gravity / h := by
  unfold getOmega
  exact Real.mul_self_sqrt (div_pos gravity_pos hh).le

theorem getOmega_pos (h : ℝ) (hh : 0 < h) : 0 < getOmega h := by
  unfold getOmega
  exact Real.sqrt_pos.mpr (div_pos gravity_pos hh)

/-- **C35.** The state is recovered from the CoM state. -/
theorem C35_lossless (c : Fin 6 → ℝ) (h : ℝ) : fromCoMState (toCoMState c h) = c := by
  funext i
  fin_cases i <;> rfl

/-- **C35.** The CoM state is recovered from the state and the height when its vertical motion is absent; otherwise it is not. -/
theorem C35_lossless_state (s : PointMassState ℝ) (h : ℝ) :
    toCoMState (fromCoMState s) h = s ↔ s.position 2 = h ∧ s.velocity 2 = 0 ∧ s.acceleration 2 = 0 := by
  obtain ⟨p, v, a⟩ := s
  unfold toCoMState fromCoMState
  simp only [PointMassState.mk.injEq]
  constructor
  · rintro ⟨h1, h2, h3⟩
    exact ⟨(congrFun h1 2).symm, (congrFun h2 2).symm, (congrFun h3 2).symm⟩
  · rintro ⟨h1, h2, h3⟩
    refine ⟨?_, ?_, ?_⟩ <;> funext i <;> fin_cases i <;> simp_all

/-- The ZMP of the state. -/
theorem ddz6_zmp (h : ℝ) (hh : 0 < h) (c : Fin 6 → ℝ) :
    IsZmp gravity h (c 0) (c 2) ((getDdz6 h).mulVec c 0) ∧ IsZmp gravity h (c 3) (c 5) ((getDdz6 h).mulVec c 1) := by
  have hg := gravity_pos.ne'
  unfold IsZmp getDdz6
  constructor <;> simp [Matrix.mulVec, dotProduct, Fin.sum_univ_six] <;> field_simp

/-- **C35.** The output matrix gives the ZMP of the point mass, and only this point is the ZMP. -/
theorem C35_output (h : ℝ) (hh : 0 < h) (c : Fin 6 → ℝ) (z : Fin 2 → ℝ) :
    (IsZmp gravity h (c 0) (c 2) (z 0) ∧ IsZmp gravity h (c 3) (c 5) (z 1)) ↔ z = (getDdz6 h).mulVec c := by
  obtain ⟨h1, h2⟩ := ddz6_zmp h hh c
  constructor
  · rintro ⟨e1, e2⟩
    funext i
    unfold IsZmp at h1 h2 e1 e2
    have hg := gravity_pos.ne'
    fin_cases i
    · have : gravity * ((c 0 - z 0) - (c 0 - (getDdz6 h).mulVec c 0)) = 0 := by linarith
      have := (mul_eq_zero.mp this).resolve_left hg
      show z 0 = (getDdz6 h).mulVec c 0
      linarith
    · have : gravity * ((c 3 - z 1) - (c 3 - (getDdz6 h).mulVec c 1)) = 0 := by linarith
      have := (mul_eq_zero.mp this).resolve_left hg
      show z 1 = (getDdz6 h).mulVec c 1
      linarith
  · rintro rfl
    exact ⟨h1, h2⟩

/-- The value of the ZMP after `Ts`. -/
theorem zmp_after (h : ℝ) (hh : 0 < h) (Ts T : ℝ) (hT : T ≠ 0) (c : Fin 6 → ℝ) (u : Fin 2 → ℝ) (i : Fin 2) :
    (getDdz6 h).mulVec ((getA6s Ts (getOmega h) T).mulVec c + (getB6s Ts (getOmega h) T).mulVec u) i =
      (getDdz6 h).mulVec c i + Ts / T * (u i - (getDdz6 h).mulVec c i) := by
  have hg := gravity_pos.ne'
  have hw := (getOmega_pos h hh).ne'
  have hsq := getOmega_sq h hh
  have hhg : h / gravity = 1 / (getOmega h * getOmega h) := by rw [hsq]; field_simp
  unfold getDdz6
  rw [hhg]
  generalize getOmega h = w at hw
  fin_cases i <;>
    simp [getA6s, getB6s, getA3s, getB3s, twice3, getAdz3, getBdz3, getDdz3, Matrix.mulVec, dotProduct, Fin.sum_univ_six,
      Fin.sum_univ_two] <;> field_simp <;> ring

/-- **C35.** Commanding a ZMP for one step results in exactly this ZMP; within the step the ZMP moves linearly. -/
theorem C35_command (h : ℝ) (hh : 0 < h) (T : ℝ) (hT : T ≠ 0) (c : Fin 6 → ℝ) (u : Fin 2 → ℝ) :
    (getDdz6 h).mulVec (fromCoMState (evaluate T T h c u)) = u ∧
    ∀ Ts i, (getDdz6 h).mulVec (fromCoMState (evaluate Ts T h c u)) i =
      (getDdz6 h).mulVec c i + Ts / T * (u i - (getDdz6 h).mulVec c i) := by
  have h2 : ∀ Ts i, (getDdz6 h).mulVec (fromCoMState (evaluate Ts T h c u)) i =
      (getDdz6 h).mulVec c i + Ts / T * (u i - (getDdz6 h).mulVec c i) := by
    intro Ts i
    unfold evaluate
    rw [C35_lossless]
    exact zmp_after h hh Ts T hT c u i
  refine ⟨?_, h2⟩
  funext i
  rw [h2, div_self hT]
  ring

/-- **C35.** Evaluation at the zero time returns the state. -/
theorem C35_start (h : ℝ) (T : ℝ) (c : Fin 6 → ℝ) (u : Fin 2 → ℝ) : fromCoMState (evaluate 0 T h c u) = c := by
  unfold evaluate
  rw [C35_lossless]
  funext i
  fin_cases i <;>
    simp [getA6s, getB6s, getA3s, getB3s, twice3, getAdz3, getBdz3, dotProduct, Fin.sum_univ_six, Fin.sum_univ_two]

/-- Derivatives of the components of the state. -/
theorem evaluate_deriv (h : ℝ) (hh : 0 < h) (T : ℝ) (c : Fin 6 → ℝ) (u : Fin 2 → ℝ) :
    (IsMotion (fun t => (evaluate t T h c u).position 0) (fun t => (evaluate t T h c u).velocity 0)
      (fun t => (evaluate t T h c u).acceleration 0)) ∧
    (IsMotion (fun t => (evaluate t T h c u).position 1) (fun t => (evaluate t T h c u).velocity 1)
      (fun t => (evaluate t T h c u).acceleration 1)) := by
  have hw := (getOmega_pos h hh).ne'
  -- one direction: the motion for a state and a control
  have key : ∀ (w x0 x1 x2 v : ℝ), w ≠ 0 → IsMotion
      (fun t => x0 + Real.sinh (t * w) / w * x1 + (Real.cosh (t * w) - 1) / (w * w) * x2 + (-Real.sinh (t * w) / w + t) * v)
      (fun t => Real.cosh (t * w) * x1 + Real.sinh (t * w) / w * x2 + (-Real.cosh (t * w) + 1) * v)
      (fun t => w * Real.sinh (t * w) * x1 + Real.cosh (t * w) * x2 + (-w * Real.sinh (t * w)) * v) := by
    intro w x0 x1 x2 v hw t
    have ht : HasDerivAt (fun s : ℝ => s * w) w t := by
      have := (hasDerivAt_id t).mul_const w
      refine this.congr_deriv (by ring)
    have hs := (Real.hasDerivAt_sinh (t * w)).comp t ht
    have hc := (Real.hasDerivAt_cosh (t * w)).comp t ht
    have hid := hasDerivAt_id t
    constructor
    · have := (((hasDerivAt_const t x0).add ((hs.div_const w).mul_const x1)).add
        (((hc.sub_const 1).div_const (w * w)).mul_const x2)).add ((((hs.neg).div_const w).add hid).mul_const v)
      refine this.congr_deriv ?_
      field_simp
      ring
    · have := ((hc.mul_const x1).add ((hs.div_const w).mul_const x2)).add (((hc.neg).add_const 1).mul_const v)
      refine this.congr_deriv ?_
      field_simp
  constructor
  · convert key (getOmega h) (c 0) (c 1) (c 2) ((u 0 - (c 0 - c 2 / (getOmega h * getOmega h))) / T) hw using 1 <;>
    · funext t
      simp [evaluate, toCoMState, getA6s, getB6s, getA3s, getB3s, twice3, getAdz3, getBdz3, getDdz3, dotProduct,
        Fin.sum_univ_six, Fin.sum_univ_two]
      ring
  · convert key (getOmega h) (c 3) (c 4) (c 5) ((u 1 - (c 3 - c 5 / (getOmega h * getOmega h))) / T) hw using 1 <;>
    · funext t
      simp [evaluate, toCoMState, getA6s, getB6s, getA3s, getB3s, twice3, getAdz3, getBdz3, getDdz3, dotProduct,
        Fin.sum_univ_six, Fin.sum_univ_two]
      ring

/-- **C35.** The evaluated states form a motion: reported velocities and accelerations are the derivatives in each horizontal
direction, and together with `C35_command` the ZMP of the mass moves linearly to the commanded one. The height is kept. -/
theorem C35_motion (h : ℝ) (hh : 0 < h) (T : ℝ) (c : Fin 6 → ℝ) (u : Fin 2 → ℝ) :
    (∀ k : Fin 3, IsMotion (fun t => (evaluate t T h c u).position k) (fun t => (evaluate t T h c u).velocity k)
      (fun t => (evaluate t T h c u).acceleration k)) ∧ ∀ t, (evaluate t T h c u).position 2 = h := by
  obtain ⟨h0, h1⟩ := evaluate_deriv h hh T c u
  refine ⟨?_, fun t => rfl⟩
  intro k
  fin_cases k
  · exact h0
  · exact h1
  · intro t
    exact ⟨hasDerivAt_const t h, hasDerivAt_const t 0⟩

/-- **C35.** The second pair of matrices gives the velocity of the ZMP. -/
theorem C35_zmp_velocity (h : ℝ) (hh : 0 < h) (T : ℝ) (hT : T ≠ 0) (c : Fin 6 → ℝ) (u : Fin 2 → ℝ) (i : Fin 2) (t : ℝ) :
    HasDerivAt (fun s => (getDdz6 h).mulVec (fromCoMState (evaluate s T h c u)) i)
      (((getD6 T (getOmega h)).mulVec c + (getE6 T (getOmega h)).mulVec u) i) t := by
  have e : (fun s => (getDdz6 h).mulVec (fromCoMState (evaluate s T h c u)) i) =
      fun s => (getDdz6 h).mulVec c i + s / T * (u i - (getDdz6 h).mulVec c i) :=
    funext fun s => (C35_command h hh T hT c u).2 s i
  rw [e]
  have d := (((hasDerivAt_id t).div_const T).mul_const (u i - (getDdz6 h).mulVec c i)).const_add ((getDdz6 h).mulVec c i)
  refine d.congr_deriv ?_
  have hg := gravity_pos.ne'
  have hw := (getOmega_pos h hh).ne'
  have hsq := getOmega_sq h hh
  have hhg : h / gravity = 1 / (getOmega h * getOmega h) := by rw [hsq]; field_simp
  unfold getDdz6
  rw [hhg]
  fin_cases i <;>
    simp [getD6, getD3, getE6, getE3, getDdz3, Matrix.mulVec, dotProduct, Fin.sum_univ_six, Fin.sum_univ_two] <;> ring

/-- **C35.** The capture point velocity: derivative of `c + v / omega` along the motion. -/
theorem C35_capture_point (h : ℝ) (hh : 0 < h) (T : ℝ) (c : Fin 6 → ℝ) (u : Fin 2 → ℝ) (t : ℝ) :
    HasDerivAt (fun s => (evaluate s T h c u).position 0 + (evaluate s T h c u).velocity 0 / getOmega h)
      ((getDcpv6 (getOmega h)).mulVec (fromCoMState (evaluate t T h c u)) 0) t ∧
    HasDerivAt (fun s => (evaluate s T h c u).position 1 + (evaluate s T h c u).velocity 1 / getOmega h)
      ((getDcpv6 (getOmega h)).mulVec (fromCoMState (evaluate t T h c u)) 1) t := by
  obtain ⟨h0, h1⟩ := evaluate_deriv h hh T c u
  constructor
  · refine ((h0 t).1.add ((h0 t).2.div_const (getOmega h))).congr_deriv ?_
    simp [getDcpv6, fromCoMState, Matrix.mulVec, dotProduct, Fin.sum_univ_six]
    ring
  · refine ((h1 t).1.add ((h1 t).2.div_const (getOmega h))).congr_deriv ?_
    simp [getDcpv6, fromCoMState, Matrix.mulVec, dotProduct, Fin.sum_univ_six]
    ring

/-- **C35.** The matrices without the sampling time are those of a whole sampling interval. -/
theorem C35_whole (T h : ℝ) (c : Fin 6 → ℝ) (u : Fin 2 → ℝ) :
    fromCoMState (evaluate T T h c u) = (getA6 T (getOmega h)).mulVec c + (getB6 T (getOmega h)).mulVec u := by
  unfold evaluate
  rw [C35_lossless]
  rfl

/-- A mass at the height 0.8 m, sampling time 0.1 s. -/
example : (getDdz6 0.8).mulVec (fromCoMState (evaluate 0.1 0.1 0.8 ![0, 1, 0, 0, 0, 0] ![0.05, 0.01])) = ![0.05, 0.01] :=
  (C35_command 0.8 (by norm_num) 0.1 (by norm_num) _ _).1

end Humoto
