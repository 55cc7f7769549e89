import Verif.Lemmas.WpgMatrices
import Mathlib.Analysis.Calculus.MeanValue
import Mathlib.Analysis.SpecialFunctions.ExpDeriv

/-!
# Motion of the point mass
-/

namespace Humoto.Wpg

open Spec Spec.Wpg PointMass6z

/-- Solutions of `e'' = w² e` which start at rest are zero. -/
theorem hyperbolic_zero {w : ℝ} (hw : w ≠ 0) {e d : ℝ → ℝ} (he : ∀ t, HasDerivAt e (d t) t)
    (hd : ∀ t, HasDerivAt d (w * w * e t) t) (e0 : e 0 = 0) (d0 : d 0 = 0) (t : ℝ) : e t = 0 ∧ d t = 0 := by
  have hx : ∀ (v : ℝ), v * v = w * w → d t + v * e t = 0 := by
    intro v hv
    have hl : ∀ s : ℝ, HasDerivAt (fun s : ℝ => s * (-v)) (-v) s := fun s =>
      ((hasDerivAt_id s).mul_const (-v)).congr_deriv (by ring)
    have hp : ∀ s, HasDerivAt (fun s => (d s + v * e s) * Real.exp (s * (-v))) 0 s := by
      intro s
      have h1 := ((hd s).add ((he s).const_mul v)).mul (hl s).exp
      refine h1.congr_deriv ?_
      simp only [Pi.add_apply]
      rw [← hv]
      ring
    have hc := is_const_of_deriv_eq_zero (f := fun s => (d s + v * e s) * Real.exp (s * (-v)))
      (fun s => (hp s).differentiableAt) (fun s => (hp s).deriv) t 0
    simp only [e0, d0, mul_zero, add_zero, zero_mul] at hc
    exact (mul_eq_zero.mp hc).resolve_right (Real.exp_ne_zero _)
  have h1 := hx w rfl
  have h2 := hx (-w) (by ring)
  have h3 : w * e t = 0 := by linarith
  have h4 := (mul_eq_zero.mp h3).resolve_left hw
  exact ⟨h4, by rw [h4] at h1; linarith⟩

/-- Two motions with the same ZMP which start from the same state coincide. -/
theorem motion_unique {h : ℝ} (hh : 0 < h) {c v a c' v' a' z : ℝ → ℝ} (hm : IsMotion c v a) (hm' : IsMotion c' v' a')
    (hz : ∀ t, IsZmp gravity h (c t) (a t) (z t)) (hz' : ∀ t, IsZmp gravity h (c' t) (a' t) (z t)) (h0 : c 0 = c' 0) (h1 : v 0 = v' 0)
    (t : ℝ) : c t = c' t ∧ v t = v' t ∧ a t = a' t := by
  have hsq := getOmega_sq h hh
  have acc : ∀ s, a s - a' s = getOmega h * getOmega h * (c s - c' s) := by
    intro s
    have e1 := hz s
    have e2 := hz' s
    unfold IsZmp at e1 e2
    rw [hsq]
    field_simp
    linarith
  obtain ⟨e, d⟩ := hyperbolic_zero (getOmega_pos h hh).ne' (e := fun s => c s - c' s) (d := fun s => v s - v' s)
    (fun s => (hm s).1.sub (hm' s).1) (fun s => ((hm s).2.sub (hm' s).2).congr_deriv (acc s)) (by linarith)
    (by linarith) t
  refine ⟨by linarith, by linarith, ?_⟩
  have := acc t
  rw [e, mul_zero] at this
  linarith

/-- The position, velocity and acceleration along the axis. -/
theorem moves_iff {h T : ℝ} (hh : 0 < h) (hT : T ≠ 0) (t : ℝ) (x : Fin 6 → ℝ) (u : Fin 2 → ℝ) (x' : Fin 6 → ℝ) :
    Moves h T t x u x' ↔ x' = fromCoMState (evaluate t T h x u) := by
  obtain ⟨m0, m1⟩ := evaluate_deriv h hh T x u
  obtain ⟨-, hcmd⟩ := C35_command h hh T hT x u
  have hzmp := fun s => ddz6_zmp h hh (fromCoMState (evaluate s T h x u))
  have hstart := C35_start h T x u
  constructor
  · rintro ⟨c, v, a, z, hm, hz, hl, hx, hx'⟩
    have s0 : c 0 0 = x 0 := by rw [hx]; rfl
    have s1 : v 0 0 = x 1 := by rw [hx]; rfl
    have s2 : a 0 0 = x 2 := by rw [hx]; rfl
    have s3 : c 1 0 = x 3 := by rw [hx]; rfl
    have s4 : v 1 0 = x 4 := by rw [hx]; rfl
    have s5 : a 1 0 = x 5 := by rw [hx]; rfl
    have hz0 : (fun k => z k 0) = (getDdz6 h).mulVec x :=
      (C35_output h hh x _).1 ⟨by rw [← s0, ← s2]; exact hz 0 0, by rw [← s3, ← s5]; exact hz 1 0⟩
    have hzt : ∀ k s, z k s = (getDdz6 h).mulVec (fromCoMState (evaluate s T h x u)) k := by
      intro k s
      rw [hl k s, hcmd s k, ← congrFun hz0 k]
    have p0 : (evaluate 0 T h x u).position 0 = x 0 := congrFun hstart 0
    have p1 : (evaluate 0 T h x u).velocity 0 = x 1 := congrFun hstart 1
    have p3 : (evaluate 0 T h x u).position 1 = x 3 := congrFun hstart 3
    have p4 : (evaluate 0 T h x u).velocity 1 = x 4 := congrFun hstart 4
    obtain ⟨q0, q1, q2⟩ := motion_unique hh (hm 0) m0 (hz 0) (fun s => by rw [hzt]; exact (hzmp s).1) (by rw [s0, p0]) (by rw [s1, p1]) t
    obtain ⟨q3, q4, q5⟩ := motion_unique hh (hm 1) m1 (hz 1) (fun s => by rw [hzt]; exact (hzmp s).2) (by rw [s3, p3]) (by rw [s4, p4]) t
    rw [hx', q0, q1, q2, q3, q4, q5]
    rfl
  · rintro rfl
    refine ⟨![fun s => (evaluate s T h x u).position 0, fun s => (evaluate s T h x u).position 1],
      ![fun s => (evaluate s T h x u).velocity 0, fun s => (evaluate s T h x u).velocity 1],
      ![fun s => (evaluate s T h x u).acceleration 0, fun s => (evaluate s T h x u).acceleration 1],
      fun k s => (getDdz6 h).mulVec (fromCoMState (evaluate s T h x u)) k, ?_, ?_, ?_, ?_, ?_⟩
    · intro k
      fin_cases k
      · exact m0
      · exact m1
    · intro k s
      fin_cases k
      · exact (hzmp s).1
      · exact (hzmp s).2
    · intro k s
      show (getDdz6 h).mulVec (fromCoMState (evaluate s T h x u)) k = (getDdz6 h).mulVec (fromCoMState (evaluate 0 T h x u)) k + _
      simp only [hstart, hcmd s k]
    · exact hstart.symm
    · rfl

/-- The state at the end of the interval, one axis. -/
theorem evaluate_axis {h T : ℝ} (x : Fin 6 → ℝ) (u : Fin 2 → ℝ) (a : Fin 2) (i : Fin 3) :
    fromCoMState (evaluate T T h x u) ⟨3 * a + i, by omega⟩ =
      ∑ j : Fin 3, getA3 T (getOmega h) i j * x ⟨3 * a + j, by omega⟩ + getB3 T (getOmega h) i * u a := by
  rw [C35_whole]
  fin_cases a <;> fin_cases i <;>
    simp [getA6, getA6s, getA3, getB6, getB6s, getB3, twice3, Matrix.mulVec, dotProduct, Fin.sum_univ_six, Fin.sum_univ_two,
      Fin.sum_univ_three]

/-- Axis `a` of a state. -/
def axisOf (X : Fin 6 → ℝ) (a l : ℕ) : ℝ := (ofFin X).e (3 * a + l)

theorem axisOf_eq (X : Fin 6 → ℝ) {a l : ℕ} (ha : a < 2) (hl : l < 3) : axisOf X a l = X ⟨3 * a + l, by omega⟩ :=
  dif_pos (by omega)

/-- Motion in terms of the matrices of intervals. -/
theorem motion_trajectory {N : ℕ} {v : Vec Interval} {height : ℝ} (hh : 0 < height) (hT : ∀ i < N, (v.e i).T ≠ 0)
    (hw : ∀ i < N, (v.e i).omega = getOmega height) {cop : ℕ → Fin 2 → ℝ} {X : ℕ → Fin 6 → ℝ}
    (hX : ∀ i < N, Moves height (v.e i).T (v.e i).T (X i) (cop i) (X (i + 1))) {a : ℕ} (ha : a < 2) :
    Trajectory (listOf v N sysA) (listOf v N sysB) 3 1 (fun k => axisOf (X k) a) (fun k _ => cop k ⟨a, ha⟩) := by
  intro k A B hA hB i hi
  obtain ⟨hk, rfl⟩ := listOf_get hA
  obtain ⟨-, rfl⟩ := listOf_get hB
  have hm := (moves_iff hh (hT k hk) _ _ _ _).1 (hX k hk)
  show axisOf (X (k + 1)) a i = _
  rw [axisOf_eq _ ha hi, hm, evaluate_axis _ _ ⟨a, ha⟩ ⟨i, hi⟩, ← hw k hk]
  simp only [Finset.sum_range_succ, Finset.sum_range_zero, Fin.sum_univ_three, zero_add]
  rw [axisOf_eq _ ha (by decide : 0 < 3), axisOf_eq _ ha (by decide : 1 < 3), axisOf_eq _ ha (by decide : 2 < 3)]
  simp [sysA, sysB, column, ofMatrix, hi]

/-- The velocity of the centre of pressure. -/
theorem output_velocity {h : ℝ} (hh : 0 < h) {iv : Interval} (hT : iv.T ≠ 0) (hw : iv.omega = getOmega h) (X : Fin 6 → ℝ)
    (u : Fin 2 → ℝ) (a : Fin 2) :
    IsCopVelocity h iv.T X u a (output (sysD iv) (sysE iv) 3 1 (axisOf X a) (fun _ => u a) 0) := by
  have hsq := getOmega_sq h hh
  have hg := gravity_pos.ne'
  have hww := (getOmega_pos h hh).ne'
  refine ⟨X (if a = 0 then 0 else 3) - X (if a = 0 then 2 else 5) / (getOmega h * getOmega h), ?_, ?_⟩
  · unfold IsZmp
    rw [hsq]
    field_simp
    ring
  · unfold output
    simp only [Finset.sum_range_succ, Finset.sum_range_zero, zero_add]
    rw [axisOf_eq _ a.2 (by decide : 0 < 3), axisOf_eq _ a.2 (by decide : 1 < 3), axisOf_eq _ a.2 (by decide : 2 < 3)]
    fin_cases a <;> simp [sysD, sysE, row, ofMatrix, getD3, getDdz3, getE3, hw] <;> field_simp <;> ring_nf

end Humoto.Wpg
