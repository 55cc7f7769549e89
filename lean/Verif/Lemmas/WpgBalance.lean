import Verif.Spec.WpgBalance
import Verif.Lemmas.WpgStability2

/-!
# Walking pattern generator: centre of pressure and soles
-/

namespace Humoto.Wpg

open Spec Spec.Wpg PointMass6z

/-- Points under the soles of the feet on which the robot stands. -/
def StandingPoints (p : FootParameters ℝ) (t : StanceType) (f : Feet) : Set (Fin 2 → ℝ) :=
  {q | (t ≠ .rss ∧ q ∈ SolePoints p f.left) ∨ (t ≠ .lss ∧ q ∈ SolePoints p f.right)}

theorem sole_of {p : FootParameters ℝ} {f : RigidBodyState ℝ} {θ : ℝ} {c q v : Fin 2 → ℝ} (hθ : θ = f.rpy 2) (h0 : c 0 = f.position 0)
    (h1 : c 1 = f.position 1) (hv : IsTurned θ v (q - c)) (hb : |v 0| ≤ p.footLength / 2) (hb' : |v 1| ≤ p.footWidth / 2) :
    q ∈ SolePoints p f := by
  subst hθ
  refine ⟨v, ?_, hb, hb'⟩
  obtain ⟨a, b⟩ := hv
  simp only [Pi.sub_apply, h0, h1] at a b
  exact ⟨a, b⟩

/-- Two parallel soles at both sides of a point: the rectangle around them is in the convex hull. -/
theorem rectangle_hull {p : FootParameters ℝ} {f : Feet} {θ d : ℝ} {c q v : Fin 2 → ℝ} (hd : 0 ≤ d) (hW : 0 ≤ p.footWidth)
    (hl : f.left.rpy 2 = θ) (hr : f.right.rpy 2 = θ)
    (hL : IsTurned θ (beside d .left) ![f.left.position 0 - c 0, f.left.position 1 - c 1])
    (hR : IsTurned θ (beside d .right) ![f.right.position 0 - c 0, f.right.position 1 - c 1]) (hv : IsTurned θ v (q - c))
    (hb : |v 0| ≤ p.footLength / 2) (hb' : |v 1| ≤ (p.footWidth + d) / 2) : q ∈ convexHull ℝ (StandingPoints p .ds f) := by
  obtain ⟨μ, hμ, e⟩ : ∃ μ : ℝ, |μ| ≤ 1 ∧ v 1 = μ * ((p.footWidth + d) / 2) := by
    rcases (by positivity : 0 ≤ (p.footWidth + d) / 2).eq_or_lt with h | h
    · rw [← h] at hb' ⊢
      exact ⟨0, by simp, by simpa using hb'⟩
    · refine ⟨v 1 / ((p.footWidth + d) / 2), ?_, (div_mul_cancel₀ _ h.ne').symm⟩
      rw [abs_div, abs_of_pos h, div_le_one h]
      exact hb'
  obtain ⟨h1, h2⟩ := abs_le.1 hμ
  obtain ⟨l0, l1⟩ := hL
  obtain ⟨r0, r1⟩ := hR
  obtain ⟨v0, v1⟩ := hv
  simp only [beside, Matrix.cons_val_zero, Matrix.cons_val_one, Pi.sub_apply] at l0 l1 r0 r1 v0 v1
  have hw : |μ * (p.footWidth / 2)| ≤ p.footWidth / 2 := by
    rw [abs_mul, abs_of_nonneg (by positivity : 0 ≤ p.footWidth / 2)]
    exact mul_le_of_le_one_left (by positivity) hμ
  -- points of the soles
  let u : Fin 2 → ℝ := ![v 0, μ * (p.footWidth / 2)]
  let a : Fin 2 → ℝ := ![f.left.position 0 + (Real.cos θ * u 0 - Real.sin θ * u 1), f.left.position 1 + (Real.sin θ * u 0 + Real.cos θ * u 1)]
  let b : Fin 2 → ℝ := ![f.right.position 0 + (Real.cos θ * u 0 - Real.sin θ * u 1), f.right.position 1 + (Real.sin θ * u 0 + Real.cos θ * u 1)]
  have ha : a ∈ StandingPoints p .ds f := by
    refine .inl ⟨by decide, u, ?_, hb, hw⟩
    rw [hl]
    exact ⟨by simp [a], by simp [a]⟩
  have hb : b ∈ StandingPoints p .ds f := by
    refine .inr ⟨by decide, u, ?_, hb, hw⟩
    rw [hr]
    exact ⟨by simp [b], by simp [b]⟩
  have key := (convex_convexHull ℝ (StandingPoints p .ds f)) (subset_convexHull ℝ _ ha) (subset_convexHull ℝ _ hb)
    (by linarith : (0 : ℝ) ≤ (1 + μ) / 2) (by linarith : (0 : ℝ) ≤ (1 - μ) / 2) (by ring)
  have hq : q = ((1 + μ) / 2) • a + ((1 - μ) / 2) • b := by
    refine support_ext ?_ ?_
    · simp only [Pi.add_apply, Pi.smul_apply, smul_eq_mul, a, b, u, Matrix.cons_val_zero, Matrix.cons_val_one]
      rw [e] at v0
      linear_combination v0 - (1 + μ) / 2 * l0 - (1 - μ) / 2 * r0
    · simp only [Pi.add_apply, Pi.smul_apply, smul_eq_mul, a, b, u, Matrix.cons_val_zero, Matrix.cons_val_one]
      rw [e] at v1
      linear_combination v1 - (1 + μ) / 2 * l1 - (1 - μ) / 2 * r1
  rw [hq]
  exact key

theorem copBounds_ss {p : FootParameters ℝ} {x : ℕ → ℝ} {i : ℕ}
    (h : ∀ a : Fin 2, p.getSSCoPBounds a 0 ≤ x (i + a) ∧ x (i + a) ≤ p.getSSCoPBounds a 1) :
    |x i| ≤ p.footLength / 2 ∧ |x (i + 1)| ≤ p.footWidth / 2 := by
  have h0 := h 0
  have h1 := h 1
  exact ⟨abs_le.2 h0, abs_le.2 h1⟩

theorem copBounds_ds {p : FootParameters ℝ} {x : ℕ → ℝ} {i : ℕ}
    (h : ∀ a : Fin 2, p.getADSCoPBounds a 0 ≤ x (i + a) ∧ x (i + a) ≤ p.getADSCoPBounds a 1) :
    |x i| ≤ p.footLength / 2 ∧ |x (i + 1)| ≤ (p.footWidth + p.feetDistDefault) / 2 := by
  have h0 := h 0
  have h1 := h 1
  exact ⟨abs_le.2 h0, abs_le.2 h1⟩

/-- The centre of pressure moves along a segment. -/
theorem moves_pressure {h T t : ℝ} {x x' : Fin 6 → ℝ} {u z z' : Fin 2 → ℝ} (hm : Moves h T t x u x') (hz : PressureIn h x z)
    (hz' : PressureIn h x' z') : z' = fun a => z a + t / T * (u a - z a) := by
  obtain ⟨c, v, a, y, -, h2, h3, h4, h5⟩ := hm
  have hg : (gravity : ℝ) ≠ 0 := gravity_pos.ne'
  funext k
  have e0 := h2 k 0
  have e1 := h2 k t
  have a0 := hz k
  have a1 := hz' k
  have hx : positionOf x k = c k 0 ∧ x (if k = 0 then 2 else 5) = a k 0 := by
    rw [h4]; fin_cases k <;> exact ⟨rfl, rfl⟩
  have hx' : positionOf x' k = c k t ∧ x' (if k = 0 then 2 else 5) = a k t := by
    rw [h5]; fin_cases k <;> exact ⟨rfl, rfl⟩
  unfold IsPressure at a0 a1
  rw [hx.1, hx.2] at a0
  rw [hx'.1, hx'.2] at a1
  unfold IsZmp at e0 e1 a0 a1
  have f0 : z k = y k 0 := by have := mul_left_cancel₀ hg (e0.symm.trans a0); linarith
  have f1 : z' k = y k t := by have := mul_left_cancel₀ hg (e1.symm.trans a1); linarith
  rw [f0, f1]
  exact h3 k t

end Humoto.Wpg
