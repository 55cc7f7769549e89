import Verif.Lemmas.WpgMotion
import Verif.Lemmas.WpgHotstart
import Verif.Lemmas.WpgSteps
import Verif.Props.WpgHotstart
import Verif.Spec.WpgStability

/-!
# Walking pattern generator: where the capture point can be
-/

namespace Humoto.Wpg

open Spec Spec.Wpg PointMass6z

/-- `m` is between `x` and `y`. -/
def Amid (x y m : ℝ) : Prop := ∃ t, 0 ≤ t ∧ t ≤ 1 ∧ m = (1 - t) * x + t * y

theorem Amid.near {x y m b r : ℝ} (h : Amid x y m) (hx : |x - b| ≤ r) (hy : |y - b| ≤ r) : |m - b| ≤ r := by
  obtain ⟨t, h0, h1, rfl⟩ := h
  rw [abs_le] at hx hy ⊢
  constructor <;> nlinarith

theorem frequency_unique {h w : ℝ} (hh : 0 < h) (hw : IsFrequency h w) : w = getOmega h := by
  have h1 := getOmega_sq h hh
  have h2 := getOmega_pos h hh
  obtain ⟨h3, h4⟩ := hw
  have e : w ^ 2 = getOmega h ^ 2 := by
    have : w ^ 2 = gravity / h := by rw [eq_div_iff hh.ne']; exact h4
    rw [this, pow_two, h1]
  have := (sq_eq_sq₀ h3.le h2.le).1 e
  exact this

theorem omega_frequency {h : ℝ} (hh : 0 < h) : IsFrequency h (getOmega h) := by
  refine ⟨getOmega_pos h hh, ?_⟩
  rw [pow_two, getOmega_sq h hh]
  field_simp

/-- One interval, one axis: the capture point at the beginning is between that at the end and the centre of pressure, the opposite point
at the end is between that at the beginning and the centre of pressure. -/
theorem interval_axis {h T : ℝ} (hh : 0 < h) (hT : 0 < T) {x x' : Fin 6 → ℝ} {u : Fin 2 → ℝ} (hm : Moves h T T x u x') (a : Fin 2) {z : ℝ}
    (hz : IsPressure h x a z) : IsPressure h x' a (u a) ∧
    ∃ l m m', 0 < l ∧ l < 1 ∧ Amid z (u a) m ∧ Amid z (u a) m' ∧
      positionOf x a + velocityOf x a / getOmega h = l * (positionOf x' a + velocityOf x' a / getOmega h) + (1 - l) * m' ∧
      positionOf x' a - velocityOf x' a / getOmega h = l * (positionOf x a - velocityOf x a / getOmega h) + (1 - l) * m := by
  have hw := getOmega_pos h hh
  have hsq := getOmega_sq h hh
  have hx' := (moves_iff hh hT.ne' T x u x').1 hm
  have hg : (0 : ℝ) < gravity := gravity_pos
  refine ⟨?_, ?_⟩
  · have h1 := (C35_command h hh T hT.ne' x u).1
    rw [← hx'] at h1
    have h2 := ddz6_zmp h hh x'
    rw [h1] at h2
    fin_cases a
    · exact h2.1
    · exact h2.2
  set w := getOmega h with hwdef
  set θ := T * w with hθ
  have hθ0 : 0 < θ := mul_pos hT hw
  set e := Real.exp θ with he
  set l := Real.exp (-θ) with hl
  have hel : e * l = 1 := by rw [he, hl, ← Real.exp_add]; simp
  have he1 : 1 + θ < e := by have := Real.add_one_lt_exp hθ0.ne'; linarith
  have hl0 : 0 < l := Real.exp_pos _
  have hl1 : 1 - θ < l := by have := Real.add_one_lt_exp (neg_ne_zero.2 hθ0.ne'); linarith
  have hl2 : l < 1 := by nlinarith
  have hl3 : θ * l ≤ 1 - l := by nlinarith
  have hS : Real.sinh θ = (e - l) / 2 := Real.sinh_eq θ
  have hC : Real.cosh θ = (e + l) / 2 := Real.cosh_eq θ
  -- the three coordinates
  set c := positionOf x a with hc
  set v := velocityOf x a with hv
  have hacc : x (if a = 0 then 2 else 5) = w * w * (c - z) := by
    have : x (if a = 0 then 2 else 5) * h = gravity * (c - z) := hz
    rw [hsq]
    field_simp
    linarith
  have hz' : c - x (if a = 0 then 2 else 5) / (w * w) = z := by
    rw [hacc]
    field_simp
    ring
  have hc' : positionOf x' a = c + (e - l) / 2 / w * v + ((e + l) / 2 - 1) * (c - z) + (1 - (e - l) / 2 / θ) * (u a - z) := by
    rw [← hS, ← hC]
    have : positionOf x' a = c + Real.sinh θ / w * v + (Real.cosh θ - 1) / (w * w) * x (if a = 0 then 2 else 5) +
        (-Real.sinh θ / w + T) / T * (u a - (c - x (if a = 0 then 2 else 5) / (w * w))) := by
      rw [hx', C35_whole, hc, hv]
      fin_cases a <;>
        simp [positionOf, velocityOf, getA6, getB6, getA6s, getB6s, getA3s, getB3s, twice3, getAdz3, getBdz3, getDdz3, Matrix.mulVec, dotProduct,
          Fin.sum_univ_six, Fin.sum_univ_two, ← hwdef, ← hθ] <;> field_simp <;> ring
    rw [this, hz', hacc, hθ]
    field_simp
    ring
  have hv' : velocityOf x' a / w = (e + l) / 2 * (v / w) + (e - l) / 2 * (c - z) + (1 - (e + l) / 2) / θ * (u a - z) := by
    rw [← hS, ← hC]
    have : velocityOf x' a = Real.cosh θ * v + Real.sinh θ / w * x (if a = 0 then 2 else 5) +
        (-Real.cosh θ + 1) / T * (u a - (c - x (if a = 0 then 2 else 5) / (w * w))) := by
      rw [hx', C35_whole, hc, hv]
      fin_cases a <;>
        simp [positionOf, velocityOf, getA6, getB6, getA6s, getB6s, getA3s, getB3s, twice3, getAdz3, getBdz3, getDdz3, Matrix.mulVec, dotProduct,
          Fin.sum_univ_six, Fin.sum_univ_two, ← hwdef, ← hθ] <;> field_simp <;> ring
    rw [this, hz', hacc, hθ]
    field_simp
    ring
  have h1l : 0 < 1 - l := by linarith
  refine ⟨l, (1 - (1 / (1 - l) - 1 / θ)) * z + (1 / (1 - l) - 1 / θ) * u a, (1 - ((1 / θ) - l / (1 - l))) * z + (1 / θ - l / (1 - l)) * u a,
    hl0, hl2, ⟨_, ?_, ?_, rfl⟩, ⟨_, ?_, ?_, rfl⟩, ?_, ?_⟩
  · rw [sub_nonneg]
    exact one_div_le_one_div_of_le h1l (by linarith)
  · have : 1 / (1 - l) - 1 = l / (1 - l) := by field_simp; ring
    have h2 : l / (1 - l) ≤ 1 / θ := by rw [div_le_div_iff₀ h1l hθ0]; linarith
    linarith
  · have h2 : l / (1 - l) ≤ 1 / θ := by rw [div_le_div_iff₀ h1l hθ0]; linarith
    linarith
  · have h3 : l / (1 - l) + 1 = 1 / (1 - l) := by field_simp; ring
    have h2 : 1 / θ ≤ 1 / (1 - l) := one_div_le_one_div_of_le h1l (by linarith)
    linarith
  · rw [hc', hv']
    have he' : e = 1 / l := by rw [eq_div_iff hl0.ne']; exact hel
    rw [he']
    field_simp
    ring
  · rw [hc', hv']
    field_simp
    ring

/-- In a motion which is capturable at the end, the capture point is always among the centres of pressure. -/
theorem captured {H : Horizon} {model : Model} {x : ℕ → ℝ} {P cop : ℕ → Fin 2 → ℝ} {X : ℕ → Fin 6 → ℝ} (hh : 0 < model.getCoMHeight)
    (hT : ∀ i < H.intervals.n, 0 < (H.intervals.e i).T) (hX : Prediction H model x P cop X) (a : Fin 2)
    (hcap : IsCapturePointVelocity model.getCoMHeight (X H.intervals.n) a 0) {z b r : ℝ} (hz : IsPressure model.getCoMHeight (X 0) a z)
    (hzr : |z - b| ≤ r) (hcop : ∀ i < H.intervals.n, |cop i a - b| ≤ r) :
    (∀ i ≤ H.intervals.n, ∃ zi, IsPressure model.getCoMHeight (X i) a zi ∧ |zi - b| ≤ r ∧ (0 < i → zi = cop (i - 1) a)) ∧
    ∀ i ≤ H.intervals.n, |positionOf (X i) a + velocityOf (X i) a / getOmega model.getCoMHeight - b| ≤ r := by
  have hZ : ∀ i ≤ H.intervals.n, ∃ zi, IsPressure model.getCoMHeight (X i) a zi ∧ |zi - b| ≤ r ∧ (0 < i → zi = cop (i - 1) a) := by
    intro i
    induction i with
    | zero => exact fun _ => ⟨z, hz, hzr, fun h => absurd h (lt_irrefl 0)⟩
    | succ i ih =>
      intro hi
      obtain ⟨zi, h1, -⟩ := ih (by omega)
      exact ⟨cop i a, (interval_axis hh (hT i (by omega)) (hX.motion i (by omega)) a h1).1, hcop i (by omega), fun _ => rfl⟩
  refine ⟨hZ, ?_⟩
  have key : ∀ j ≤ H.intervals.n, |positionOf (X (H.intervals.n - j)) a + velocityOf (X (H.intervals.n - j)) a / getOmega model.getCoMHeight - b| ≤ r := by
    intro j
    induction j with
    | zero =>
      intro _
      rw [Nat.sub_zero]
      obtain ⟨zN, h1, h2, -⟩ := hZ _ le_rfl
      obtain ⟨w, hw1, hw2, hw3⟩ := hcap
      have hw : w = getOmega model.getCoMHeight := frequency_unique hh ⟨hw1, hw2⟩
      rw [← hw]
      have h3 : X H.intervals.n (if a = 0 then 2 else 5) * model.getCoMHeight = gravity * (positionOf (X H.intervals.n) a - zN) := h1
      have h4 : X H.intervals.n (if a = 0 then 2 else 5) = -(w * velocityOf (X H.intervals.n) a) := by
        have h5 : 0 = velocityOf (X H.intervals.n) a + X H.intervals.n (if a = 0 then 2 else 5) / w := hw3
        field_simp at h5
        linarith
      have h6 : positionOf (X H.intervals.n) a + velocityOf (X H.intervals.n) a / w = zN := by
        rw [h4, ← hw2] at h3
        have h7 : (w * model.getCoMHeight) * (w * (positionOf (X H.intervals.n) a - zN) + velocityOf (X H.intervals.n) a) = 0 := by
          linear_combination -h3
        have h8 := (mul_eq_zero.1 h7).resolve_left (by positivity)
        field_simp
        linarith
      rw [h6]
      exact h2
    | succ j ih =>
      intro hj
      have ih := ih (by omega)
      obtain ⟨zi, h1, h2, -⟩ := hZ (H.intervals.n - (j + 1)) (by omega)
      obtain ⟨-, l, m, m', hl0, hl1, -, hm, e, -⟩ := interval_axis hh (hT _ (by omega)) (hX.motion (H.intervals.n - (j + 1)) (by omega)) a h1
      rw [show H.intervals.n - (j + 1) + 1 = H.intervals.n - j by omega] at e
      have hm' := hm.near h2 (hcop _ (by omega))
      rw [e]
      rw [abs_le] at ih hm' ⊢
      constructor <;> nlinarith
  intro i hi
  have := key (H.intervals.n - i) (by omega)
  rwa [show H.intervals.n - (H.intervals.n - i) = i by omega] at this

/-- The velocity after an interval. -/
theorem velocity_after {h T : ℝ} (hh : 0 < h) (hT : 0 < T) {x x' : Fin 6 → ℝ} {u : Fin 2 → ℝ} (hm : Moves h T T x u x') (a : Fin 2) {z b r : ℝ}
    (hz : IsPressure h x a z) (h1 : |z - b| ≤ r) (h2 : |u a - b| ≤ r)
    (h4 : |positionOf x' a + velocityOf x' a / getOmega h - b| ≤ r) :
    |velocityOf x' a / getOmega h| ≤ max |velocityOf x a / getOmega h| (2 * r) := by
  obtain ⟨-, l, m, m', hl0, hl1, hm, hm', e1, e2⟩ := interval_axis hh hT hm a hz
  have n1 := hm.near h1 h2
  have n2 := hm'.near h1 h2
  generalize velocityOf x' a / getOmega h = v' at *
  generalize velocityOf x a / getOmega h = v at *
  have e : v' = l * v + (1 - l) * ((((positionOf x' a + v' - b) - (m - b)) + l * ((positionOf x' a + v' - b) - (m' - b))) / 2) := by
    linear_combination (-l * e1 - e2) / 2
  generalize positionOf x' a + v' - b = y at *
  generalize m - b = k at *
  generalize m' - b = k' at *
  have hr : 0 ≤ r := le_trans (abs_nonneg _) h4
  have hM : 0 ≤ max |v| (2 * r) := le_trans (abs_nonneg _) (le_max_left _ _)
  have hv : |v| ≤ max |v| (2 * r) := le_max_left _ _
  have hk : |((y - k) + l * (y - k')) / 2| ≤ max |v| (2 * r) := by
    refine le_trans ?_ (le_max_right _ _)
    rw [abs_le] at *
    constructor <;> nlinarith
  generalize ((y - k) + l * (y - k')) / 2 = d at *
  rw [e]
  generalize max |v| (2 * r) = M at *
  rw [abs_le] at *
  constructor <;> nlinarith

theorem turned_bound {θ A B : ℝ} {v r : Fin 2 → ℝ} (h : IsTurned θ v r) (h0 : |v 0| ≤ A) (h1 : |v 1| ≤ B) (a : Fin 2) : |r a| ≤ A + B := by
  have hc := Real.abs_cos_le_one θ
  have hs := Real.abs_sin_le_one θ
  have k0 : ∀ {s : ℝ}, |s| ≤ 1 → |s * v 0| ≤ A := fun {s} hs => by
    rw [abs_mul]
    exact (mul_le_of_le_one_left (abs_nonneg _) hs).trans h0
  have k1 : ∀ {s : ℝ}, |s| ≤ 1 → |s * v 1| ≤ B := fun {s} hs => by
    rw [abs_mul]
    exact (mul_le_of_le_one_left (abs_nonneg _) hs).trans h1
  obtain ⟨e0, e1⟩ := h
  fin_cases a
  · show |r 0| ≤ A + B
    rw [e0]
    exact (abs_sub _ _).trans (add_le_add (k0 hc) (k1 hs))
  · show |r 1| ≤ A + B
    rw [e1]
    exact (abs_add_le _ _).trans (add_le_add (k0 hs) (k1 hc))

theorem reach_nonneg {P : FootParameters ℝ} (h : SaneFeet P) : 0 ≤ reach P :=
  add_nonneg h.step.1 (le_trans h.default.1 (le_max_right _ _))

theorem footBounds_reach {P : FootParameters ℝ} (h : SaneFeet P) {t : Stance} {B : Matrix (Fin 2) (Fin 2) ℝ} (e : footBounds P t = .ok B) :
    ∀ j, |B 0 j| ≤ P.maxStepLen ∧ |B 1 j| ≤ max (max |P.minFeetDist| |P.maxFeetDist|) P.feetDistDefault := by
  obtain ⟨⟨a1, a2⟩, ⟨b1, b2, b3⟩, ⟨c1, c2⟩, -⟩ := h
  have m1 : |P.minFeetDist| ≤ max (max |P.minFeetDist| |P.maxFeetDist|) P.feetDistDefault := (le_max_left _ _).trans (le_max_left _ _)
  have m2 : |P.maxFeetDist| ≤ max (max |P.minFeetDist| |P.maxFeetDist|) P.feetDistDefault := (le_max_right _ _).trans (le_max_left _ _)
  have m3 : P.feetDistDefault ≤ max (max |P.minFeetDist| |P.maxFeetDist|) P.feetDistDefault := le_max_right _ _
  generalize max (max |P.minFeetDist| |P.maxFeetDist|) P.feetDistDefault = M at *
  have m4 : |P.feetDistDefault / 2| ≤ M := by rw [abs_of_nonneg (by linarith)]; linarith
  have m5 : |P.maxStepLen| ≤ P.maxStepLen := (abs_of_nonneg a1).le
  have hM : 0 ≤ M := by linarith
  have key : ∀ (f : LeftOrRight) (ty : FootBoundsType), P.getFootBounds f ty = .ok B →
      ∀ j, |B 0 j| ≤ P.maxStepLen ∧ |B 1 j| ≤ M := by
    intro f ty e j
    cases f <;> cases ty <;> cases e <;> fin_cases j <;>
      simp only [FootParameters.leftFoot, FootParameters.rightFoot, Matrix.of_apply, Matrix.cons_val', Matrix.cons_val_zero,
        Matrix.cons_val_one, Matrix.cons_val_fin_one, Fin.zero_eta, Fin.mk_one, abs_neg, abs_zero] <;> constructor <;> assumption
  unfold footBounds at e
  split at e
  · rw [← Except.ok.inj e]
    intro j
    simp only [Matrix.zero_apply, abs_zero]
    exact ⟨a1, hM⟩
  · repeat' split at e
    all_goals first | exact key _ _ e | cases e

theorem copBounds_sole {P : FootParameters ℝ} (h : SaneFeet P) (t : Stance) :
    (∀ j, |copBounds P t 0 j| ≤ P.footLength / 2) ∧ ∀ j, |copBounds P t 1 j| ≤ (P.footWidth + P.feetDistDefault) / 2 := by
  obtain ⟨c1, c2⟩ := h.size
  obtain ⟨d1, d2⟩ := h.default
  unfold copBounds
  constructor <;> intro j <;> split <;> fin_cases j <;>
    simp [FootParameters.getADSCoPBounds, FootParameters.getSSCoPBounds, abs_le] <;> (try constructor) <;> linarith

theorem abs_of_bounds {l x u M : ℝ} (h1 : l ≤ x) (h2 : x ≤ u) (hl : |l| ≤ M) (hu : |u| ≤ M) : |x| ≤ M := by
  rw [abs_le] at *
  constructor <;> linarith

end Humoto.Wpg
