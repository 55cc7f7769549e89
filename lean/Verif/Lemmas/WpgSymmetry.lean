import Verif.Spec.WpgSymmetry
import Verif.Lemmas.WpgAgree

/-!
# Symmetries of the control problem of the walk
-/

namespace Humoto.Wpg

open Spec Spec.Wpg

/-! ## Maps of the plane -/

section
variable (g : WalkMap)

theorem _root_.Humoto.Spec.Wpg.WalkMap.sign_cases : (g.mirror = false ∧ g.sign = 1) ∨ (g.mirror = true ∧ g.sign = -1) := by
  unfold WalkMap.sign
  cases g.mirror
  · exact .inl ⟨rfl, if_neg (by simp)⟩
  · exact .inr ⟨rfl, if_pos rfl⟩

theorem _root_.Humoto.Spec.Wpg.WalkMap.sign_mul : g.sign * g.sign = 1 := by
  rcases g.sign_cases with ⟨-, h⟩ | ⟨-, h⟩ <;> rw [h] <;> norm_num

/-- The inverse map. -/
noncomputable def _root_.Humoto.Spec.Wpg.WalkMap.inv : WalkMap :=
  let h : WalkMap := ⟨g.mirror, -g.sign * g.angle, 0⟩
  ⟨g.mirror, -g.sign * g.angle, fun a => -(h.vector g.shift a)⟩

theorem _root_.Humoto.Spec.Wpg.WalkMap.inv_sign : g.inv.sign = g.sign := rfl

theorem _root_.Humoto.Spec.Wpg.WalkMap.inv_heading (t : ℝ) : g.inv.heading (g.heading t) = t := by
  show -g.sign * g.angle + g.sign * (g.angle + g.sign * t) = t
  linear_combination t * g.sign_mul

theorem _root_.Humoto.Spec.Wpg.WalkMap.side_side (v : Fin 2 → ℝ) : g.side (g.side v) = v := by
  ext a
  fin_cases a
  · rfl
  · show g.sign * (g.sign * v 1) = v 1
    linear_combination v 1 * g.sign_mul

theorem cos_signed : Real.cos (-g.sign * g.angle) = Real.cos g.angle := by
  rcases g.sign_cases with ⟨-, h⟩ | ⟨-, h⟩ <;> rw [h]
  · rw [show -(1 : ℝ) * g.angle = -g.angle by ring, Real.cos_neg]
  · rw [neg_neg, one_mul]

theorem sin_signed : Real.sin (-g.sign * g.angle) = -g.sign * Real.sin g.angle := by
  rcases g.sign_cases with ⟨-, h⟩ | ⟨-, h⟩ <;> rw [h]
  · rw [show -(1 : ℝ) * g.angle = -g.angle by ring, Real.sin_neg]; ring
  · rw [neg_neg, one_mul, one_mul]

theorem vector_inv (d v : Fin 2 → ℝ) : (⟨g.mirror, -g.sign * g.angle, d⟩ : WalkMap).vector (g.vector v) = v := by
  have h1 := Real.sin_sq_add_cos_sq g.angle
  have h2 := g.sign_mul
  have hs : (⟨g.mirror, -g.sign * g.angle, d⟩ : WalkMap).sign = g.sign := rfl
  ext a
  unfold WalkMap.vector
  rw [hs]
  simp only [cos_signed, sin_signed]
  generalize g.sign = s at *
  generalize Real.sin g.angle = S at *
  generalize Real.cos g.angle = C at *
  fin_cases a
  · show C * (C * v 0 - S * (s * v 1)) - -s * S * (s * (S * v 0 + C * (s * v 1))) = v 0
    linear_combination v 0 * h1 + (S * (S * v 0 + C * (s * v 1))) * h2
  · show -s * S * (C * v 0 - S * (s * v 1)) + C * (s * (S * v 0 + C * (s * v 1))) = v 1
    linear_combination (s * s * v 1) * h1 + v 1 * h2

theorem _root_.Humoto.Spec.Wpg.WalkMap.inv_vector (v : Fin 2 → ℝ) : g.inv.vector (g.vector v) = v := vector_inv g _ v

theorem vector_add (v u : Fin 2 → ℝ) : g.vector (v + u) = g.vector v + g.vector u := by
  ext a
  unfold WalkMap.vector
  fin_cases a
  · show _ = (Real.cos g.angle * v 0 - Real.sin g.angle * (g.sign * v 1)) + (Real.cos g.angle * u 0 - Real.sin g.angle * (g.sign * u 1))
    show Real.cos g.angle * (v 0 + u 0) - Real.sin g.angle * (g.sign * (v 1 + u 1)) = _
    ring
  · show Real.sin g.angle * (v 0 + u 0) + Real.cos g.angle * (g.sign * (v 1 + u 1)) =
      (Real.sin g.angle * v 0 + Real.cos g.angle * (g.sign * v 1)) + (Real.sin g.angle * u 0 + Real.cos g.angle * (g.sign * u 1))
    ring

theorem vector_smul (c : ℝ) (v : Fin 2 → ℝ) : g.vector (c • v) = c • g.vector v := by
  ext a
  unfold WalkMap.vector
  fin_cases a
  · show Real.cos g.angle * (c * v 0) - Real.sin g.angle * (g.sign * (c * v 1)) =
      c * (Real.cos g.angle * v 0 - Real.sin g.angle * (g.sign * v 1))
    ring
  · show Real.sin g.angle * (c * v 0) + Real.cos g.angle * (g.sign * (c * v 1)) =
      c * (Real.sin g.angle * v 0 + Real.cos g.angle * (g.sign * v 1))
    ring

theorem vector_sub (v u : Fin 2 → ℝ) : g.vector (v - u) = g.vector v - g.vector u := by
  have h : v = (v - u) + u := by simp
  have h' := vector_add g (v - u) u
  rw [← h] at h'
  rw [h']
  simp

theorem point_sub (v u : Fin 2 → ℝ) : g.point v - g.point u = g.vector (v - u) := by
  rw [vector_sub]
  unfold WalkMap.point
  simp

theorem _root_.Humoto.Spec.Wpg.WalkMap.inv_point (p : Fin 2 → ℝ) : g.inv.point (g.point p) = p := by
  unfold WalkMap.point
  rw [vector_add, g.inv_vector]
  ext a
  show p a + g.inv.vector g.shift a + -(WalkMap.vector ⟨g.mirror, -g.sign * g.angle, 0⟩ g.shift a) = p a
  have : g.inv.vector g.shift = WalkMap.vector ⟨g.mirror, -g.sign * g.angle, 0⟩ g.shift := rfl
  rw [this]
  ring

theorem _root_.Humoto.Spec.Wpg.WalkMap.vector_inv (v : Fin 2 → ℝ) : g.vector (g.inv.vector v) = v := by
  have h := Humoto.Wpg.vector_inv g.inv g.shift v
  have e : (⟨g.inv.mirror, -g.inv.sign * g.inv.angle, g.shift⟩ : WalkMap) = g := by
    have : -g.inv.sign * g.inv.angle = g.angle := by
      show -g.sign * (-g.sign * g.angle) = g.angle
      linear_combination g.angle * g.sign_mul
    rw [this]
    rfl
  rw [e] at h
  exact h

theorem _root_.Humoto.Spec.Wpg.WalkMap.point_inv (p : Fin 2 → ℝ) : g.point (g.inv.point p) = p := by
  have e : g.inv.shift = (-1 : ℝ) • g.inv.vector g.shift := by
    ext a
    show -(WalkMap.vector ⟨g.mirror, -g.sign * g.angle, 0⟩ g.shift a) = -1 * WalkMap.vector ⟨g.mirror, -g.sign * g.angle, 0⟩ g.shift a
    ring
  unfold WalkMap.point
  rw [e, vector_add, vector_smul, g.vector_inv, g.vector_inv]
  ext a
  show p a + -1 * g.shift a + g.shift a = p a
  ring

/-- Lengths are kept. -/
theorem vector_sq (v : Fin 2 → ℝ) : g.vector v 0 ^ 2 + g.vector v 1 ^ 2 = v 0 ^ 2 + v 1 ^ 2 := by
  have h1 := Real.sin_sq_add_cos_sq g.angle
  have h2 := g.sign_mul
  show (Real.cos g.angle * v 0 - Real.sin g.angle * (g.sign * v 1)) ^ 2 + (Real.sin g.angle * v 0 + Real.cos g.angle * (g.sign * v 1)) ^ 2 = _
  generalize g.sign = s at *
  linear_combination (v 0 ^ 2 + (s * v 1) ^ 2) * h1 + v 1 ^ 2 * h2

/-- Frames of feet are mapped to frames of feet. -/
theorem isTurned_moved {θ : ℝ} {v r : Fin 2 → ℝ} (h : IsTurned θ v r) : IsTurned (g.heading θ) (g.side v) (g.vector r) := by
  obtain ⟨h1, h2⟩ := h
  have hc : Real.cos (g.heading θ) = Real.cos g.angle * Real.cos θ - g.sign * (Real.sin g.angle * Real.sin θ) := by
    unfold WalkMap.heading
    rcases g.sign_cases with ⟨-, h⟩ | ⟨-, h⟩ <;> rw [h]
    · rw [one_mul, Real.cos_add]; ring
    · rw [show g.angle + -1 * θ = g.angle - θ by ring, Real.cos_sub]; ring
  have hs : Real.sin (g.heading θ) = Real.sin g.angle * Real.cos θ + g.sign * (Real.cos g.angle * Real.sin θ) := by
    unfold WalkMap.heading
    rcases g.sign_cases with ⟨-, h⟩ | ⟨-, h⟩ <;> rw [h]
    · rw [one_mul, Real.sin_add]; ring
    · rw [show g.angle + -1 * θ = g.angle - θ by ring, Real.sin_sub]; ring
  have h3 := g.sign_mul
  unfold IsTurned
  rw [hc, hs]
  constructor
  · show Real.cos g.angle * r 0 - Real.sin g.angle * (g.sign * r 1) = _ * v 0 - _ * (g.sign * v 1)
    rw [h1, h2]
    generalize g.sign = s at *
    linear_combination (Real.cos g.angle * Real.sin θ * v 1) * h3
  · show Real.sin g.angle * r 0 + Real.cos g.angle * (g.sign * r 1) = _ * v 0 + _ * (g.sign * v 1)
    rw [h1, h2]
    generalize g.sign = s at *
    linear_combination (Real.sin g.angle * Real.sin θ * v 1) * h3

theorem _root_.Humoto.Spec.Wpg.WalkMap.stanceType_twice (t : StanceType) : g.stanceType (g.stanceType t) = t := by
  unfold WalkMap.stanceType
  cases h : g.mirror <;> cases t <;> rfl

theorem _root_.Humoto.Spec.Wpg.WalkMap.stanceType_tds (t : StanceType) : g.stanceType t = .tds ↔ t = .tds := by
  unfold WalkMap.stanceType
  cases h : g.mirror <;> cases t <;> simp

theorem _root_.Humoto.Spec.Wpg.WalkMap.stanceType_ds (t : StanceType) : g.stanceType t = .ds ↔ t = .ds := by
  unfold WalkMap.stanceType
  cases h : g.mirror <;> cases t <;> simp

theorem _root_.Humoto.Spec.Wpg.WalkMap.stanceType_single (t : StanceType) : IsSingle (g.stanceType t) ↔ IsSingle t := by
  unfold WalkMap.stanceType IsSingle
  cases h : g.mirror <;> cases t <;> simp

/-- Images of bounds in frames of feet. -/
def movedBounds (B : Matrix (Fin 2) (Fin 2) ℝ) : Matrix (Fin 2) (Fin 2) ℝ :=
  if g.mirror then !![B 0 0, B 0 1; -B 1 1, -B 1 0] else B

theorem movedBounds_twice (B : Matrix (Fin 2) (Fin 2) ℝ) : movedBounds g (movedBounds g B) = B := by
  unfold movedBounds
  cases g.mirror
  · rfl
  · ext i j
    fin_cases i <;> fin_cases j <;> simp

theorem movedBounds_iff {B : Matrix (Fin 2) (Fin 2) ℝ} {v v' : Fin 2 → ℝ} (hv : v' = g.side v)
    (h : ∀ a, B a 0 ≤ v a ∧ v a ≤ B a 1) (a : Fin 2) : movedBounds g B a 0 ≤ v' a ∧ v' a ≤ movedBounds g B a 1 := by
  subst hv
  have h0 := h 0
  have h1 := h 1
  unfold movedBounds WalkMap.side
  rcases g.sign_cases with ⟨e, e'⟩ | ⟨e, e'⟩ <;> rw [e, e'] <;> fin_cases a
  · exact h0
  · simp only [Bool.false_eq_true, if_false]
    simpa using h1
  · exact h0
  · simp only [if_true]
    show -B 1 1 ≤ -1 * v 1 ∧ -1 * v 1 ≤ -B 1 0
    constructor <;> linarith

end

/-- Fixed steps. -/
theorem movedBounds_fixed (g : WalkMap) {B : Matrix (Fin 2) (Fin 2) ℝ} {t : StanceType} (h : ¬ IsSingle t → B 1 0 = B 1 1) :
    B 0 1 = movedBounds g B 0 1 ∧ g.sign * (if t = .rss then B 1 1 else B 1 0) =
      if g.stanceType t = .rss then movedBounds g B 1 1 else movedBounds g B 1 0 := by
  unfold movedBounds WalkMap.stanceType
  rcases g.sign_cases with ⟨e, e'⟩ | ⟨e, e'⟩ <;> rw [e, e']
  · refine ⟨rfl, ?_⟩
    cases t <;> simp
  · refine ⟨rfl, ?_⟩
    unfold IsSingle at h
    cases t <;> simp at h ⊢ <;> exact h

/-! ## Solutions -/

/-- Entries of the image of a solution. -/
def movedEntries (g : WalkMap) (x : ℕ → ℝ) : ℕ → ℝ := fun i => if i % 2 = 1 then g.sign * x i else x i

theorem movedEntries_twice (g : WalkMap) (x : ℕ → ℝ) : movedEntries g (movedEntries g x) = x := by
  ext i
  unfold movedEntries
  split
  · linear_combination x i * g.sign_mul
  · rfl

theorem movedEntries_sq (g : WalkMap) (x : ℕ → ℝ) (i : ℕ) : movedEntries g x i ^ 2 = x i ^ 2 := by
  unfold movedEntries
  split
  · linear_combination x i ^ 2 * g.sign_mul
  · rfl

theorem movedEntries_pair (g : WalkMap) (x : ℕ → ℝ) {i : ℕ} (hi : i % 2 = 0) :
    ![movedEntries g x i, movedEntries g x (i + 1)] = g.side ![x i, x (i + 1)] := by
  unfold movedEntries WalkMap.side
  rw [if_neg (by omega), if_pos (by omega)]
  rfl

theorem movedEntries_fun (g : WalkMap) (x : ℕ → ℝ) {i : ℕ} (hi : i % 2 = 0) :
    (fun a : Fin 2 => movedEntries g x (i + a)) = g.side (fun a : Fin 2 => x (i + a)) := by
  rw [show (fun a : Fin 2 => movedEntries g x (i + a)) = ![movedEntries g x i, movedEntries g x (i + 1)] by ext a; fin_cases a <;> rfl,
    movedEntries_pair g x hi]
  rfl

/-! ## States of the point mass -/

/-- Images of states. -/
noncomputable def movedCState (g : WalkMap) (x : Fin 6 → ℝ) : Fin 6 → ℝ :=
  ![g.point ![x 0, x 3] 0, g.vector ![x 1, x 4] 0, g.vector ![x 2, x 5] 0, g.point ![x 0, x 3] 1, g.vector ![x 1, x 4] 1,
    g.vector ![x 2, x 5] 1]

theorem moves_moved {g : WalkMap} {h T t : ℝ} {x x' : Fin 6 → ℝ} {u : Fin 2 → ℝ} (hm : Moves h T t x u x') :
    Moves h T t (movedCState g x) (g.point u) (movedCState g x') := by
  obtain ⟨c, v, a, z, h1, h2, h3, h4, h5⟩ := hm
  refine ⟨fun k t => g.point ![c 0 t, c 1 t] k, fun k t => g.vector ![v 0 t, v 1 t] k, fun k t => g.vector ![a 0 t, a 1 t] k,
    fun k t => g.point ![z 0 t, z 1 t] k, ?_, ?_, ?_, ?_, ?_⟩
  · intro k t
    obtain ⟨c0, v0⟩ := h1 0 t
    obtain ⟨c1, v1⟩ := h1 1 t
    fin_cases k
    · constructor
      · show HasDerivAt (fun t => Real.cos g.angle * c 0 t - Real.sin g.angle * (g.sign * c 1 t) + g.shift 0)
          (Real.cos g.angle * v 0 t - Real.sin g.angle * (g.sign * v 1 t)) t
        exact ((c0.const_mul _).sub ((c1.const_mul _).const_mul _)).add_const _
      · show HasDerivAt (fun t => Real.cos g.angle * v 0 t - Real.sin g.angle * (g.sign * v 1 t))
          (Real.cos g.angle * a 0 t - Real.sin g.angle * (g.sign * a 1 t)) t
        exact (v0.const_mul _).sub ((v1.const_mul _).const_mul _)
    · constructor
      · show HasDerivAt (fun t => Real.sin g.angle * c 0 t + Real.cos g.angle * (g.sign * c 1 t) + g.shift 1)
          (Real.sin g.angle * v 0 t + Real.cos g.angle * (g.sign * v 1 t)) t
        exact ((c0.const_mul _).add ((c1.const_mul _).const_mul _)).add_const _
      · show HasDerivAt (fun t => Real.sin g.angle * v 0 t + Real.cos g.angle * (g.sign * v 1 t))
          (Real.sin g.angle * a 0 t + Real.cos g.angle * (g.sign * a 1 t)) t
        exact (v0.const_mul _).add ((v1.const_mul _).const_mul _)
  · intro k t
    have e0 := h2 0 t
    have e1 := h2 1 t
    unfold IsZmp at *
    fin_cases k
    · show (Real.cos g.angle * a 0 t - Real.sin g.angle * (g.sign * a 1 t)) * h = PointMass6z.gravity *
        ((Real.cos g.angle * c 0 t - Real.sin g.angle * (g.sign * c 1 t) + g.shift 0) -
          (Real.cos g.angle * z 0 t - Real.sin g.angle * (g.sign * z 1 t) + g.shift 0))
      linear_combination Real.cos g.angle * e0 - Real.sin g.angle * g.sign * e1
    · show (Real.sin g.angle * a 0 t + Real.cos g.angle * (g.sign * a 1 t)) * h = PointMass6z.gravity *
        ((Real.sin g.angle * c 0 t + Real.cos g.angle * (g.sign * c 1 t) + g.shift 1) -
          (Real.sin g.angle * z 0 t + Real.cos g.angle * (g.sign * z 1 t) + g.shift 1))
      linear_combination Real.sin g.angle * e0 + Real.cos g.angle * g.sign * e1
  · intro k t
    have e0 := h3 0 t
    have e1 := h3 1 t
    fin_cases k
    · show Real.cos g.angle * z 0 t - Real.sin g.angle * (g.sign * z 1 t) + g.shift 0 =
        (Real.cos g.angle * z 0 0 - Real.sin g.angle * (g.sign * z 1 0) + g.shift 0) + t / T *
          ((Real.cos g.angle * u 0 - Real.sin g.angle * (g.sign * u 1) + g.shift 0) -
            (Real.cos g.angle * z 0 0 - Real.sin g.angle * (g.sign * z 1 0) + g.shift 0))
      linear_combination Real.cos g.angle * e0 - Real.sin g.angle * g.sign * e1
    · show Real.sin g.angle * z 0 t + Real.cos g.angle * (g.sign * z 1 t) + g.shift 1 =
        (Real.sin g.angle * z 0 0 + Real.cos g.angle * (g.sign * z 1 0) + g.shift 1) + t / T *
          ((Real.sin g.angle * u 0 + Real.cos g.angle * (g.sign * u 1) + g.shift 1) -
            (Real.sin g.angle * z 0 0 + Real.cos g.angle * (g.sign * z 1 0) + g.shift 1))
      linear_combination Real.sin g.angle * e0 + Real.cos g.angle * g.sign * e1
  · rw [h4]; rfl
  · rw [h5]; rfl

/-- The position, velocity and acceleration along an axis are linear combinations of those along both axes. -/
theorem movedCState_velocity (g : WalkMap) (x : Fin 6 → ℝ) (a : Fin 2) :
    velocityOf (movedCState g x) a = g.vector ![velocityOf x 0, velocityOf x 1] a := by
  fin_cases a <;> rfl

theorem copVelocity_moved {g : WalkMap} {h T : ℝ} {x : Fin 6 → ℝ} {u v : Fin 2 → ℝ} (hv : ∀ a, IsCopVelocity h T x u a (v a)) (a : Fin 2) :
    IsCopVelocity h T (movedCState g x) (g.point u) a (g.vector v a) := by
  obtain ⟨z0, h1, h2⟩ := hv 0
  obtain ⟨z1, h3, h4⟩ := hv 1
  refine ⟨g.point ![z0, z1] a, ?_, ?_⟩
  · unfold IsZmp at *
    have h1 : x 2 * h = PointMass6z.gravity * (x 0 - z0) := h1
    have h3 : x 5 * h = PointMass6z.gravity * (x 3 - z1) := h3
    fin_cases a
    · show (Real.cos g.angle * x 2 - Real.sin g.angle * (g.sign * x 5)) * h = PointMass6z.gravity *
        ((Real.cos g.angle * x 0 - Real.sin g.angle * (g.sign * x 3) + g.shift 0) -
          (Real.cos g.angle * z0 - Real.sin g.angle * (g.sign * z1) + g.shift 0))
      linear_combination Real.cos g.angle * h1 - Real.sin g.angle * g.sign * h3
    · show (Real.sin g.angle * x 2 + Real.cos g.angle * (g.sign * x 5)) * h = PointMass6z.gravity *
        ((Real.sin g.angle * x 0 + Real.cos g.angle * (g.sign * x 3) + g.shift 1) -
          (Real.sin g.angle * z0 + Real.cos g.angle * (g.sign * z1) + g.shift 1))
      linear_combination Real.sin g.angle * h1 + Real.cos g.angle * g.sign * h3
  · fin_cases a
    · show (Real.cos g.angle * v 0 - Real.sin g.angle * (g.sign * v 1)) * T =
        (Real.cos g.angle * u 0 - Real.sin g.angle * (g.sign * u 1) + g.shift 0) -
          (Real.cos g.angle * z0 - Real.sin g.angle * (g.sign * z1) + g.shift 0)
      linear_combination Real.cos g.angle * h2 - Real.sin g.angle * g.sign * h4
    · show (Real.sin g.angle * v 0 + Real.cos g.angle * (g.sign * v 1)) * T =
        (Real.sin g.angle * u 0 + Real.cos g.angle * (g.sign * u 1) + g.shift 1) -
          (Real.sin g.angle * z0 + Real.cos g.angle * (g.sign * z1) + g.shift 1)
      linear_combination Real.sin g.angle * h2 + Real.cos g.angle * g.sign * h4

theorem capture_moved {g : WalkMap} {h : ℝ} (hh : 0 < h) {x : Fin 6 → ℝ} (hx : ∀ a, IsCapturePointVelocity h x a 0) (a : Fin 2) :
    IsCapturePointVelocity h (movedCState g x) a 0 := by
  obtain ⟨w, h1, h2, h3⟩ := hx 0
  obtain ⟨w', h1', h2', h3'⟩ := hx 1
  have ew : w' = w := by
    have : (w' - w) * (w' + w) * h = 0 := by linear_combination h2' - h2
    rcases mul_eq_zero.1 this with h4 | h4
    · rcases mul_eq_zero.1 h4 with h5 | h5
      · linarith
      · linarith
    · exact absurd h4 hh.ne'
  subst ew
  have h3 : 0 = x 1 + x 2 / w' := h3
  have h3' : 0 = x 4 + x 5 / w' := h3'
  refine ⟨w', h1, h2, ?_⟩
  fin_cases a
  · show 0 = (Real.cos g.angle * x 1 - Real.sin g.angle * (g.sign * x 4)) + (Real.cos g.angle * x 2 - Real.sin g.angle * (g.sign * x 5)) / w'
    linear_combination Real.cos g.angle * h3 - Real.sin g.angle * g.sign * h3'
  · show 0 = (Real.sin g.angle * x 1 + Real.cos g.angle * (g.sign * x 4)) + (Real.sin g.angle * x 2 + Real.cos g.angle * (g.sign * x 5)) / w'
    linear_combination Real.sin g.angle * h3 + Real.cos g.angle * g.sign * h3'

theorem movedCState_inv (g : WalkMap) (x : Fin 6 → ℝ) : movedCState g.inv (movedCState g x) = x := by
  have e1 : g.inv.point (g.point ![x 0, x 3]) = _ := g.inv_point _
  have e2 : g.inv.vector (g.vector ![x 1, x 4]) = _ := g.inv_vector _
  have e3 : g.inv.vector (g.vector ![x 2, x 5]) = _ := g.inv_vector _
  have eta : ∀ v : Fin 2 → ℝ, ![v 0, v 1] = v := fun v => by ext a; fin_cases a <;> rfl
  ext i
  fin_cases i
  · show g.inv.point ![g.point ![x 0, x 3] 0, g.point ![x 0, x 3] 1] 0 = x 0
    rw [eta, e1]; rfl
  · show g.inv.vector ![g.vector ![x 1, x 4] 0, g.vector ![x 1, x 4] 1] 0 = x 1
    rw [eta, e2]; rfl
  · show g.inv.vector ![g.vector ![x 2, x 5] 0, g.vector ![x 2, x 5] 1] 0 = x 2
    rw [eta, e3]; rfl
  · show g.inv.point ![g.point ![x 0, x 3] 0, g.point ![x 0, x 3] 1] 1 = x 3
    rw [eta, e1]; rfl
  · show g.inv.vector ![g.vector ![x 1, x 4] 0, g.vector ![x 1, x 4] 1] 1 = x 4
    rw [eta, e2]; rfl
  · show g.inv.vector ![g.vector ![x 2, x 5] 0, g.vector ![x 2, x 5] 1] 1 = x 5
    rw [eta, e3]; rfl

theorem movedCState_inv' (g : WalkMap) (x : Fin 6 → ℝ) : movedCState g (movedCState g.inv x) = x := by
  have e1 : g.point (g.inv.point ![x 0, x 3]) = _ := g.point_inv _
  have e2 : g.vector (g.inv.vector ![x 1, x 4]) = _ := g.vector_inv _
  have e3 : g.vector (g.inv.vector ![x 2, x 5]) = _ := g.vector_inv _
  have eta : ∀ v : Fin 2 → ℝ, ![v 0, v 1] = v := fun v => by ext a; fin_cases a <;> rfl
  ext i
  fin_cases i
  · show g.point ![g.inv.point ![x 0, x 3] 0, g.inv.point ![x 0, x 3] 1] 0 = x 0
    rw [eta, e1]; rfl
  · show g.vector ![g.inv.vector ![x 1, x 4] 0, g.inv.vector ![x 1, x 4] 1] 0 = x 1
    rw [eta, e2]; rfl
  · show g.vector ![g.inv.vector ![x 2, x 5] 0, g.inv.vector ![x 2, x 5] 1] 0 = x 2
    rw [eta, e3]; rfl
  · show g.point ![g.inv.point ![x 0, x 3] 0, g.inv.point ![x 0, x 3] 1] 1 = x 3
    rw [eta, e1]; rfl
  · show g.vector ![g.inv.vector ![x 1, x 4] 0, g.inv.vector ![x 1, x 4] 1] 1 = x 4
    rw [eta, e2]; rfl
  · show g.vector ![g.inv.vector ![x 2, x 5] 0, g.inv.vector ![x 2, x 5] 1] 1 = x 5
    rw [eta, e3]; rfl

/-! ## Horizons -/

/-- The support `s'` is the image of the support `s`. -/
structure MovedSupport (g : WalkMap) (s s' : WalkState) : Prop where
  type : s'.stance.type = g.stanceType s.stance.type
  theta : s'.theta = g.heading s.theta
  fd : s'.fd_bounds = movedBounds g s.fd_bounds
  cop : s'.cop_bounds = movedBounds g s.cop_bounds
  closes : ¬ IsSingle s.stance.type → s.fd_bounds 1 0 = s.fd_bounds 1 1
  rotations : s.rotation = rotation2 s.theta ∧ s'.rotation = rotation2 s'.theta

/-- The horizon `H'` is the image of the horizon `H`. -/
structure MovedHorizon (g : WalkMap) (H H' : Horizon) : Prop where
  steps : H'.variable_steps = H.variable_steps
  range : ∀ k ∈ H.variable_steps, k < H.intervals.n
  size : H'.intervals.n = H.intervals.n
  times : ∀ i < H.intervals.n, (H'.intervals.e i).T = (H.intervals.e i).T
  velocities : ∀ i < H.intervals.n, (H'.intervals.e i).cvel_ref = g.vector (H.intervals.e i).cvel_ref
  states : ∀ i < H.intervals.n, ∃ s s', H.getWalkState i = .ok s ∧ H'.getWalkState i = .ok s' ∧ MovedSupport g s s'

/-- The place of the robot `m'` is the image of that of the robot `m`. -/
structure MovedPlace (g : WalkMap) (m m' : Model) : Prop where
  support : m'.current_support_position = g.point m.current_support_position
  state : m'.getCState = movedCState g m.getCState
  height : m'.getCoMHeight = m.getCoMHeight

theorem MovedSupport.symm {g : WalkMap} {s s' : WalkState} (h : MovedSupport g s s') : MovedSupport g.inv s' s where
  type := by
    have e : g.inv.stanceType = g.stanceType := rfl
    rw [e, h.type, g.stanceType_twice]
  theta := by rw [h.theta, g.inv_heading]
  fd := by
    have e : movedBounds g.inv = movedBounds g := rfl
    rw [e, h.fd, movedBounds_twice]
  cop := by
    have e : movedBounds g.inv = movedBounds g := rfl
    rw [e, h.cop, movedBounds_twice]
  closes := fun hd => by
    have := h.closes fun e => hd (by rw [h.type, g.stanceType_single]; exact e)
    rw [h.fd]
    unfold movedBounds
    split
    · show -s.fd_bounds 1 1 = -s.fd_bounds 1 0
      rw [this]
    · exact this
  rotations := ⟨h.rotations.2, h.rotations.1⟩

theorem MovedHorizon.symm {g : WalkMap} {H H' : Horizon} (h : MovedHorizon g H H') : MovedHorizon g.inv H' H where
  steps := h.steps.symm
  range := fun k hk => by rw [h.size]; exact h.range k (h.steps ▸ hk)
  size := h.size.symm
  times := fun i hi => (h.times i (h.size ▸ hi)).symm
  velocities := fun i hi => by rw [h.velocities i (h.size ▸ hi), g.inv_vector]
  states := fun i hi => by
    obtain ⟨s, s', h1, h2, h3⟩ := h.states i (h.size ▸ hi)
    exact ⟨s', s, h2, h1, h3.symm⟩

theorem MovedPlace.symm {g : WalkMap} {m m' : Model} (h : MovedPlace g m m') : MovedPlace g.inv m' m where
  support := by rw [h.support, g.inv_point]
  state := by rw [h.state, movedCState_inv]
  height := h.height.symm

theorem MovedHorizon.state {g : WalkMap} {H H' : Horizon} (h : MovedHorizon g H H') {i : ℕ} (hi : i < H.intervals.n) {s' : WalkState}
    (hs : H'.getWalkState i = .ok s') : ∃ s, H.getWalkState i = .ok s ∧ MovedSupport g s s' := by
  obtain ⟨s, s1, h1, h2, h3⟩ := h.states i hi
  cases h2.symm.trans hs
  exact ⟨s, h1, h3⟩

section
variable {g : WalkMap} {H H' : Horizon} {m m' : Model} {o : ProblemSetup} {x : ℕ → ℝ} (h : MovedHorizon g H H') (hm : MovedPlace g m m')
include h

theorem footsteps_moved {c : Fin 2 → ℝ} {P : ℕ → Fin 2 → ℝ} (hp : Footsteps H c (fun i => x (2 * H.intervals.n + i)) P) :
    Footsteps H' (g.point c) (fun i => movedEntries g x (2 * H'.intervals.n + i)) (fun j => g.point (P j)) := by
  refine ⟨by rw [hp.start], fun j k s' hk hs => ?_⟩
  rw [h.steps] at hk
  obtain ⟨s, hs1, hs2⟩ := h.state (by have := h.range k (List.mem_of_getElem? hk); omega) hs
  rw [h.size, hs2.theta, point_sub, ← Nat.add_assoc, movedEntries_pair g x (by omega)]
  exact isTurned_moved g (hp.step j k s hk hs1)

include hm

theorem prediction_moved {P cop : ℕ → Fin 2 → ℝ} {X : ℕ → Fin 6 → ℝ} (hp : Prediction H m x P cop X) :
    Prediction H' m' (movedEntries g x) (fun j => g.point (P j)) (fun i => g.point (cop i)) (fun i => movedCState g (X i)) := by
  refine ⟨?_, ?_, ?_, ?_⟩
  · rw [hm.support]
    exact footsteps_moved h hp.footsteps
  · intro i s' hi hs
    rw [h.size] at hi
    obtain ⟨s, hs1, hs2⟩ := h.state hi hs
    unfold stepsBy
    rw [h.steps, hs2.theta, movedEntries_pair g x (by omega), point_sub]
    exact isTurned_moved g (hp.pressure i s hi hs1)
  · rw [hp.start, hm.state]
  · intro i hi
    rw [h.size] at hi
    rw [h.times i hi, hm.height]
    exact moves_moved (hp.motion i hi)

theorem allowed_moved (hh : 0 < m.getCoMHeight) (hx : AllowedMotion o H m x) : AllowedMotion o H' m' (movedEntries g x) := by
  refine ⟨?_, ?_, fun ht P cop X hP a => ?_⟩
  · have hs := hx.steps
    split_ifs at hs ⊢
    · intro j k s' hk hw
      rw [h.steps] at hk
      obtain ⟨s, hs1, hs2⟩ := h.state (h.range k (List.mem_of_getElem? hk)) hw
      obtain ⟨k1, k2⟩ := hs j k s hk hs1
      have hc := hs2.closes
      have q1 : movedEntries g x (2 * H.intervals.n + 2 * j) = x (2 * H.intervals.n + 2 * j) := if_neg (by omega)
      have q2 : movedEntries g x (2 * H.intervals.n + 2 * j + 1) = g.sign * x (2 * H.intervals.n + 2 * j + 1) := if_pos (by omega)
      rw [h.size, hs2.fd, hs2.type, q1, q2, k1, k2]
      exact movedBounds_fixed g hc
    · intro j k s' hk hw a
      rw [h.steps] at hk
      obtain ⟨s, hs1, hs2⟩ := h.state (h.range k (List.mem_of_getElem? hk)) hw
      rw [h.size, hs2.fd]
      exact movedBounds_iff g (movedEntries_fun g x (i := 2 * H.intervals.n + 2 * j) (by omega)) (hs j k s hk hs1) a
  · intro i s' hi hs a
    rw [h.size] at hi
    obtain ⟨s, hs1, hs2⟩ := h.state hi hs
    rw [hs2.cop]
    exact movedBounds_iff g (movedEntries_fun g x (i := 2 * i) (by omega)) (hx.cop i s hi hs1) a
  · have hP' := prediction_moved h.symm hm.symm hP
    have e : movedEntries g.inv (movedEntries g x) = x := movedEntries_twice g x
    rw [e] at hP'
    have hc := capture_moved (g := g) hh (hx.terminal ht _ _ _ hP') a
    rw [h.size, hm.height]
    have e2 : movedCState g (movedCState g.inv (X H.intervals.n)) = X H.intervals.n := movedCState_inv' g _
    rw [← e2]
    exact hc

theorem cost_moved {c : ℝ} (hc : IsCost o H m x c) : IsCost o H' m' (movedEntries g x) c := by
  obtain ⟨P, cop, X, V, h1, h2, h3⟩ := hc
  refine ⟨_, _, _, fun i => g.vector (V i), prediction_moved h hm h1, fun i hi a => ?_, ?_⟩
  · rw [h.size] at hi
    rw [h.times i hi, hm.height]
    exact copVelocity_moved (h2 i hi) a
  · rw [h3]
    unfold walkCost
    rw [h.size]
    refine Finset.sum_congr rfl fun i hi => ?_
    have hi := Finset.mem_range.1 hi
    rw [Fin.sum_univ_two, Fin.sum_univ_two, h.velocities i hi, movedCState_velocity, movedCState_velocity, movedEntries_sq, movedEntries_sq]
    have e1 := vector_sq g (V i)
    have e2 := vector_sq g (![velocityOf (X (i + 1)) 0, velocityOf (X (i + 1)) 1] - (H.intervals.e i).cvel_ref)
    rw [vector_sub] at e2
    simp only [Pi.sub_apply] at e2
    have e2 : (g.vector ![velocityOf (X (i + 1)) 0, velocityOf (X (i + 1)) 1] 0 - g.vector (H.intervals.e i).cvel_ref 0) ^ 2 +
        (g.vector ![velocityOf (X (i + 1)) 0, velocityOf (X (i + 1)) 1] 1 - g.vector (H.intervals.e i).cvel_ref 1) ^ 2 =
        (velocityOf (X (i + 1)) 0 - (H.intervals.e i).cvel_ref 0) ^ 2 + (velocityOf (X (i + 1)) 1 - (H.intervals.e i).cvel_ref 1) ^ 2 := e2
    linear_combination (-(o.comVelocityGain ^ 2)) * e2 - o.copVelocityGain ^ 2 * e1

omit hm in
theorem moderate_moved (hx : ModerateSolution H x) : ModerateSolution H' (movedEntries g x) := by
  intro v hv
  rw [h.size, h.steps] at hv
  obtain ⟨h1, h2⟩ := hx v hv
  unfold movedEntries
  split
  · rcases g.sign_cases with ⟨-, e⟩ | ⟨-, e⟩ <;> rw [e] <;> constructor <;> linarith
  · exact ⟨h1, h2⟩

theorem best_moved (hh : 0 < m.getCoMHeight) (hx : BestMotion o H m 0 (ModerateSolution H) x) :
    BestMotion o H' m' 0 (ModerateSolution H') (movedEntries g x) := by
  refine ⟨allowed_moved h hm hh hx.allowed, fun c y d hc hy hS hd => ?_⟩
  have e : movedEntries g.inv (movedEntries g x) = x := movedEntries_twice g x
  have c1 := cost_moved h.symm hm.symm hc
  rw [e] at c1
  have := hx.least c _ d c1 (allowed_moved h.symm hm.symm (by rw [hm.height]; exact hh) hy) (moderate_moved h.symm hS)
    (cost_moved h.symm hm.symm hd)
  simpa using this

end

end Humoto.Wpg
