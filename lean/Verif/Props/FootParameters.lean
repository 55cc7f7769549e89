import Verif.Model.FootParameters
import Verif.Spec.FootParameters
import Verif.Lemmas.Constraints
import Mathlib.Tactic.Ring
import Mathlib.Tactic.Linarith
import Mathlib.Tactic.NormNum
import Mathlib.Tactic.LinearCombination
import Mathlib.Tactic.FinCases
import Mathlib.Tactic.FieldSimp

/-!
# C31, C32: feet of the robot
-/

namespace Humoto

open Spec

set_option linter.unusedSectionVars false

variable {K : Type} [Field K] [LinearOrder K] [IsStrictOrderedRing K]

/-! ## C31 -/

/-- **C31.** From a double support to a foot and back. -/
theorem C31_foot_and_back (p : FootParameters K) (s : LeftOrRight) (hs : s ≠ .undefined) (R : Matrix (Fin 2) (Fin 2) K)
    (pos : Fin 2 → K) :
    ∃ f, p.getFootPositionFromADS s R pos = .ok f ∧ p.getADSPositionFromFoot s R f = .ok pos := by
  cases s with
  | undefined => exact absurd rfl hs
  | left =>
    refine ⟨_, rfl, ?_⟩
    show Except.ok _ = _
    congr 1
    funext i
    fin_cases i <;> simp [transform2, FootParameters.leftFoot, Matrix.mulVec, dotProduct, Fin.sum_univ_two]
  | right =>
    refine ⟨_, rfl, ?_⟩
    show Except.ok _ = _
    congr 1
    funext i
    fin_cases i <;> simp [transform2, FootParameters.rightFoot, Matrix.mulVec, dotProduct, Fin.sum_univ_two]

/-- **C31.** From a foot to a double support and back. -/
theorem C31_ads_and_back (p : FootParameters K) (s : LeftOrRight) (hs : s ≠ .undefined) (R : Matrix (Fin 2) (Fin 2) K)
    (pos : Fin 2 → K) :
    ∃ f, p.getADSPositionFromFoot s R pos = .ok f ∧ p.getFootPositionFromADS s R f = .ok pos := by
  cases s with
  | undefined => exact absurd rfl hs
  | left =>
    refine ⟨_, rfl, ?_⟩
    show Except.ok _ = _
    congr 1
    funext i
    fin_cases i <;> simp [transform2, FootParameters.leftFoot, Matrix.mulVec, dotProduct, Fin.sum_univ_two]
  | right =>
    refine ⟨_, rfl, ?_⟩
    show Except.ok _ = _
    congr 1
    funext i
    fin_cases i <;> simp [transform2, FootParameters.rightFoot, Matrix.mulVec, dotProduct, Fin.sum_univ_two]

/-- **C31.** The feet of a double support are at the default distance from each other, its position is in the middle, and the
left foot is on the left: the vector from the right foot to the left one is the second axis of the support times the distance. -/
theorem C31_distance (p : FootParameters K) (R : Matrix (Fin 2) (Fin 2) K) (hR : IsOrientation R) (pos : Fin 2 → K) :
    ∃ l r, p.getFootPositionFromADS .left R pos = .ok l ∧ p.getFootPositionFromADS .right R pos = .ok r ∧
      distSq l r = p.feetDistDefault ^ 2 ∧ (∀ i, l i + r i = 2 * pos i) ∧ (∀ i, l i - r i = p.feetDistDefault * R i 1) := by
  refine ⟨_, _, rfl, rfl, ?_, ?_, ?_⟩
  · have h : R 0 1 * R 0 1 + R 1 1 * R 1 1 = 1 := by
      have := congrFun (congrFun hR 1) 1
      simpa [Matrix.mul_apply, Fin.sum_univ_two] using this
    simp only [distSq, transform2, FootParameters.leftFoot, FootParameters.rightFoot, Matrix.mulVec, dotProduct, Fin.sum_univ_two,
      Pi.add_apply, Matrix.cons_val_zero, Matrix.cons_val_one]
    linear_combination p.feetDistDefault ^ 2 * h
  · intro i
    simp [transform2, FootParameters.leftFoot, FootParameters.rightFoot, Matrix.mulVec, dotProduct, Fin.sum_univ_two]
    ring
  · intro i
    simp [transform2, FootParameters.leftFoot, FootParameters.rightFoot, Matrix.mulVec, dotProduct, Fin.sum_univ_two]
    ring

/-- **C31.** Stepping through an aligned double support from a foot to the opposite one: the other foot is found at the default
distance. -/
theorem C31_step (p : FootParameters K) (s : LeftOrRight) (hs : s ≠ .undefined) (R : Matrix (Fin 2) (Fin 2) K)
    (hR : IsOrientation R) (pos : Fin 2 → K) :
    ∃ s' a f, s.invert = .ok s' ∧ p.getADSPositionFromFoot s R pos = .ok a ∧ p.getFootPositionFromADS s' R a = .ok f ∧
      distSq pos f = p.feetDistDefault ^ 2 := by
  have h : R 0 1 * R 0 1 + R 1 1 * R 1 1 = 1 := by
    have := congrFun (congrFun hR 1) 1
    simpa [Matrix.mul_apply, Fin.sum_univ_two] using this
  cases s with
  | undefined => exact absurd rfl hs
  | left =>
    refine ⟨.right, _, _, rfl, rfl, rfl, ?_⟩
    simp only [distSq, transform2, FootParameters.leftFoot, FootParameters.rightFoot, Matrix.mulVec, dotProduct, Fin.sum_univ_two,
      Pi.add_apply, Matrix.cons_val_zero, Matrix.cons_val_one]
    linear_combination p.feetDistDefault ^ 2 * h
  | right =>
    refine ⟨.left, _, _, rfl, rfl, rfl, ?_⟩
    simp only [distSq, transform2, FootParameters.leftFoot, FootParameters.rightFoot, Matrix.mulVec, dotProduct, Fin.sum_univ_two,
      Pi.add_apply, Matrix.cons_val_zero, Matrix.cons_val_one]
    linear_combination p.feetDistDefault ^ 2 * h

/-- **C31.** The side must be given. -/
theorem C31_reject (p : FootParameters K) (R : Matrix (Fin 2) (Fin 2) K) (pos : Fin 2 → K) :
    p.getFootPositionFromADS .undefined R pos = .error .thrown ∧ p.getADSPositionFromFoot .undefined R pos = .error .thrown ∧
    LeftOrRight.invert .undefined = .error .thrown := ⟨rfl, rfl, rfl⟩

/-- A robot turned to the left. -/
example : IsOrientation (!![0, -1; 1, 0] : Matrix (Fin 2) (Fin 2) ℚ) ∧
    ∃ l, FootParameters.default.getFootPositionFromADS .left !![0, -1; 1, 0] ![1, 1] = .ok l ∧ l 0 = 1 - 19 / 200 ∧ l 1 = 1 := by
  refine ⟨?_, _, rfl, ?_, ?_⟩
  · unfold IsOrientation
    ext i j
    fin_cases i <;> fin_cases j <;> simp [Matrix.mul_apply, Fin.sum_univ_two]
  · norm_num [transform2, FootParameters.leftFoot, FootParameters.default, Matrix.mulVec, dotProduct, Fin.sum_univ_two]
  · norm_num [transform2, FootParameters.leftFoot, FootParameters.default, Matrix.mulVec, dotProduct, Fin.sum_univ_two]

/-! ## C32 -/

/-- **C32.** The bounds of the right foot are the mirrored bounds of the left foot, for every type of bounds. -/
theorem C32_mirror (p : FootParameters K) (ty : FootBoundsType) (hty : ty ≠ .undefined) :
    ∃ l r, p.getFootBounds .left ty = .ok l ∧ p.getFootBounds .right ty = .ok r ∧ ∀ x, Within r x ↔ Within l (mirror x) := by
  have key : ∀ (a b c d : K) (x : Fin 2 → K),
      Within !![a, b; -d, -c] x ↔ Within !![a, b; c, d] (mirror x) := by
    intro a b c d x
    unfold Within mirror
    rw [Fin.forall_fin_two, Fin.forall_fin_two]
    simp only [Matrix.of_apply, Matrix.cons_val_zero, Matrix.cons_val_one]
    constructor
    · rintro ⟨⟨h1, h2⟩, h3, h4⟩; exact ⟨⟨h1, h2⟩, by linarith, by linarith⟩
    · rintro ⟨⟨h1, h2⟩, h3, h4⟩; exact ⟨⟨h1, h2⟩, by linarith, by linarith⟩
  cases ty with
  | undefined => exact absurd rfl hty
  | withRespectToADS => exact ⟨_, _, rfl, rfl, fun x => key _ _ _ _ x⟩
  | withRespectToSS => exact ⟨_, _, rfl, rfl, fun x => key _ _ _ _ x⟩
  | alignedToSS => exact ⟨_, _, rfl, rfl, fun x => key _ _ _ _ x⟩

/-- **C32.** When the parameters are ordered, lower bounds are not above upper bounds. -/
theorem C32_ordered (p : FootParameters K) (h1 : 0 ≤ p.maxStepLen) (h2 : p.minFeetDist ≤ p.maxFeetDist) (s : LeftOrRight)
    (hs : s ≠ .undefined) (ty : FootBoundsType) (hty : ty ≠ .undefined) :
    ∃ B, p.getFootBounds s ty = .ok B ∧ ∀ i, B i 0 ≤ B i 1 := by
  cases s <;> cases ty <;> first
    | exact absurd rfl hs
    | exact absurd rfl hty
    | exact ⟨_, rfl, by
        rw [Fin.forall_fin_two]
        simp only [FootParameters.leftFoot, FootParameters.rightFoot, Matrix.of_apply, Matrix.cons_val_zero, Matrix.cons_val_one]
        constructor <;> linarith⟩

/-- **C32.** The nominal position lies inside of the bounds: with respect to the preceding single support the other foot of the
aligned double support; with respect to the double support its foot, which is the only admissible position. -/
theorem C32_nominal (p : FootParameters K) (h1 : 0 ≤ p.maxStepLen) (h2 : p.minFeetDist ≤ p.feetDistDefault)
    (h3 : p.feetDistDefault ≤ p.maxFeetDist) (s s' : LeftOrRight) (hs : s.invert = .ok s') :
    ∃ a f B, p.getADSPositionFromFoot s' 1 0 = .ok a ∧ p.getFootPositionFromADS s 1 a = .ok f ∧
      p.getFootBounds s .withRespectToSS = .ok B ∧ Within B f := by
  cases s with
  | undefined => cases hs
  | left =>
    cases hs
    refine ⟨_, _, _, rfl, rfl, rfl, ?_⟩
    unfold Within
    rw [Fin.forall_fin_two]
    simp [transform2, FootParameters.leftFoot, FootParameters.rightFoot]
    refine ⟨h1, ?_, ?_⟩ <;> linarith
  | right =>
    cases hs
    refine ⟨_, _, _, rfl, rfl, rfl, ?_⟩
    unfold Within
    rw [Fin.forall_fin_two]
    simp [transform2, FootParameters.leftFoot, FootParameters.rightFoot]
    refine ⟨h1, ?_, ?_⟩ <;> linarith

/-- **C32.** With respect to a double support there is exactly one admissible position: its foot. -/
theorem C32_fixed (p : FootParameters K) (s : LeftOrRight) (hs : s ≠ .undefined) :
    ∃ f B, p.getFootPositionFromADS s 1 0 = .ok f ∧ p.getFootBounds s .withRespectToADS = .ok B ∧ ∀ x, Within B x ↔ x = f := by
  have key : ∀ (c : K) (x : Fin 2 → K), Within !![0, 0; c, c] x ↔ x = transform2 ![0, c] 1 0 := by
    intro c x
    unfold Within transform2
    rw [Fin.forall_fin_two]
    simp only [Matrix.of_apply, Matrix.cons_val_zero, Matrix.cons_val_one, Matrix.one_mulVec, add_zero]
    constructor
    · rintro ⟨⟨e1, e2⟩, e3, e4⟩
      funext i
      fin_cases i
      · exact le_antisymm e2 e1
      · exact le_antisymm e4 e3
    · rintro rfl
      exact ⟨⟨le_rfl, le_rfl⟩, le_rfl, le_rfl⟩
  cases s with
  | undefined => exact absurd rfl hs
  | left => exact ⟨_, _, rfl, rfl, fun x => key _ x⟩
  | right => exact ⟨_, _, rfl, rfl, fun x => key _ x⟩

/-- **C32.** With respect to a single support on the other foot, "aligned" bounds admit exactly one position: the centre of the
aligned double support. -/
theorem C32_aligned (p : FootParameters K) (s s' : LeftOrRight) (hs : s.invert = .ok s') :
    ∃ a B, p.getADSPositionFromFoot s' 1 0 = .ok a ∧ p.getFootBounds s .alignedToSS = .ok B ∧ ∀ x, Within B x ↔ x = a := by
  have key : ∀ (c : K) (x : Fin 2 → K), Within !![0, 0; c, c] x ↔ x = transform2 ![0, c] 1 0 := by
    intro c x
    unfold Within transform2
    rw [Fin.forall_fin_two]
    simp only [Matrix.of_apply, Matrix.cons_val_zero, Matrix.cons_val_one, Matrix.one_mulVec, add_zero]
    constructor
    · rintro ⟨⟨e1, e2⟩, e3, e4⟩
      funext i
      fin_cases i
      · exact le_antisymm e2 e1
      · exact le_antisymm e4 e3
    · rintro rfl
      exact ⟨⟨le_rfl, le_rfl⟩, le_rfl, le_rfl⟩
  cases s with
  | undefined => cases hs
  | left => cases hs; exact ⟨_, _, rfl, rfl, fun x => key _ x⟩
  | right => cases hs; exact ⟨_, _, rfl, rfl, fun x => key _ x⟩

example : ∃ a B, FootParameters.default.getADSPositionFromFoot .right 1 0 = .ok a ∧
    FootParameters.default.getFootBounds .left .alignedToSS = .ok B ∧ ∀ x, Within B x ↔ x = a :=
  C32_aligned _ .left .right rfl

/-- **C32.** The bounds on the CoP in an aligned double support are the smallest rectangle around both feet: every point under a
foot is admissible, and each side of the rectangle is touched by a foot. -/
theorem C32_cop (p : FootParameters K) (hd : 0 ≤ p.feetDistDefault) (s : LeftOrRight) (hs : s ≠ .undefined)
    (x : Fin 2 → K) (hx : Within p.getSSCoPBounds x) :
    ∃ f, p.getFootPositionFromADS s 1 0 = .ok f ∧ Within p.getADSCoPBounds (fun i => f i + x i) := by
  unfold Within at hx
  rw [Fin.forall_fin_two] at hx
  simp only [FootParameters.getSSCoPBounds, Matrix.of_apply, Matrix.cons_val_zero, Matrix.cons_val_one] at hx
  obtain ⟨⟨e1, e2⟩, e3, e4⟩ := hx
  cases s with
  | undefined => exact absurd rfl hs
  | left =>
    refine ⟨_, rfl, ?_⟩
    unfold Within
    rw [Fin.forall_fin_two]
    simp only [transform2, FootParameters.leftFoot, FootParameters.getADSCoPBounds, Matrix.of_apply, Matrix.cons_val_zero,
      Matrix.cons_val_one, Matrix.one_mulVec, add_zero]
    refine ⟨⟨?_, ?_⟩, ?_, ?_⟩ <;> linarith
  | right =>
    refine ⟨_, rfl, ?_⟩
    unfold Within
    rw [Fin.forall_fin_two]
    simp only [transform2, FootParameters.rightFoot, FootParameters.getADSCoPBounds, Matrix.of_apply, Matrix.cons_val_zero,
      Matrix.cons_val_one, Matrix.one_mulVec, add_zero]
    refine ⟨⟨?_, ?_⟩, ?_, ?_⟩ <;> linarith

/-- **C32.** Each side of the rectangle is touched by a foot. -/
theorem C32_cop_tight (p : FootParameters K) : ∃ l r, p.getFootPositionFromADS .left 1 0 = .ok l ∧
    p.getFootPositionFromADS .right 1 0 = .ok r ∧
    p.getADSCoPBounds 1 1 = l 1 + p.getSSCoPBounds 1 1 ∧ p.getADSCoPBounds 1 0 = r 1 + p.getSSCoPBounds 1 0 ∧
    p.getADSCoPBounds 0 0 = l 0 + p.getSSCoPBounds 0 0 ∧ p.getADSCoPBounds 0 1 = l 0 + p.getSSCoPBounds 0 1 := by
  refine ⟨_, _, rfl, rfl, ?_, ?_, ?_, ?_⟩ <;>
  simp [transform2, FootParameters.leftFoot, FootParameters.rightFoot, FootParameters.getADSCoPBounds,
    FootParameters.getSSCoPBounds] <;> ring

/-- **C32.** Undefined sides and types are rejected. -/
theorem C32_reject (p : FootParameters K) (s : LeftOrRight) (ty : FootBoundsType) (h : s = .undefined ∨ ty = .undefined) :
    p.getFootBounds s ty = .error .thrown := by
  rcases h with rfl | rfl
  · rfl
  · cases s <;> rfl

/-- The default parameters meet the conditions. -/
example : (0 : ℚ) ≤ FootParameters.default.maxStepLen ∧
    FootParameters.default.minFeetDist ≤ FootParameters.default.feetDistDefault ∧
    FootParameters.default.feetDistDefault ≤ FootParameters.default.maxFeetDist := by
  norm_num [FootParameters.default]

end Humoto
