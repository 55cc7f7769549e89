import Verif.Model.PepperTasks
import Verif.Spec.PepperTasks
import Verif.Spec.TaskGeneric
import Verif.Lemmas.Constraints
import Verif.Lemmas.Condense
import Verif.Props.PepperMpc

/-!
# Lemmas about tasks of Pepper
-/

namespace Humoto.Pepper

open Spec

variable {K : Type}

theorem pair_index {N i : ℕ} (hi : i < 2 * N) : ∃ (k : ℕ) (a : Fin 2), k < N ∧ i = 2 * k + a :=
  ⟨i / 2, ⟨i % 2, Nat.mod_lt _ (by decide)⟩, by omega, by simp only; omega⟩

theorem pair_lt {N k : ℕ} (hk : k < N) (a : Fin 2) : 2 * k + a < 2 * N := by
  have := a.2
  omega

theorem pairVec_e (w : Fin 2 → K) (a : Fin 2) : (pairVec w).e a = w a := by
  fin_cases a <;> rfl

/-- Assignment of a pair. -/
theorem setPair_ok {v : Vec K} {k : ℕ} (h : 2 * k + 2 ≤ v.n) (w : Fin 2 → K) :
    ∃ v', v.setSegment (k * 2) 2 (pairVec w) = .ok v' ∧ v'.n = v.n ∧ (∀ a : Fin 2, v'.e (2 * k + a) = w a) ∧
      ∀ j, j ≠ k → ∀ a : Fin 2, v'.e (2 * j + a) = v.e (2 * j + a) := by
  refine ⟨_, Vec.setSegment_ok (by omega) rfl, rfl, fun a => ?_, fun j hj a => ?_⟩
  · have := a.2
    show (if k * 2 ≤ 2 * k + a.1 ∧ 2 * k + a.1 < k * 2 + 2 then _ else _) = _
    rw [if_pos (by omega), show 2 * k + a.1 - k * 2 = a.1 by omega]
    exact pairVec_e w a
  · have := a.2
    exact if_neg (by omega)

theorem fillVec_ok (junk : ℕ → K) (ivs : List (Interval K)) (f : Interval K → Fin 2 → K) :
    ∃ v, fillVec junk (2 * ivs.length) ivs.length ivs f = .ok v ∧ v.n = 2 * ivs.length ∧
      ∀ (k : ℕ) iv, ivs[k]? = some iv → ∀ a : Fin 2, v.e (2 * k + a) = f iv a := by
  unfold fillVec
  obtain ⟨v, h, h1, h2⟩ := forRange_inv (n := ivs.length) (s := (⟨2 * ivs.length, junk⟩ : Vec K))
    (body := fun v i => do
      let iv ← vecAt ivs i
      v.setSegment (i * 2) 2 (pairVec (f iv)))
    (fun n v => v.n = 2 * ivs.length ∧ ∀ (k : ℕ) iv, k < n → ivs[k]? = some iv → ∀ a : Fin 2, v.e (2 * k + a) = f iv a)
    ⟨rfl, fun k iv hk => absurd hk (Nat.not_lt_zero k)⟩ (by
    rintro i v hi ⟨h1, h2⟩
    obtain ⟨v', g1, g2, g3, g4⟩ := setPair_ok (v := v) (k := i) (by omega) (f ivs[i])
    refine ⟨v', ?_, g2.trans h1, fun k iv hk hiv a => ?_⟩
    · rw [vecAt_ok (List.getElem?_eq_getElem hi), ok_bind]
      exact g1
    · by_cases hki : k = i
      · subst hki
        rw [List.getElem?_eq_getElem hi] at hiv
        cases hiv
        exact g3 a
      · rw [g4 k hki]
        exact h2 k iv (by omega) hiv a)
  exact ⟨v, h, h1, fun k iv hk => h2 k iv (List.getElem?_eq_some_iff.mp hk).1 hk⟩

theorem fillBounds_ok (junk : ℕ → ℕ → K) (ivs : List (Interval K)) (f : Interval K → Fin 2 → Fin 2 → K) :
    ∃ lb ub, fillBounds junk (2 * ivs.length) ivs.length ivs f = .ok (lb, ub) ∧ lb.n = 2 * ivs.length ∧ ub.n = 2 * ivs.length ∧
      ∀ (k : ℕ) iv, ivs[k]? = some iv → ∀ a : Fin 2, lb.e (2 * k + a) = f iv a 0 ∧ ub.e (2 * k + a) = f iv a 1 := by
  unfold fillBounds
  obtain ⟨y, h, h1, h1', h2⟩ := forRange_inv (n := ivs.length)
    (s := ((⟨2 * ivs.length, junk 0⟩, ⟨2 * ivs.length, junk 1⟩) : Vec K × Vec K))
    (body := fun y i => do
      let iv ← vecAt ivs i
      let lb ← y.1.setSegment (i * 2) 2 (pairVec fun a => f iv a 0)
      let ub ← y.2.setSegment (i * 2) 2 (pairVec fun a => f iv a 1)
      pure (lb, ub))
    (fun n y => y.1.n = 2 * ivs.length ∧ y.2.n = 2 * ivs.length ∧
      ∀ (k : ℕ) iv, k < n → ivs[k]? = some iv → ∀ a : Fin 2, y.1.e (2 * k + a) = f iv a 0 ∧ y.2.e (2 * k + a) = f iv a 1)
    ⟨rfl, rfl, fun k iv hk => absurd hk (Nat.not_lt_zero k)⟩ (by
    rintro i y hi ⟨h1, h1', h2⟩
    obtain ⟨v, g1, g2, g3, g4⟩ := setPair_ok (v := y.1) (k := i) (by omega) (fun a => f ivs[i] a 0)
    obtain ⟨w, e1, e2, e3, e4⟩ := setPair_ok (v := y.2) (k := i) (by omega) (fun a => f ivs[i] a 1)
    refine ⟨(v, w), ?_, g2.trans h1, e2.trans h1', fun k iv hk hiv a => ?_⟩
    · rw [vecAt_ok (List.getElem?_eq_getElem hi), ok_bind, g1, ok_bind, e1]
      rfl
    · by_cases hki : k = i
      · subst hki
        rw [List.getElem?_eq_getElem hi] at hiv
        cases hiv
        exact ⟨g3 a, e3 a⟩
      · show v.e _ = _ ∧ w.e _ = _
        rw [g4 k hki, e4 k hki]
        exact h2 k iv (by omega) hiv a)
  exact ⟨y.1, y.2, h, h1, h1', fun k iv hk => h2 k iv (List.getElem?_eq_some_iff.mp hk).1 hk⟩

theorem fillIndices_ok (junkI : ℕ → ℕ) (off N : ℕ) :
    ∃ v, fillIndices junkI ⟨off, 2 * N⟩ = .ok v ∧ v.n = 2 * N ∧ ∀ i < 2 * N, v.e i = off + i := by
  unfold fillIndices
  simp only
  rw [show 2 * N / 2 = N by omega]
  obtain ⟨v, h, h1, h2⟩ := forRange_inv (n := N) (s := (⟨2 * N, junkI⟩ : Vec ℕ))
    (body := fun v i => do
      let v ← v.set (i * 2) (off + i * 2)
      v.set (i * 2 + 1) (off + i * 2 + 1))
    (fun n v => v.n = 2 * N ∧ ∀ i < 2 * n, v.e i = off + i)
    ⟨rfl, fun i hi => absurd hi (Nat.not_lt_zero i)⟩ (by
    rintro k v hk ⟨h1, h2⟩
    rw [Vec.set_ok (by omega), ok_bind, Vec.set_ok (by simp only; omega)]
    refine ⟨_, rfl, h1, fun i hi => ?_⟩
    simp only [Function.update_apply]
    split
    · omega
    · split
      · omega
      · exact h2 i (by omega))
  exact ⟨v, h, h1, h2⟩

section
variable [Field K]

theorem vecSub_ok {v w : Vec K} (h : v.n = w.n) : v.sub w = .ok ⟨v.n, fun i => v.e i - w.e i⟩ := if_pos h

/-- Rows with bounds. -/
theorem restricts_of [LinearOrder K] [IsStrictOrderedRing K] {ivs : List (Interval K)} {x0 : Vec K} {c : Ctr K} {q : Quantity K}
    {bounds : Interval K → Fin 2 → Fin 2 → K} (hr : rows c = 2 * ivs.length) (s : ℕ → K)
    (hb : ∀ (k : ℕ) iv, ivs[k]? = some iv → ∀ a : Fin 2, lower c (2 * k + a) = some (bounds iv a 0 - s (2 * k + a)) ∧
      upper c (2 * k + a) = some (bounds iv a 1 - s (2 * k + a)))
    (hq : ∀ x X, Simulates ivs x0 x X → ∀ (k : ℕ) iv, ivs[k]? = some iv → ∀ a : Fin 2,
      lhs c x (2 * k + a) + s (2 * k + a) = q iv (X k) (X (k + 1)) a) :
    RestrictsMotion ivs x0 c q bounds := by
  intro x X hX
  constructor
  · intro h k iv hk a
    have hl := (List.getElem?_eq_some_iff.mp hk).1
    obtain ⟨e1, e2⟩ := h (2 * k + a) (by rw [hr]; exact pair_lt hl a)
    obtain ⟨b1, b2⟩ := hb k iv hk a
    have e1 := e1 _ b1
    have e2 := e2 _ b2
    rw [← hq x X hX k iv hk a]
    constructor <;> linarith
  · intro h i hi
    rw [hr] at hi
    obtain ⟨k, a, hk, rfl⟩ := pair_index hi
    have hk' := List.getElem?_eq_getElem hk
    obtain ⟨b1, b2⟩ := hb k _ hk' a
    obtain ⟨e1, e2⟩ := h k _ hk' a
    rw [← hq x X hX k _ hk' a] at e1 e2
    refine ⟨fun l hl => ?_, fun u hu => ?_⟩
    · rw [b1] at hl
      cases hl
      linarith
    · rw [b2] at hu
      cases hu
      linarith

theorem sum_rows (f : ℕ → K) (N : ℕ) : ∑ r ∈ Finset.range (2 * N), f r = ∑ k : Fin N, ∑ a : Fin 2, f (2 * k + a) := by
  rw [Fin.sum_univ_eq_sum_range (fun k => ∑ a : Fin 2, f (2 * k + a)) N]
  induction N with
  | zero => rfl
  | succ N ih =>
    rw [Finset.sum_range_succ, ← ih, show 2 * (N + 1) = 2 * N + 1 + 1 by omega, Finset.sum_range_succ, Finset.sum_range_succ,
      Fin.sum_univ_two, add_assoc]
    rfl

/-- Rows of an objective. -/
theorem minimises_of {ivs : List (Interval K)} {x0 : Vec K} {c : Ctr K} {gain : K} {q : Quantity K} (hc : CanMinimise c)
    (hr : rows c = 2 * ivs.length)
    (hq : ∀ x X, Simulates ivs x0 x X → ∀ (k : ℕ) iv, ivs[k]? = some iv → ∀ a : Fin 2,
      lhs c x (2 * k + a) - target c (2 * k + a) = gain * q iv (X k) (X (k + 1)) a) :
    MinimisesMotion ivs x0 c gain q := by
  refine ⟨hc, hq, fun x X hX => ?_⟩
  unfold residualSq motionCost
  rw [hr, sum_rows, Finset.mul_sum]
  refine Finset.sum_congr rfl fun k _ => ?_
  rw [Finset.mul_sum]
  refine Finset.sum_congr rfl fun a _ => ?_
  rw [hq x X hX k _ (List.getElem?_eq_getElem k.2) a, mul_pow]
  rfl

section motion
variable {ivs : List (Interval K)} {x0 : Vec K} {x : ℕ → K} {X : ℕ → Vec K} (hX : Simulates ivs x0 x X) {k : ℕ} {iv : Interval K}
  (hk : ivs[k]? = some iv)
include hX hk

/-- The velocities of the base are variables of the problem. -/
theorem motion_velocity (a : Fin 2) : baseVelocity (X (k + 1)) a = x (2 * k + a) := by
  obtain ⟨-, -, -, h, -⟩ := hX.2 k iv hk
  obtain ⟨j, h1, -, h2, -⟩ := h a a.2
  unfold baseVelocity
  rw [h2, h1]
  fin_cases a <;> rfl

/-- The jerks of the body are variables of the problem. -/
theorem motion_bodyJerk (hT : iv.T ≠ 0) (a : Fin 2) : bodyJerkQuantity iv (X k) (X (k + 1)) a = x (2 * ivs.length + 2 * k + a) := by
  obtain ⟨-, -, -, -, h⟩ := hX.2 k iv hk
  obtain ⟨-, -, h3⟩ := h (a + 2) (by omega) (by have := a.2; omega)
  unfold bodyJerkQuantity bodyAcceleration
  rw [h3]
  unfold accelerationAt
  rw [add_sub_cancel_left, mul_div_assoc, div_self hT, mul_one]
  fin_cases a <;> rfl

/-- The jerk of the base which leads to the given velocity. -/
theorem motion_baseJerk [LinearOrder K] [IsStrictOrderedRing K] (hT : iv.T ≠ 0) (a : Fin 2) {j : K}
    (hj : velocityAt ((X k).e (3 * a + 1)) ((X k).e (3 * a + 2)) j iv.T = x (2 * k + a)) :
    j = baseJerkQuantity iv (X k) (X (k + 1)) a := by
  obtain ⟨-, -, -, h, -⟩ := hX.2 k iv hk
  obtain ⟨j', h1, -, -, h2⟩ := h a a.2
  have e : (controlAt ivs.length x k).e a = x (2 * k + a) := by fin_cases a <;> rfl
  rw [e] at h1
  have hj : j = j' := (stepJerk_unique hT hj).trans (stepJerk_unique hT h1).symm
  subst hj
  unfold baseJerkQuantity baseAcceleration
  rw [h2]
  unfold accelerationAt
  rw [add_sub_cancel_left, mul_div_assoc, div_self hT, mul_one]

end motion

end

/-! ### The task on the jerk of the body -/

/-- The members of the task and its constraints are those of the last location. -/
structure ZeroReady (gain : K) (z : ZeroVariables K) (d : CtrData K) : Prop where
  id : z.variables_id = bodyJerkId
  same : z.gain = gain
  sizes : d.gains.n = z.location.length ∧ d.idx.n = z.location.length
  rows : ∀ i < z.location.length, d.gains.e i = gain ∧ d.idx.e i = z.location.offset + i

theorem zeroReady_make (gain : K) {d : CtrData K} (hd : d.idx.n = 0 ∧ d.gains.n = 0) :
    ZeroReady gain (ZeroVariables.make gain bodyJerkId) d := ⟨rfl, rfl, ⟨hd.2, hd.1⟩, fun i hi => absurd hi (Nat.not_lt_zero i)⟩

theorem zeroReady_form {gain : K} {z : ZeroVariables K} {d : CtrData K} (h : ZeroReady gain z d) (s : SolutionStructure) :
    ZeroReady gain (z.form s d).1 (z.form s d).2.1 ∧ (z.form s d).1.location = s.location bodyJerkId := by
  have hl : z.locate s = s.location bodyJerkId := by
    unfold ZeroVariables.locate
    rw [h.id, if_neg (by simp [bodyJerkId])]
  unfold ZeroVariables.form
  simp only [hl]
  by_cases e : s.location bodyJerkId ≠ z.location
  · rw [if_pos e]
    exact ⟨⟨h.id, h.same, ⟨rfl, rfl⟩, fun i _ => ⟨h.same, rfl⟩⟩, rfl⟩
  · rw [if_neg e]
    exact ⟨h, (not_not.1 e).symm⟩

theorem zeroReady_history {gain : K} {d : CtrData K} (hd : d.idx.n = 0 ∧ d.gains.n = 0) (ss : List SolutionStructure) :
    ZeroReady gain (afterOps (ZeroVariables.make gain bodyJerkId, d) (ss.map ZeroOp.form)).1
      (afterOps (ZeroVariables.make gain bodyJerkId, d) (ss.map ZeroOp.form)).2 := by
  have : ∀ (ss : List SolutionStructure) (y : ZeroVariables K × CtrData K), ZeroReady gain y.1 y.2 →
      ZeroReady gain (afterOps y (ss.map ZeroOp.form)).1 (afterOps y (ss.map ZeroOp.form)).2 := by
    intro ss
    induction ss with
    | nil => exact fun y h => h
    | cons s ss ih => exact fun y h => ih _ (zeroReady_form h s).1
  exact this ss _ (zeroReady_make gain hd)

theorem zero_form_members (z : ZeroVariables K) (s : SolutionStructure) (d d' : CtrData K) : (z.form s d).1 = (z.form s d').1 := by
  unfold ZeroVariables.form
  simp only
  split <;> rfl

end Humoto.Pepper
