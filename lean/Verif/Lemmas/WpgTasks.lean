import Verif.Props.WpgWalk
import Verif.Props.TaskGeneric
import Verif.Spec.WpgTasks

/-!
# Lemmas on the tasks of the walking pattern generator
-/

namespace Humoto.Wpg

open Spec Spec.Wpg

/-- What the tasks rely on. -/
structure Ready (model : Model) (mpc : Mpc) : Prop where
  consistent : Consistent model mpc
  states : ∀ i < mpc.horizon.intervals.n, ∃ s, mpc.horizon.getWalkState i = .ok s
  steps : ∀ k ∈ mpc.horizon.variable_steps, 0 < k ∧ k < mpc.horizon.intervals.n
  omega : ∀ i < mpc.horizon.intervals.n, (mpc.horizon.intervals.e i).omega = PointMass6z.getOmega model.getCoMHeight
  sorted : mpc.horizon.variable_steps.Pairwise (· < ·)

section
variable {model : Model} {mpc : Mpc}

theorem Ready.structure_ (h : Ready model mpc) : (TaskEnv.of model mpc).structure_ =
    solutionStructure mpc.horizon.intervals.n mpc.horizon.variable_steps.length := h.consistent.matrices.solution

theorem Ready.cop (h : Ready model mpc) : (TaskEnv.of model mpc).structure_.location copId = ⟨0, mpc.horizon.intervals.n * 2⟩ := by
  rw [h.structure_]; exact location_cop _ _

theorem Ready.footpos (h : Ready model mpc) : (TaskEnv.of model mpc).structure_.location footposId =
    ⟨mpc.horizon.intervals.n * 2, mpc.horizon.variable_steps.length * 2⟩ := by
  rw [h.structure_]; exact location_footpos _ _

theorem Ready.nvars (h : Ready model mpc) : (TaskEnv.of model mpc).structure_.nvars =
    2 * mpc.horizon.intervals.n + 2 * mpc.horizon.variable_steps.length := by
  rw [h.structure_]; exact nvars_ok _ _

end

/-! ### Bounds -/

/-- The first `i` pairs of the indices and of the bounds. -/
def BoundPairs (n off : ℕ) (lo up : ℕ → Fin 2 → ℝ) (i : ℕ) (y : SimpleBounds) : Prop :=
  (y.idx.n = n ∧ y.lb.n = n ∧ y.ub.n = n) ∧
  ∀ j < i, ∀ a : Fin 2, y.idx.e (2 * j + a) = off + 2 * j + a ∧ y.lb.e (2 * j + a) = lo j a ∧ y.ub.e (2 * j + a) = up j a

theorem assign_ok {n off : ℕ} {lo up : ℕ → Fin 2 → ℝ} {i : ℕ} {y : SimpleBounds} (h : BoundPairs n off lo up i y) (hi : 2 * i + 2 ≤ n)
    (B : Matrix (Fin 2) (Fin 2) ℝ) :
    ∃ y', y.assign off i B = .ok y' ∧ BoundPairs n off (fun j => if j = i then fun a => B a 0 else lo j)
      (fun j => if j = i then fun a => B a 1 else up j) (i + 1) y' := by
  obtain ⟨⟨h1, h2, h3⟩, h4⟩ := h
  refine ⟨⟨⟨n, fun k => if k = 2 * i + 1 then off + i * 2 + 1 else if k = 2 * i then off + i * 2 else y.idx.e k⟩,
    ⟨n, fun k => if i * 2 ≤ k ∧ k < i * 2 + 2 then (ofFin fun a => B a 0).e (k - i * 2) else y.lb.e k⟩,
    ⟨n, fun k => if i * 2 ≤ k ∧ k < i * 2 + 2 then (ofFin fun a => B a 1).e (k - i * 2) else y.ub.e k⟩⟩, ?_, ⟨rfl, rfl, rfl⟩, ?_⟩
  · unfold SimpleBounds.assign Vec.set setColumn
    rw [if_pos (by omega), ok_bind]
    simp only
    have s0 : y.lb.setSegment (i * 2) 2 (ofFin fun a => B a 0) = .ok ⟨y.lb.n, fun k => if i * 2 ≤ k ∧ k < i * 2 + 2 then
        (ofFin fun a => B a 0).e (k - i * 2) else y.lb.e k⟩ := Vec.setSegment_ok (by omega) rfl
    have s1 : y.ub.setSegment (i * 2) 2 (ofFin fun a => B a 1) = .ok ⟨y.ub.n, fun k => if i * 2 ≤ k ∧ k < i * 2 + 2 then
        (ofFin fun a => B a 1).e (k - i * 2) else y.ub.e k⟩ := Vec.setSegment_ok (by omega) rfl
    rw [if_pos (by omega), ok_bind, s0, ok_bind, s1, ok_bind, h1, h2, h3]
    congr 3
    funext k
    simp only [Function.update_apply]
    rw [Nat.mul_comm i 2]
  · intro j hj a
    by_cases hji : j = i
    · subst hji
      beta_reduce
      rw [if_pos rfl, if_pos rfl]
      fin_cases a
      · refine ⟨?_, ?_, ?_⟩
        · show (if 2 * j + 0 = 2 * j + 1 then _ else if 2 * j + 0 = 2 * j then _ else _) = _
          rw [if_neg (by omega), if_pos (by omega)]
          show off + j * 2 = off + 2 * j + 0
          omega
        · show (if j * 2 ≤ 2 * j + 0 ∧ 2 * j + 0 < j * 2 + 2 then _ else _) = B 0 0
          rw [if_pos (by omega), show 2 * j + 0 - j * 2 = 0 by omega]
          rfl
        · show (if j * 2 ≤ 2 * j + 0 ∧ 2 * j + 0 < j * 2 + 2 then _ else _) = B 0 1
          rw [if_pos (by omega), show 2 * j + 0 - j * 2 = 0 by omega]
          rfl
      · refine ⟨?_, ?_, ?_⟩
        · show (if 2 * j + 1 = 2 * j + 1 then _ else _) = _
          rw [if_pos rfl]
          show off + j * 2 + 1 = off + 2 * j + 1
          omega
        · show (if j * 2 ≤ 2 * j + 1 ∧ 2 * j + 1 < j * 2 + 2 then _ else _) = B 1 0
          rw [if_pos (by omega), show 2 * j + 1 - j * 2 = 1 by omega]
          rfl
        · show (if j * 2 ≤ 2 * j + 1 ∧ 2 * j + 1 < j * 2 + 2 then _ else _) = B 1 1
          rw [if_pos (by omega), show 2 * j + 1 - j * 2 = 1 by omega]
          rfl
    · obtain ⟨g1, g2, g3⟩ := h4 j (by omega) a
      have ha := a.2
      beta_reduce
      rw [if_neg hji, if_neg hji]
      refine ⟨?_, ?_, ?_⟩
      · show (if 2 * j + a.1 = 2 * i + 1 then _ else if 2 * j + a.1 = 2 * i then _ else _) = _
        rw [if_neg (by omega), if_neg (by omega)]
        exact g1
      · show (if i * 2 ≤ 2 * j + a.1 ∧ 2 * j + a.1 < i * 2 + 2 then _ else _) = _
        rw [if_neg (by omega)]
        exact g2
      · show (if i * 2 ≤ 2 * j + a.1 ∧ 2 * j + a.1 < i * 2 + 2 then _ else _) = _
        rw [if_neg (by omega)]
        exact g3

theorem BoundPairs.congr {n off : ℕ} {lo up lo' up' : ℕ → Fin 2 → ℝ} {i : ℕ} {y : SimpleBounds} (h : BoundPairs n off lo up i y)
    (h1 : ∀ j < i, lo j = lo' j) (h2 : ∀ j < i, up j = up' j) : BoundPairs n off lo' up' i y :=
  ⟨h.1, fun j hj a => by rw [← h1 j hj, ← h2 j hj]; exact h.2 j hj a⟩

/-- Lower bound of a fixed step. -/
def fixedLower (t : StanceType) (B : Matrix (Fin 2) (Fin 2) ℝ) (a : Fin 2) : ℝ :=
  if a = 0 then B 0 1 else if t = .rss then B 1 1 else B 1 0

theorem fix_ok {n off : ℕ} {lo up : ℕ → Fin 2 → ℝ} {i : ℕ} {y : SimpleBounds} (h : BoundPairs n off lo up (i + 1) y) (hi : 2 * i + 2 ≤ n)
    (t : StanceType) {B : Matrix (Fin 2) (Fin 2) ℝ} (hl : lo i = fun a => B a 0) (hu : up i = fun a => B a 1) :
    ∃ y', y.fix i t = .ok y' ∧ BoundPairs n off (fun j => if j = i then fixedLower t B else lo j)
      (fun j => if j = i then fixedLower t B else up j) (i + 1) y' := by
  obtain ⟨⟨h1, h2, h3⟩, h4⟩ := h
  have u0 : y.ub.e (i * 2) = B 0 1 := by
    have := (h4 i (by omega) 0).2.2
    rw [hu] at this
    rw [Nat.mul_comm]; exact this
  have u1 : y.ub.e (i * 2 + 1) = B 1 1 := by
    have := (h4 i (by omega) 1).2.2
    rw [hu] at this
    rw [Nat.mul_comm]; exact this
  have l1 : y.lb.e (i * 2 + 1) = B 1 0 := by
    have := (h4 i (by omega) 1).2.1
    rw [hl] at this
    rw [Nat.mul_comm]; exact this
  have hix : ∀ j < i + 1, ∀ a : Fin 2, y.idx.e (2 * j + a) = off + 2 * j + a := fun j hj a => (h4 j hj a).1
  unfold SimpleBounds.fix Vec.get Vec.set
  by_cases ht : t = .rss
  · rw [if_pos ht, if_pos (by omega), ok_bind, if_pos (by omega), ok_bind, if_pos (by omega), ok_bind]
    simp only
    rw [if_pos (by omega), ok_bind]
    refine ⟨_, rfl, ⟨h1, h2, h3⟩, fun j hj a => ⟨hix j hj a, ?_⟩⟩
    simp only [Function.update_apply, u0, u1]
    by_cases hji : j = i
    · subst hji
      beta_reduce
      rw [if_pos rfl, if_pos rfl]
      fin_cases a
      · refine ⟨?_, ?_⟩
        · show (if 2 * j + 0 = j * 2 + 1 then _ else if 2 * j + 0 = j * 2 then _ else _) = _
          rw [if_neg (by omega), if_pos (by omega)]
          rfl
        · show y.ub.e (2 * j + 0) = B 0 1
          rw [Nat.mul_comm]; exact u0
      · refine ⟨?_, ?_⟩
        · show (if 2 * j + 1 = j * 2 + 1 then _ else _) = _
          rw [if_pos (by omega)]
          simp [fixedLower, ht]
        · show y.ub.e (2 * j + 1) = _
          rw [Nat.mul_comm, u1]
          simp [fixedLower, ht]
    · have ha := a.2
      rw [if_neg hji, if_neg hji, if_neg (by omega), if_neg (by omega)]
      exact (h4 j hj a).2
  · rw [if_neg ht, if_pos (by omega), ok_bind, if_pos (by omega), ok_bind]
    simp only
    rw [if_pos (by omega), ok_bind, if_pos (by omega), ok_bind]
    refine ⟨_, rfl, ⟨h1, h2, h3⟩, fun j hj a => ⟨hix j hj a, ?_⟩⟩
    simp only [Function.update_apply]
    rw [if_neg (by omega : ¬ i * 2 + 1 = i * 2), u0, l1]
    by_cases hji : j = i
    · subst hji
      beta_reduce
      rw [if_pos rfl, if_pos rfl]
      fin_cases a
      · refine ⟨?_, ?_⟩
        · show (if 2 * j + 0 = j * 2 then _ else _) = _
          rw [if_pos (by omega)]
          rfl
        · show (if 2 * j + 0 = j * 2 + 1 then _ else _) = _
          rw [if_neg (by omega)]
          show y.ub.e (2 * j + 0) = B 0 1
          rw [Nat.mul_comm]; exact u0
      · refine ⟨?_, ?_⟩
        · show (if 2 * j + 1 = j * 2 then _ else _) = _
          rw [if_neg (by omega)]
          show y.lb.e (2 * j + 1) = _
          rw [Nat.mul_comm, l1]
          simp [fixedLower, ht]
        · show (if 2 * j + 1 = j * 2 + 1 then _ else _) = _
          rw [if_pos (by omega)]
          simp [fixedLower, ht]
    · have ha := a.2
      rw [if_neg hji, if_neg hji, if_neg (by omega), if_neg (by omega)]
      exact (h4 j hj a).2

/-- Constraints made of pairs. -/
theorem satisfied_pairs {m nv off : ℕ} {lo up : ℕ → Fin 2 → ℝ} {y : SimpleBounds} (h : BoundPairs (2 * m) off lo up m y) (d : CtrData ℝ)
    (hnv : off + 2 * m ≤ nv) :
    WellFormed (⟨.ilu, nv, { d with idx := y.idx, lb := y.lb, ub := y.ub }⟩ : Ctr ℝ) ∧
    rows (⟨.ilu, nv, { d with idx := y.idx, lb := y.lb, ub := y.ub }⟩ : Ctr ℝ) = 2 * m ∧
    ∀ x, Satisfied ⟨.ilu, nv, { d with idx := y.idx, lb := y.lb, ub := y.ub }⟩ x ↔
      ∀ j < m, ∀ a : Fin 2, lo j a ≤ x (off + 2 * j + a) ∧ x (off + 2 * j + a) ≤ up j a := by
  obtain ⟨⟨h1, h2, h3⟩, h4⟩ := h
  have hpair : ∀ i < 2 * m, ∃ (j : ℕ) (a : Fin 2), j < m ∧ i = 2 * j + a := fun i hi =>
    ⟨i / 2, ⟨i % 2, Nat.mod_lt _ (by decide)⟩, by omega, by simp only; omega⟩
  refine ⟨⟨⟨?_, ?_⟩, ?_⟩, h1, fun x => ⟨fun h j hj a => ?_, fun h i hi => ?_⟩⟩
  · exact h2.trans h1.symm
  · exact h3.trans h1.symm
  · intro i hi
    obtain ⟨j, a, hj, rfl⟩ := hpair i (by simpa [h1] using hi)
    show y.idx.e (2 * j + a) < nv
    rw [(h4 j hj a).1]
    have := a.2
    omega
  · have ha := a.2
    obtain ⟨e1, e2⟩ := h (2 * j + a) (by show 2 * j + a.1 < y.idx.n; omega)
    obtain ⟨g1, g2, g3⟩ := h4 j hj a
    have e1 := e1 _ rfl
    have e2 := e2 _ rfl
    simp only [lhs] at e1 e2
    rw [g1] at e1 e2
    rw [g2] at e1
    rw [g3] at e2
    exact ⟨e1, e2⟩
  · obtain ⟨j, a, hj, rfl⟩ := hpair i (by rw [← h1]; exact hi)
    obtain ⟨g1, g2, g3⟩ := h4 j hj a
    obtain ⟨e1, e2⟩ := h j hj a
    constructor
    · rintro l hl
      cases hl
      simp only [lhs]
      rw [g1, g2]
      exact e1
    · rintro l hl
      cases hl
      simp only [lhs]
      rw [g1, g3]
      exact e2

/-- Bounds of the step `j`. -/
noncomputable def stepBounds (H : Horizon) (j : ℕ) : Matrix (Fin 2) (Fin 2) ℝ :=
  match H.getFootPositionBounds j with
  | .ok B => B
  | .error _ => 0

/-- Stance after the step `j`. -/
noncomputable def stepStance (H : Horizon) (j : ℕ) : StanceType :=
  match nth H.variable_steps j >>= H.getWalkState with
  | .ok s => s.stance.type
  | .error _ => .undefined

/-- Bounds of the interval `i`. -/
noncomputable def intervalBounds (H : Horizon) (i : ℕ) : Matrix (Fin 2) (Fin 2) ℝ :=
  match H.getCoPBounds i with
  | .ok B => B
  | .error _ => 0

theorem stepBounds_of {H : Horizon} {j k : ℕ} {s : WalkState} (hk : H.variable_steps[j]? = some k) (hs : H.getWalkState k = .ok s) :
    H.getFootPositionBounds j = .ok s.fd_bounds ∧ stepBounds H j = s.fd_bounds ∧ stepStance H j = s.stance.type := by
  have e : H.getFootPositionBounds j = .ok s.fd_bounds := by
    unfold Horizon.getFootPositionBounds
    rw [nth_ok hk, ok_bind, hs, ok_bind]
    rfl
  refine ⟨e, ?_, ?_⟩
  · unfold stepBounds
    rw [e]
  · unfold stepStance
    rw [nth_ok hk, ok_bind, hs]

theorem intervalBounds_of {H : Horizon} {i : ℕ} {s : WalkState} (hs : H.getWalkState i = .ok s) :
    H.getCoPBounds i = .ok s.cop_bounds ∧ intervalBounds H i = s.cop_bounds := by
  have e : H.getCoPBounds i = .ok s.cop_bounds := by
    unfold Horizon.getCoPBounds
    rw [hs, ok_bind]
    rfl
  refine ⟨e, ?_⟩
  unfold intervalBounds
  rw [e]

section
variable {model : Model} {mpc : Mpc}

theorem Ready.step (h : Ready model mpc) {j : ℕ} (hj : j < mpc.horizon.variable_steps.length) :
    ∃ k s, mpc.horizon.variable_steps[j]? = some k ∧ mpc.horizon.getWalkState k = .ok s := by
  have hk : mpc.horizon.variable_steps[j]? = some mpc.horizon.variable_steps[j] := List.getElem?_eq_getElem hj
  obtain ⟨s, hs⟩ := h.states _ (h.steps _ (List.mem_of_getElem? hk)).2
  exact ⟨_, s, hk, hs⟩

theorem footstepBounds_ok (h : Ready model mpc) (junk : ℕ → ℕ → ℝ) (junkI : ℕ → ℕ) (fix : Bool) (d : CtrData ℝ) :
    ∃ y, footstepBoundsForm junk junkI fix (TaskEnv.of model mpc) d = .ok { d with idx := y.idx, lb := y.lb, ub := y.ub } ∧
      BoundPairs (2 * mpc.horizon.variable_steps.length) (2 * mpc.horizon.intervals.n)
        (fun j => if fix then fixedLower (stepStance mpc.horizon j) (stepBounds mpc.horizon j) else fun a => stepBounds mpc.horizon j a 0)
        (fun j => if fix then fixedLower (stepStance mpc.horizon j) (stepBounds mpc.horizon j) else fun a => stepBounds mpc.horizon j a 1)
        mpc.horizon.variable_steps.length y := by
  unfold footstepBoundsForm
  rw [h.footpos]
  simp only
  obtain ⟨y, hy, hP⟩ := forRange_inv (n := mpc.horizon.variable_steps.length)
    (s := SimpleBounds.resized junk junkI (mpc.horizon.variable_steps.length * 2))
    (body := fun y i => do
      let B ← mpc.horizon.getFootPositionBounds i
      let y ← y.assign (mpc.horizon.intervals.n * 2) i B
      if fix then do
        let k ← nth mpc.horizon.variable_steps i
        let s ← mpc.horizon.getWalkState k
        y.fix i s.stance.type
      else pure y)
    (fun i y => BoundPairs (2 * mpc.horizon.variable_steps.length) (2 * mpc.horizon.intervals.n)
        (fun j => if fix then fixedLower (stepStance mpc.horizon j) (stepBounds mpc.horizon j) else fun a => stepBounds mpc.horizon j a 0)
        (fun j => if fix then fixedLower (stepStance mpc.horizon j) (stepBounds mpc.horizon j) else fun a => stepBounds mpc.horizon j a 1)
        i y) ⟨⟨Nat.mul_comm _ _, Nat.mul_comm _ _, Nat.mul_comm _ _⟩, fun j hj => absurd hj (Nat.not_lt_zero j)⟩ (by
    intro i y hi hy
    obtain ⟨k, s, hk, hs⟩ := h.step hi
    obtain ⟨e1, e2, e3⟩ := stepBounds_of hk hs
    rw [e1, ok_bind]
    obtain ⟨y1, f1, g1⟩ := assign_ok hy (by omega) s.fd_bounds
    rw [Nat.mul_comm mpc.horizon.intervals.n 2, f1, ok_bind]
    cases fix with
    | false =>
      refine ⟨y1, rfl, g1.congr (fun j hj => ?_) (fun j hj => ?_)⟩
      · by_cases hji : j = i
        · subst hji
          simp [e2]
        · simp [hji]
      · by_cases hji : j = i
        · subst hji
          simp [e2]
        · simp [hji]
    | true =>
      obtain ⟨y2, f2, g2⟩ := fix_ok g1 (by omega) s.stance.type (B := s.fd_bounds) (if_pos rfl) (if_pos rfl)
      simp only [if_true]
      rw [nth_ok hk, ok_bind, hs, ok_bind]
      refine ⟨y2, f2, g2.congr (fun j hj => ?_) (fun j hj => ?_)⟩
      · by_cases hji : j = i
        · subst hji
          simp [e2, e3]
        · simp [hji]
      · by_cases hji : j = i
        · subst hji
          simp [e2, e3]
        · simp [hji])
  have hy' : forRange (TaskEnv.of model mpc).mpc.horizon.variable_steps.length
    (SimpleBounds.resized junk junkI (mpc.horizon.variable_steps.length * 2))
    (fun y i => do
      let B ← (TaskEnv.of model mpc).mpc.horizon.getFootPositionBounds i
      let y ← y.assign (mpc.horizon.intervals.n * 2) i B
      if fix then do
        let k ← nth (TaskEnv.of model mpc).mpc.horizon.variable_steps i
        let s ← (TaskEnv.of model mpc).mpc.horizon.getWalkState k
        y.fix i s.stance.type
      else pure y) = .ok y := hy
  rw [hy', ok_bind]
  exact ⟨y, rfl, hP⟩

theorem copBounds_ok (h : Ready model mpc) (junk : ℕ → ℕ → ℝ) (junkI : ℕ → ℕ) (d : CtrData ℝ) :
    ∃ y, copBoundsForm junk junkI (TaskEnv.of model mpc) d = .ok { d with idx := y.idx, lb := y.lb, ub := y.ub } ∧
      BoundPairs (2 * mpc.horizon.intervals.n) 0 (fun j a => intervalBounds mpc.horizon j a 0) (fun j a => intervalBounds mpc.horizon j a 1)
        mpc.horizon.intervals.n y := by
  unfold copBoundsForm
  rw [h.cop]
  simp only
  rw [show mpc.horizon.intervals.n * 2 / 2 = mpc.horizon.intervals.n by omega]
  obtain ⟨y, hy, hP⟩ := forRange_inv (n := mpc.horizon.intervals.n)
    (s := SimpleBounds.resized junk junkI (mpc.horizon.intervals.n * 2))
    (body := fun y i => do
      let B ← mpc.horizon.getCoPBounds i
      y.assign 0 i B)
    (fun i y => BoundPairs (2 * mpc.horizon.intervals.n) 0 (fun j a => intervalBounds mpc.horizon j a 0)
      (fun j a => intervalBounds mpc.horizon j a 1) i y)
    ⟨⟨Nat.mul_comm _ _, Nat.mul_comm _ _, Nat.mul_comm _ _⟩, fun j hj => absurd hj (Nat.not_lt_zero j)⟩ (by
    intro i y hi hy
    obtain ⟨s, hs⟩ := h.states i hi
    obtain ⟨e1, e2⟩ := intervalBounds_of hs
    rw [e1, ok_bind]
    obtain ⟨y1, f1, g1⟩ := assign_ok hy (by omega) s.cop_bounds
    refine ⟨y1, f1, g1.congr (fun j hj => ?_) (fun j hj => ?_)⟩
    · by_cases hji : j = i
      · subst hji
        simp [e2]
      · simp [hji]
    · by_cases hji : j = i
      · subst hji
        simp [e2]
      · simp [hji])
  have hy' : forRange mpc.horizon.intervals.n (SimpleBounds.resized junk junkI (mpc.horizon.intervals.n * 2)) (fun y i => do
      let B ← (TaskEnv.of model mpc).mpc.horizon.getCoPBounds i
      y.assign 0 i B) = .ok y := hy
  rw [hy', ok_bind]
  exact ⟨y, rfl, hP⟩

end

end Humoto.Wpg
