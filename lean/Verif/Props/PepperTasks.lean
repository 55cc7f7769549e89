import Verif.Lemmas.PepperTasks
import Verif.Props.ActiveSet

/-!
# C85: what the tasks of the controller of Pepper mean

`Consistent mpc x0` says that the matrices belong to the horizon and to the state `x0`; it holds after each successful update,
`C71_update`.
-/

namespace Humoto.Pepper

open Spec

variable {K : Type} [Field K] [LinearOrder K] [IsStrictOrderedRing K]

/-- The constraint of the class `t` with the data `d` in a problem with the given controller. -/
def formedCtr (mpc : Mpc K) (t : CtrType) (d : CtrData K) : Ctr K := ⟨t, (TaskEnv.of mpc).structure_.nvars, d⟩

section
variable {mpc : Mpc K} {x0 : Vec K}

theorem formed_nvars (h : Consistent mpc x0) : (TaskEnv.of mpc).structure_.nvars = 4 * mpc.intervals.length := by
  show mpc.matrices.solution.nvars = _
  rw [h.1, nvars_solutionStructure]

theorem formed_base (h : Consistent mpc x0) : (TaskEnv.of mpc).structure_.location baseVelId = ⟨0, 2 * mpc.intervals.length⟩ := by
  show mpc.matrices.solution.location _ = _
  rw [h.1, location_base, Nat.mul_comm]

/-- Rows of matrices which are multiplied by a gain. -/
theorem scaled_row {A : Mat K} {s : Vec K} {x : ℕ → K} {r : ℕ} {v : K} (h : AffineRow A s x r v) (gain : K) :
    ∑ j ∈ Finset.range (Kron.scale gain A).cols, (Kron.scale gain A).e r j * x j + gain * s.e r = gain * v := by
  unfold AffineRow at h
  rw [← h, mul_add, Finset.mul_sum]
  congr 1
  exact Finset.sum_congr rfl fun j _ => mul_assoc _ _ _


/-- **C85.** Bounds on the velocity of the base. -/
theorem C85_velocityBounds (h : Consistent mpc x0) (junk : ℕ → ℕ → K) (junkI : ℕ → ℕ) (d : CtrData K) :
    ∃ d', velocityBoundsForm junk junkI (TaskEnv.of mpc) d = .ok d' ∧
      MotionTask mpc.intervals.length .ilu (formedCtr mpc .ilu d') ∧
      RestrictsMotion mpc.intervals x0 (formedCtr mpc .ilu d') velocityQuantity Interval.nominal_base_velocity_bounds := by
  obtain ⟨idx, i1, i2, i3⟩ := fillIndices_ok junkI 0 mpc.intervals.length
  obtain ⟨lb, ub, f1, f2, f3, f4⟩ := fillBounds_ok junk mpc.intervals fun iv => iv.nominal_base_velocity_bounds
  refine ⟨{ d with idx := idx, lb := lb, ub := ub }, ?_, ⟨rfl, formed_nvars h, i2, ⟨f2.trans i2.symm, f3.trans i2.symm⟩, ?_⟩, ?_⟩
  · unfold velocityBoundsForm
    simp only [formed_base h]
    rw [i1, ok_bind, show 2 * mpc.intervals.length / 2 = mpc.intervals.length by omega]
    show (fillBounds junk (2 * mpc.intervals.length) mpc.intervals.length mpc.intervals _ >>= _) = _
    rw [f1]
    rfl
  · intro i hi
    have hi : i < idx.n := hi
    show idx.e i < (TaskEnv.of mpc).structure_.nvars
    rw [i3 i (by omega), formed_nvars h]
    omega
  · refine restricts_of i2 (fun _ => 0) (fun k iv hk a => ?_) (fun x X hX k iv hk a => ?_)
    · obtain ⟨e1, e2⟩ := f4 k iv hk a
      rw [sub_zero, sub_zero]
      exact ⟨congrArg some e1, congrArg some e2⟩
    · have hl := (List.getElem?_eq_some_iff.mp hk).1
      show x (idx.e (2 * k + a)) + 0 = baseVelocity (X (k + 1)) a
      rw [i3 _ (pair_lt hl a), zero_add, add_zero, motion_velocity hX hk]

/-- **C85.** Bounds on the acceleration of the base. -/
theorem C85_accelerationBounds (h : Consistent mpc x0) (hN : 0 < mpc.intervals.length) (junk : ℕ → ℕ → K) (d : CtrData K) :
    ∃ d', accelerationBoundsForm junk (TaskEnv.of mpc) d = .ok d' ∧
      MotionTask mpc.intervals.length .aslu (formedCtr mpc .aslu d') ∧
      RestrictsMotion mpc.intervals x0 (formedCtr mpc .aslu d') accelerationQuantity Interval.nominal_base_acceleration_bounds := by
  obtain ⟨lb, ub, f1, f2, f3, f4⟩ := fillBounds_ok junk mpc.intervals fun iv => iv.nominal_base_acceleration_bounds
  have hM := h.2
  refine ⟨{ d with
    offset := 0
    A := mpc.matrices.Aas
    lb := ⟨lb.n, fun i => lb.e i - mpc.matrices.sas.e i⟩
    ub := ⟨ub.n, fun i => ub.e i - mpc.matrices.sas.e i⟩ }, ?_, ⟨rfl, formed_nvars h, hM.rowsAas,
      ⟨f2.trans hM.rowsAas.symm, f3.trans hM.rowsAas.symm⟩, ?_⟩, ?_⟩
  · unfold accelerationBoundsForm
    show (fillBounds junk (mpc.intervals.length * 2) mpc.intervals.length mpc.intervals _ >>= _) = _
    rw [Nat.mul_comm, f1, ok_bind]
    show (lb.sub mpc.matrices.sas >>= _) = _
    rw [vecSub_ok (f2.trans hM.sizesas.symm), ok_bind]
    show (ub.sub mpc.matrices.sas >>= _) = _
    rw [vecSub_ok (f3.trans hM.sizesas.symm)]
    rfl
  · refine ⟨?_, le_rfl, ?_⟩
    · show 0 < mpc.matrices.Aas.cols
      rw [hM.colsAas]
      omega
    · show (0 : ℤ) + (mpc.matrices.Aas.cols : ℤ) ≤ ((TaskEnv.of mpc).structure_.nvars : ℤ)
      rw [hM.colsAas, formed_nvars h]
      push_cast
      omega
  · refine restricts_of hM.rowsAas mpc.matrices.sas.e (fun k iv hk a => ?_) (fun x X hX k iv hk a => ?_)
    · obtain ⟨e1, e2⟩ := f4 k iv hk a
      rw [← e1, ← e2]
      exact ⟨rfl, rfl⟩
    · have hl := (List.getElem?_eq_some_iff.mp hk).1
      have := hM.acceleration x X hX k hl a a.2
      unfold AffineRow at this
      simp only [lhs, formedCtr, Int.toNat_zero, zero_add]
      exact this

/-- **C85.** Bounds on the centre of pressure. -/
theorem C85_copBounds (h : Consistent mpc x0) (hs : SaneIntervals mpc.intervals) (junk : ℕ → ℕ → K) (d : CtrData K) :
    ∃ d', copBoundsForm junk (TaskEnv.of mpc) d = .ok d' ∧
      MotionTask mpc.intervals.length .alu (formedCtr mpc .alu d') ∧
      RestrictsMotion mpc.intervals x0 (formedCtr mpc .alu d') copQuantity Interval.cop_bounds := by
  obtain ⟨lb, ub, f1, f2, f3, f4⟩ := fillBounds_ok junk mpc.intervals fun iv => iv.cop_bounds
  have hM := h.2
  have hN := hs.nonempty
  refine ⟨{ d with
    A := mpc.matrices.Ap
    lb := ⟨lb.n, fun i => lb.e i - mpc.matrices.sp.e i⟩
    ub := ⟨ub.n, fun i => ub.e i - mpc.matrices.sp.e i⟩ }, ?_, ⟨rfl, formed_nvars h, hM.rowsAp,
      ⟨f2.trans hM.rowsAp.symm, f3.trans hM.rowsAp.symm⟩, ?_⟩, ?_⟩
  · unfold copBoundsForm
    show (fillBounds junk (mpc.intervals.length * 2) mpc.intervals.length mpc.intervals _ >>= _) = _
    rw [Nat.mul_comm, f1, ok_bind]
    show (lb.sub mpc.matrices.sp >>= _) = _
    rw [vecSub_ok (f2.trans hM.sizesp.symm), ok_bind]
    show (ub.sub mpc.matrices.sp >>= _) = _
    rw [vecSub_ok (f3.trans hM.sizesp.symm)]
    rfl
  · refine ⟨?_, ?_⟩
    · show 0 < mpc.matrices.Ap.cols
      rw [hM.colsAp]
      omega
    · show mpc.matrices.Ap.cols = (TaskEnv.of mpc).structure_.nvars
      rw [hM.colsAp, formed_nvars h]
  · refine restricts_of hM.rowsAp mpc.matrices.sp.e (fun k iv hk a => ?_) (fun x X hX k iv hk a => ?_)
    · obtain ⟨e1, e2⟩ := f4 k iv hk a
      rw [← e1, ← e2]
      exact ⟨rfl, rfl⟩
    · exact hM.cop x X hX k iv hk (hs.masses iv (List.mem_of_getElem? hk)) a a.2

/-- What the task for the position of the body restricts: the position of the base relative to the body. -/
theorem bodyBounds_ok (h : Consistent mpc x0) (hN : 0 < mpc.intervals.length) (junk : ℕ → ℕ → K) (d : CtrData K) :
    ∃ d', bodyBoundsForm junk (TaskEnv.of mpc) d = .ok d' ∧
      MotionTask mpc.intervals.length .alu (formedCtr mpc .alu d') ∧
      RestrictsMotion mpc.intervals x0 (formedCtr mpc .alu d') (fun iv Z Y a => -bodyQuantity iv Z Y a) Interval.body_bounds := by
  obtain ⟨lb, ub, f1, f2, f3, f4⟩ := fillBounds_ok junk mpc.intervals fun iv => iv.body_bounds
  have hM := h.2
  refine ⟨{ d with
    A := mpc.matrices.Apd
    lb := ⟨lb.n, fun i => lb.e i - mpc.matrices.spd.e i⟩
    ub := ⟨ub.n, fun i => ub.e i - mpc.matrices.spd.e i⟩ }, ?_, ⟨rfl, formed_nvars h, hM.rowsApd,
      ⟨f2.trans hM.rowsApd.symm, f3.trans hM.rowsApd.symm⟩, ?_⟩, ?_⟩
  · unfold bodyBoundsForm
    show (fillBounds junk mpc.matrices.Apd.rows (mpc.matrices.Apd.rows / 2) mpc.intervals _ >>= _) = _
    rw [hM.rowsApd, show 2 * mpc.intervals.length / 2 = mpc.intervals.length by omega, f1, ok_bind]
    show (lb.sub mpc.matrices.spd >>= _) = _
    rw [vecSub_ok (f2.trans hM.sizespd.symm), ok_bind]
    show (ub.sub mpc.matrices.spd >>= _) = _
    rw [vecSub_ok (f3.trans hM.sizespd.symm)]
    rfl
  · refine ⟨?_, ?_⟩
    · show 0 < mpc.matrices.Apd.cols
      rw [hM.colsApd]
      omega
    · show mpc.matrices.Apd.cols = (TaskEnv.of mpc).structure_.nvars
      rw [hM.colsApd, formed_nvars h]
  · refine restricts_of hM.rowsApd mpc.matrices.spd.e (fun k iv hk a => ?_) (fun x X hX k iv hk a => ?_)
    · obtain ⟨e1, e2⟩ := f4 k iv hk a
      rw [← e1, ← e2]
      exact ⟨rfl, rfl⟩
    · have := hM.relative x X hX k iv hk a
      unfold AffineRow at this
      show ∑ j ∈ Finset.range mpc.matrices.Apd.cols, mpc.matrices.Apd.e (2 * k + a) j * x j + _ = -bodyOffset iv (X (k + 1)) a
      rw [this]
      unfold bodyOffset
      ring

/-- The bounds on the position of the body are symmetric, as by default. -/
def SymmetricBodyBounds (intervals : List (Interval K)) : Prop := ∀ iv ∈ intervals, ∀ a, iv.body_bounds a 0 = -iv.body_bounds a 1

/-- **C85**, part: bounds on the position of the body relative to the base, if they are symmetric. Missing: other bounds, since the
task restricts the position of the base relative to the body, `C85_bodyBounds_refuted`. -/
theorem C85_bodyBounds_partial (h : Consistent mpc x0) (hN : 0 < mpc.intervals.length) (hsym : SymmetricBodyBounds mpc.intervals)
    (junk : ℕ → ℕ → K) (d : CtrData K) :
    ∃ d', bodyBoundsForm junk (TaskEnv.of mpc) d = .ok d' ∧
      MotionTask mpc.intervals.length .alu (formedCtr mpc .alu d') ∧
      RestrictsMotion mpc.intervals x0 (formedCtr mpc .alu d') bodyQuantity Interval.body_bounds := by
  obtain ⟨d', h1, h2, h3⟩ := bodyBounds_ok h hN junk d
  refine ⟨d', h1, h2, fun x X hX => (h3 x X hX).trans ?_⟩
  refine forall_congr' fun k => forall_congr' fun iv => imp_congr_right fun hk => forall_congr' fun a => ?_
  rw [hsym iv (List.mem_of_getElem? hk) a]
  constructor <;> rintro ⟨e1, e2⟩ <;> constructor <;> linarith

/-- **C85.** Minimisation of the jerk of the base. -/
theorem C85_baseJerk (h : Consistent mpc x0) (hs : SaneIntervals mpc.intervals) (gain : K) (d : CtrData K) :
    ∃ d', baseJerkForm gain (TaskEnv.of mpc) d = .ok d' ∧
      MotionTask mpc.intervals.length .asb (formedCtr mpc .asb d') ∧
      MinimisesMotion mpc.intervals x0 (formedCtr mpc .asb d') gain baseJerkQuantity := by
  have hM := h.2
  have hN := hs.nonempty
  refine ⟨_, rfl, ⟨rfl, formed_nvars h, hM.rowsAjs, hM.sizesjs.trans hM.rowsAjs.symm, ?_, le_rfl, ?_⟩,
    minimises_of ⟨rfl, fun e => CtrType.noConfusion e⟩ hM.rowsAjs fun x X hX k iv hk a => ?_⟩
  · show 0 < mpc.matrices.Ajs.cols
    rw [hM.colsAjs]
    omega
  · show (0 : ℤ) + (mpc.matrices.Ajs.cols : ℤ) ≤ ((TaskEnv.of mpc).structure_.nvars : ℤ)
    rw [hM.colsAjs, formed_nvars h]
    push_cast
    omega
  · obtain ⟨j, h1, h2⟩ := hM.jerk x X hX k iv hk a a.2
    rw [motion_baseJerk hX hk (hs.times iv (List.mem_of_getElem? hk)) a h2] at h1
    rw [← scaled_row h1 gain]
    simp only [lhs, target, formedCtr, TaskEnv.of, Int.toNat_zero, zero_add]
    ring

/-- **C85.** Tracking of the position of the base. -/
theorem C85_basePosition (h : Consistent mpc x0) (hN : 0 < mpc.intervals.length) (junk : ℕ → K) (gain : K) (d : CtrData K) :
    ∃ d', basePositionForm junk gain (TaskEnv.of mpc) d = .ok d' ∧
      MotionTask mpc.intervals.length .asb (formedCtr mpc .asb d') ∧
      MinimisesMotion mpc.intervals x0 (formedCtr mpc .asb d') gain positionErrorQuantity := by
  have hM := h.2
  obtain ⟨b, f1, f2, f3⟩ := fillVec_ok junk mpc.intervals fun iv => iv.base_pos_ref
  refine ⟨{ d with
    offset := 0
    A := Kron.scale gain mpc.matrices.Aps
    b := ⟨b.n, fun i => (b.e i - mpc.matrices.sps.e i) * gain⟩ }, ?_,
    ⟨rfl, formed_nvars h, hM.rowsAps, f2.trans hM.rowsAps.symm, ?_, le_rfl, ?_⟩,
    minimises_of ⟨rfl, fun e => CtrType.noConfusion e⟩ hM.rowsAps fun x X hX k iv hk a => ?_⟩
  · unfold basePositionForm
    show (fillVec junk mpc.matrices.Aps.rows (mpc.matrices.Aps.rows / 2) mpc.intervals _ >>= _) = _
    rw [hM.rowsAps, show 2 * mpc.intervals.length / 2 = mpc.intervals.length by omega, f1, ok_bind]
    show (b.sub mpc.matrices.sps >>= _) = _
    rw [vecSub_ok (f2.trans hM.sizesps.symm)]
    rfl
  · show 0 < mpc.matrices.Aps.cols
    rw [hM.colsAps]
    omega
  · show (0 : ℤ) + (mpc.matrices.Aps.cols : ℤ) ≤ ((TaskEnv.of mpc).structure_.nvars : ℤ)
    rw [hM.colsAps, formed_nvars h]
    push_cast
    omega
  · have hl := (List.getElem?_eq_some_iff.mp hk).1
    have h1 := scaled_row (hM.position x X hX k hl a a.2) gain
    show _ = gain * (basePosition (X (k + 1)) a - iv.base_pos_ref a)
    unfold basePosition
    rw [mul_sub, ← h1, ← f3 k iv hk a]
    simp only [lhs, target, formedCtr, Int.toNat_zero, zero_add]
    ring

/-- **C85.** Tracking of the velocity of the base. -/
theorem C85_baseVelocity (h : Consistent mpc x0) (junk : ℕ → K) (junkI : ℕ → ℕ) (gain : K) (d : CtrData K) :
    ∃ d', baseVelocityForm junk junkI gain (TaskEnv.of mpc) d = .ok d' ∧
      MotionTask mpc.intervals.length .gib (formedCtr mpc .gib d') ∧
      MinimisesMotion mpc.intervals x0 (formedCtr mpc .gib d') gain velocityErrorQuantity := by
  obtain ⟨idx, i1, i2, i3⟩ := fillIndices_ok junkI 0 mpc.intervals.length
  obtain ⟨b, f1, f2, f3⟩ := fillVec_ok junk mpc.intervals fun iv a => gain * iv.base_vel_ref a
  refine ⟨{ d with
    idx := idx
    gains := ⟨2 * mpc.intervals.length, fun _ => gain⟩
    b := b }, ?_, ⟨rfl, formed_nvars h, i2, f2.trans i2.symm, i2.symm, ?_⟩,
    minimises_of ⟨rfl, fun e => CtrType.noConfusion e⟩ i2 fun x X hX k iv hk a => ?_⟩
  · unfold baseVelocityForm
    simp only [formed_base h]
    rw [i1, ok_bind, show 2 * mpc.intervals.length / 2 = mpc.intervals.length by omega]
    show (fillVec junk (2 * mpc.intervals.length) mpc.intervals.length mpc.intervals _ >>= _) = _
    rw [f1]
    rfl
  · intro i hi
    have hi : i < idx.n := hi
    show idx.e i < (TaskEnv.of mpc).structure_.nvars
    rw [i3 i (by omega), formed_nvars h]
    omega
  · have hl := (List.getElem?_eq_some_iff.mp hk).1
    show gain * x (idx.e (2 * k + a)) - b.e (2 * k + a) = gain * (baseVelocity (X (k + 1)) a - iv.base_vel_ref a)
    rw [i3 _ (pair_lt hl a), zero_add, f3 k iv hk a, motion_velocity hX hk, mul_sub]

/-- The task on the jerk of the body after forming. -/
theorem bodyJerk_ready (h : Consistent mpc x0) (hs : SaneIntervals mpc.intervals) {gain : K} {z : ZeroVariables K} {d : CtrData K}
    (hz : ZeroReady gain z d) (hl : z.location = (TaskEnv.of mpc).structure_.location bodyJerkId) :
    MotionTask mpc.intervals.length .gib0 (formedCtr mpc .gib0 d) ∧
    MinimisesMotion mpc.intervals x0 (formedCtr mpc .gib0 d) gain bodyJerkQuantity := by
  have hl : z.location = ⟨2 * mpc.intervals.length, 2 * mpc.intervals.length⟩ := by
    rw [hl]
    show mpc.matrices.solution.location bodyJerkId = _
    rw [h.1, location_body, Nat.mul_comm, zero_add]
  obtain ⟨-, -, ⟨h1, h2⟩, h3⟩ := hz
  rw [hl] at h1 h2 h3
  simp only at h1 h2 h3
  refine ⟨⟨rfl, formed_nvars h, h2, trivial, h1.trans h2.symm, fun i hi => ?_⟩,
    minimises_of ⟨rfl, fun e => CtrType.noConfusion e⟩ h2 fun x X hX k iv hk a => ?_⟩
  · have hi : i < 2 * mpc.intervals.length := h2 ▸ hi
    show d.idx.e i < (TaskEnv.of mpc).structure_.nvars
    rw [(h3 i hi).2, formed_nvars h]
    omega
  · rw [motion_bodyJerk hX hk (hs.times iv (List.mem_of_getElem? hk))]
    obtain ⟨e1, e2⟩ := h3 (2 * k + a) (pair_lt (List.getElem?_eq_some_iff.mp hk).1 a)
    show d.gains.e (2 * k + a) * x (d.idx.e (2 * k + a)) - 0 = _
    rw [e1, e2, sub_zero, add_assoc]

/-- **C85.** Minimisation of the jerk of the body, whatever the task was formed for before. -/
theorem C85_bodyJerk (h : Consistent mpc x0) (hs : SaneIntervals mpc.intervals) (gain : K) {d : CtrData K}
    (hd : d.idx.n = 0 ∧ d.gains.n = 0) (ss : List SolutionStructure) {y : ZeroVariables K × CtrData K}
    (hy : y = afterOps (ZeroVariables.make gain bodyJerkId, d) (ss.map ZeroOp.form ++ [.form (TaskEnv.of mpc).structure_])) :
    MotionTask mpc.intervals.length .gib0 (formedCtr mpc .gib0 y.2) ∧
    MinimisesMotion mpc.intervals x0 (formedCtr mpc .gib0 y.2) gain bodyJerkQuantity := by
  have hz := zeroReady_form (zeroReady_history (gain := gain) hd ss) (TaskEnv.of mpc).structure_
  have he : y = (afterOps (ZeroVariables.make gain bodyJerkId, d) (ss.map ZeroOp.form ++ [.form (TaskEnv.of mpc).structure_])) := hy
  unfold afterOps at he
  rw [List.foldl_append] at he
  cases he
  exact bodyJerk_ready h hs hz.1 hz.2

/-- **C85.** Centring of the centre of pressure. -/
theorem C85_copCentering (h : Consistent mpc x0) (hs : SaneIntervals mpc.intervals) (gain : K) (d : CtrData K) :
    ∃ d', copCenteringForm gain (TaskEnv.of mpc) d = .ok d' ∧
      MotionTask mpc.intervals.length .ab (formedCtr mpc .ab d') ∧
      MinimisesMotion mpc.intervals x0 (formedCtr mpc .ab d') gain copQuantity := by
  have hM := h.2
  have hN := hs.nonempty
  refine ⟨_, rfl, ⟨rfl, formed_nvars h, hM.rowsAp, hM.sizesp.trans hM.rowsAp.symm, ?_, ?_⟩,
    minimises_of ⟨rfl, fun e => CtrType.noConfusion e⟩ hM.rowsAp fun x X hX k iv hk a => ?_⟩
  · show 0 < mpc.matrices.Ap.cols
    rw [hM.colsAp]
    omega
  · show mpc.matrices.Ap.cols = (TaskEnv.of mpc).structure_.nvars
    rw [hM.colsAp, formed_nvars h]
  · have h1 := scaled_row (hM.cop x X hX k iv hk (hs.masses iv (List.mem_of_getElem? hk)) a a.2) gain
    show _ = gain * intervalCop iv (X (k + 1)) a
    rw [← h1]
    simp only [lhs, target, formedCtr, TaskEnv.of]
    ring

/-- What the task for the reference position of the body minimises: the distance from twice the position of the motion which
corresponds to zero variables. -/
theorem bodyPosition_ok (h : Consistent mpc x0) (hN : 0 < mpc.intervals.length) (gain : K) (d : CtrData K) :
    ∃ d', bodyPositionForm gain (TaskEnv.of mpc) d = .ok d' ∧
      MotionTask mpc.intervals.length .ab (formedCtr mpc .ab d') ∧ CanMinimise (formedCtr mpc .ab d') ∧
      ∀ x X X0, Simulates mpc.intervals x0 x X → Simulates mpc.intervals x0 (fun _ => 0) X0 →
        ∀ (k : ℕ) iv, mpc.intervals[k]? = some iv → ∀ a : Fin 2,
        lhs (formedCtr mpc .ab d') x (2 * k + a) - target (formedCtr mpc .ab d') (2 * k + a) =
          -gain * (bodyOffset iv (X (k + 1)) a - 2 * bodyOffset iv (X0 (k + 1)) a) := by
  have hM := h.2
  refine ⟨_, rfl, ⟨rfl, formed_nvars h, hM.rowsApd, hM.sizespd.trans hM.rowsApd.symm, ?_, ?_⟩, ⟨rfl, fun e => CtrType.noConfusion e⟩,
    fun x X X0 hX hX0 k iv hk a => ?_⟩
  · show 0 < mpc.matrices.Apd.cols
    rw [hM.colsApd]
    omega
  · show mpc.matrices.Apd.cols = (TaskEnv.of mpc).structure_.nvars
    rw [hM.colsApd, formed_nvars h]
  · have h1 := scaled_row (hM.relative x X hX k iv hk a) gain
    have h0 := scaled_row (hM.relative _ X0 hX0 k iv hk a) gain
    simp only [mul_zero, Finset.sum_const_zero, zero_add] at h0
    have e : -gain * (bodyOffset iv (X (k + 1)) a - 2 * bodyOffset iv (X0 (k + 1)) a) =
        gain * (iv.rotation 0 a * ((X (k + 1)).e 0 - (X (k + 1)).e 6) + iv.rotation 1 a * ((X (k + 1)).e 3 - (X (k + 1)).e 9)) -
        2 * (gain * (iv.rotation 0 a * ((X0 (k + 1)).e 0 - (X0 (k + 1)).e 6) +
          iv.rotation 1 a * ((X0 (k + 1)).e 3 - (X0 (k + 1)).e 9))) := by
      unfold bodyOffset
      ring
    rw [e, ← h1, ← h0]
    simp only [lhs, target, formedCtr, TaskEnv.of]
    ring

end

/-! ### Guesses of active sets -/

theorem boundsGuess_shift {mpc : Mpc K} (hT : mpc.parameters.sampling_time_ms ≤ mpc.parameters.subsampling_time_ms) (c : Ctr K)
    (actual : ActiveSetC) : boundsGuess (TaskEnv.of mpc) c actual =
      (if actual.length = 0 then pure (ActiveSetC.initWith (mpc.intervals.length * 2) .inactive)
      else do
        assertThat (actual.length = mpc.intervals.length * 2)
        actual.shift 2 .inactive) :=
  if_neg (show ¬ mpc.parameters.sampling_time_ms > mpc.parameters.subsampling_time_ms by omega)

/-- **C85.** When an iteration advances by one interval, the guess for each interval is what was active for the next interval in the
preceding problem, and nothing is assumed to be active in the last interval. Initially nothing is assumed to be active. A horizon with
one interval is an exception, `C85_guess_throws`. -/
theorem C85_guess (mpc : Mpc K) (hT : mpc.parameters.sampling_time_ms ≤ mpc.parameters.subsampling_time_ms)
    (hN : 1 < mpc.intervals.length) (c : Ctr K) (actual : ActiveSetC) (ha : actual.length = 0 ∨ actual.length = 2 * mpc.intervals.length) :
    ∃ g, boundsGuess (TaskEnv.of mpc) c actual = .ok g ∧ g.length = 2 * mpc.intervals.length ∧
      (actual.length ≠ 0 → (∀ i < 2 * (mpc.intervals.length - 1), g[i]? = actual[i + 2]?)) ∧
      (∀ i, 2 * (mpc.intervals.length - 1) ≤ i → i < 2 * mpc.intervals.length → g[i]? = some .inactive) ∧
      (actual.length = 0 → ∀ i < 2 * mpc.intervals.length, g[i]? = some .inactive) := by
  rw [boundsGuess_shift hT]
  have hinit : ∀ i < 2 * mpc.intervals.length,
      (ActiveSetC.initWith (mpc.intervals.length * 2) .inactive)[i]? = some Act.inactive := fun i hi => by
    unfold ActiveSetC.initWith
    rw [List.getElem?_replicate, if_pos (by omega)]
  rcases ha with ha | ha
  · rw [if_pos ha]
    refine ⟨_, rfl, by simp [ActiveSetC.initWith, Nat.mul_comm], fun h => absurd ha h, fun i _ => hinit i, fun _ => hinit⟩
  · obtain ⟨r, h1, h2, h3, h4⟩ := C02_shift actual 2 .inactive (by omega)
    refine ⟨r, ?_, h2.trans ha, fun _ i hi => h3 i (by omega), fun i hi hi' => h4 i (by omega) (by omega), fun h => by omega⟩
    rw [if_neg (by omega), assertThat_true (show actual.length = mpc.intervals.length * 2 by omega), ok_bind]
    exact h1

/-- **C85.** When an iteration advances by less than an interval, nothing is assumed to be active. -/
theorem C85_guess_reset (mpc : Mpc K) (hT : mpc.parameters.subsampling_time_ms < mpc.parameters.sampling_time_ms) (c : Ctr K)
    (actual : ActiveSetC) : boundsGuess (TaskEnv.of mpc) c actual = .ok (List.replicate (rows c) .inactive) := by
  refine (if_pos (show mpc.parameters.sampling_time_ms > mpc.parameters.subsampling_time_ms from hT)).trans ?_
  rw [numRows_eq]
  rfl

/-- **C85.** With a horizon of one interval the second guess fails. -/
theorem C85_guess_throws (mpc : Mpc K) (hT : mpc.parameters.sampling_time_ms ≤ mpc.parameters.subsampling_time_ms)
    (hN : mpc.intervals.length = 1) (c : Ctr K) (actual : ActiveSetC) (ha : actual.length ≠ 0) :
    boundsGuess (TaskEnv.of mpc) c actual = .error .thrown := by
  rw [boundsGuess_shift hT, if_neg ha]
  by_cases h : actual.length = mpc.intervals.length * 2
  · rw [assertThat_true h, ok_bind, C02_shift_rejects _ _ _ (by omega)]
  · rw [assertThat_false h]
    rfl

/-! ### Examples -/

/-- After an update the horizon is as the tasks need it. -/
theorem sane_of_update {tr : Trig K} {p : MPCParameters} {model : Model K} {q : List (MotionParameters K)} {ivs : List (Interval K)}
    (h : HorizonFor tr p model q ivs) (hT : 0 < p.sampling_time_ms) (hN : 0 < p.preview_horizon_length)
    (hm : model.state.base_mass + model.state.body_mass ≠ 0) : SaneIntervals ivs := by
  refine ⟨by rw [h.1]; exact hN, horizon_times h hT, fun iv hiv => ?_⟩
  obtain ⟨i, hi⟩ := List.getElem?_of_mem hiv
  obtain ⟨m, theta, -, -, h3⟩ := h.2 i iv hi
  rw [h3.base_mass, h3.body_mass]
  exact hm

/-- A robot whose body is one metre in front of the base. -/
def leaningModel (bounds : Fin 2 → Fin 2 → ℚ) : Model ℚ where
  state := ModelState.setParameters 1 2 1 3 4
  robot_parameters := ⟨1, 1, 1, 1, 1, bounds, 0, 0, 0, 0, 0⟩
  current_base_position := 0

/-- It is controlled with a horizon which consists of one interval of one second. -/
theorem leaning_update (bounds : Fin 2 → Fin 2 → ℚ) (junk : ℕ → ℕ → ℕ → ℕ → ℚ) (dflt : Interval ℚ) :
    ∃ c iv, (Mpc.make ⟨1, 1000, 1000⟩).update junk ⟨fun _ => 1, fun _ => 0⟩ dflt ⟨0, 0, 0, -1, .maintainVelocity⟩ (leaningModel bounds) =
        .ok (c, .ok) ∧
      Consistent c (leaningModel bounds).getMPCState ∧ c.intervals = [iv] ∧ SaneIntervals c.intervals ∧ iv.T = 1 ∧
      iv.rotation = !![1, -0; 0, 1] ∧ iv.body_bounds = bounds := by
  obtain ⟨c, st, h1, h2, h3, h4, h5⟩ := C71_update junk ⟨fun _ => (1 : ℚ), fun _ => 0⟩ dflt
    (m := ⟨0, 0, 0, -1, .maintainVelocity⟩) (Or.inl rfl) (leaningModel bounds) (c := Mpc.make ⟨1, 1000, 1000⟩)
    (show 0 < 1000 by norm_num) (show 0 < 1 by norm_num) (show 1 * 1000 < 2 ^ 63 by norm_num) (Or.inl (sizedFor_make _))
  have hst := h2.mpr (Or.inl ⟨_, List.mem_singleton.mpr rfl, rfl⟩)
  obtain ⟨hH, hC⟩ := h5 hst
  have hl : c.intervals.length = 1 := hH.1
  obtain ⟨iv, hiv⟩ := List.length_eq_one_iff.mp hl
  obtain ⟨m, theta, -, -, hi⟩ := hH.2 0 iv (by rw [hiv]; rfl)
  have hT : iv.T = 1 := by
    rw [hi.duration]
    show ((1000 : ℕ) : ℚ) / 1000 = 1
    norm_num
  exact ⟨c, iv, hst ▸ h1, hC, hiv, sane_of_update hH (show 0 < 1000 by norm_num) (show 0 < 1 by norm_num)
    (by norm_num [leaningModel, ModelState.setParameters]), hT, hi.rotation, hi.body_bounds⟩

/-- If the base does not move and the jerk of the body is `j`, then the body is at `1 + j / 6` after one second. -/
theorem leaning_motion {bounds : Fin 2 → Fin 2 → ℚ} {iv : Interval ℚ} (hT : iv.T = 1) (hR : iv.rotation = !![1, -0; 0, 1]) {j : ℚ}
    {X : ℕ → Vec ℚ} (hX : Simulates [iv] (leaningModel bounds).getMPCState (fun i => if i = 2 then j else 0) X) :
    bodyOffset iv (X 1) 0 = 1 + j / 6 ∧ bodyOffset iv (X 1) 1 = 0 := by
  obtain ⟨h0, h1⟩ := hX
  obtain ⟨-, -, -, h2, h3⟩ := h1 0 iv rfl
  rw [h0, hT] at h2 h3
  obtain ⟨j0, a1, a2, -, -⟩ := h2 0 (by norm_num)
  obtain ⟨j1, b1, b2, -, -⟩ := h2 1 (by norm_num)
  obtain ⟨c2, -, -⟩ := h3 2 (by norm_num) (by norm_num)
  obtain ⟨d2, -, -⟩ := h3 3 (by norm_num) (by norm_num)
  have a1 : (0 : ℚ) + 0 * 1 + j0 * 1 ^ 2 / 2 = 0 := a1
  have b1 : (0 : ℚ) + 0 * 1 + j1 * 1 ^ 2 / 2 = 0 := b1
  have a2 : (X 1).e 0 = (0 : ℚ) + 0 * 1 + 0 * 1 ^ 2 / 2 + j0 * 1 ^ 3 / 6 := a2
  have b2 : (X 1).e 3 = (0 : ℚ) + 0 * 1 + 0 * 1 ^ 2 / 2 + j1 * 1 ^ 3 / 6 := b2
  have c2 : (X 1).e 6 = (1 : ℚ) + 0 * 1 + 0 * 1 ^ 2 / 2 + j * 1 ^ 3 / 6 := c2
  have d2 : (X 1).e 9 = (0 : ℚ) + 0 * 1 + 0 * 1 ^ 2 / 2 + 0 * 1 ^ 3 / 6 := d2
  unfold bodyOffset
  rw [hR, a2, b2, c2, d2]
  have e0 : j0 = 0 := by linarith
  have e1 : j1 = 0 := by linarith
  subst e0 e1
  constructor <;> simp

/-- **C85** is violated: with bounds which are not symmetric, the task for the position of the body accepts motions whose position of
the body relative to the base is not within the bounds. -/
theorem C85_bodyBounds_refuted (junk : ℕ → ℕ → ℕ → ℕ → ℚ) (dflt : Interval ℚ) (junk' : ℕ → ℕ → ℚ) (d : CtrData ℚ) :
    ∃ mpc d' x X, (Mpc.make ⟨1, 1000, 1000⟩).update junk ⟨fun _ => 1, fun _ => 0⟩ dflt ⟨0, 0, 0, -1, .maintainVelocity⟩
        (leaningModel ![![-2, 0], ![-1, 1]]) = .ok (mpc, .ok) ∧
      bodyBoundsForm junk' (TaskEnv.of mpc) d = .ok d' ∧
      Simulates mpc.intervals (leaningModel ![![-2, 0], ![-1, 1]]).getMPCState x X ∧
      Satisfied (formedCtr mpc .alu d') x ∧ ¬ MotionWithin mpc.intervals bodyQuantity Interval.body_bounds X := by
  obtain ⟨mpc, iv, h1, h2, h3, h4, hT, hR, hB⟩ := leaning_update ![![-2, 0], ![-1, 1]] junk dflt
  obtain ⟨d', g1, -, g2⟩ := bodyBounds_ok h2 h4.nonempty junk' d
  have hX := simulation_simulates h4.times (x0 := (leaningModel ![![-2, 0], ![-1, 1]]).getMPCState) rfl
    (fun i => if i = 2 then 0 else 0)
  have hX' := hX
  rw [h3] at hX'
  obtain ⟨o0, o1⟩ := leaning_motion hT hR hX'
  rw [← h3] at o0 o1
  refine ⟨mpc, d', _, _, h1, g1, hX, (g2 _ _ hX).mpr ?_, fun h => ?_⟩
  · intro k iv' hk a
    rw [h3] at hk
    obtain ⟨rfl, rfl⟩ : k = 0 ∧ iv' = iv := by
      match k with
      | 0 => exact ⟨rfl, (Option.some.inj hk).symm⟩
      | k + 1 => cases hk
    rw [hB]
    show _ ≤ -bodyOffset _ _ a ∧ -bodyOffset _ _ a ≤ _
    fin_cases a
    · show _ ≤ -bodyOffset _ _ 0 ∧ -bodyOffset _ _ 0 ≤ _
      rw [zero_add, o0]
      norm_num
    · show _ ≤ -bodyOffset _ _ 1 ∧ -bodyOffset _ _ 1 ≤ _
      rw [zero_add, o1]
      norm_num
  · have := (h 0 iv (by rw [h3]; rfl) 0).2
    rw [hB] at this
    have this : bodyOffset iv _ 0 ≤ 0 := this
    rw [zero_add, o0] at this
    norm_num at this

/-- **C85** is violated: the task for the reference position of the body does not minimise the distance between the body and the base:
there is a motion which ends with the body above the base and is penalised, and another one which ends with the body at the distance of
two metres and is not penalised. -/
theorem C85_bodyPosition_refuted (junk : ℕ → ℕ → ℕ → ℕ → ℚ) (dflt : Interval ℚ) (gain : ℚ) (hg : gain ≠ 0) (d : CtrData ℚ) :
    ∃ mpc d' x y X Y, (Mpc.make ⟨1, 1000, 1000⟩).update junk ⟨fun _ => 1, fun _ => 0⟩ dflt ⟨0, 0, 0, -1, .maintainVelocity⟩
        (leaningModel 0) = .ok (mpc, .ok) ∧
      bodyPositionForm gain (TaskEnv.of mpc) d = .ok d' ∧
      Simulates mpc.intervals (leaningModel 0).getMPCState x X ∧ Simulates mpc.intervals (leaningModel 0).getMPCState y Y ∧
      motionCost mpc.intervals bodyQuantity X = 0 ∧ residualSq (formedCtr mpc .ab d') x ≠ 0 ∧
      motionCost mpc.intervals bodyQuantity Y = 4 ∧ residualSq (formedCtr mpc .ab d') y = 0 := by
  obtain ⟨mpc, iv, h1, h2, h3, h4, hT, hR, -⟩ := leaning_update 0 junk dflt
  obtain ⟨d', g1, g2, -, g4⟩ := bodyPosition_ok h2 h4.nonempty gain d
  have hsim : ∀ j : ℚ, ∃ X, Simulates mpc.intervals (leaningModel 0).getMPCState (fun i => if i = 2 then j else 0) X ∧
      bodyOffset iv (X 1) 0 = 1 + j / 6 ∧ bodyOffset iv (X 1) 1 = 0 := fun j => by
    have hX := simulation_simulates h4.times (x0 := (leaningModel 0).getMPCState) rfl (fun i => if i = 2 then j else 0)
    have hX' := hX
    rw [h3] at hX'
    have := leaning_motion hT hR hX'
    rw [← h3] at this
    exact ⟨_, hX, this⟩
  obtain ⟨X0, z1, z2, z3⟩ := hsim 0
  have z1 : Simulates mpc.intervals (leaningModel 0).getMPCState (fun _ => 0) X0 := by simpa using z1
  have hl : mpc.intervals[0]? = some iv := by rw [h3]; rfl
  have hcost : ∀ X, motionCost mpc.intervals bodyQuantity X = bodyOffset iv (X 1) 0 ^ 2 + bodyOffset iv (X 1) 1 ^ 2 := fun X => by
    rw [h3]
    unfold motionCost
    show ∑ k : Fin 1, _ = _
    rw [Fin.sum_univ_one, Fin.sum_univ_two]
    rfl
  have hres : ∀ x X, Simulates mpc.intervals (leaningModel 0).getMPCState x X → residualSq (formedCtr mpc .ab d') x =
      (-gain * (bodyOffset iv (X 1) 0 - 2)) ^ 2 + (-gain * (bodyOffset iv (X 1) 1)) ^ 2 := fun x X hX => by
    unfold residualSq
    rw [g2.rows, h3]
    show ∑ i ∈ Finset.range 2, _ = _
    rw [Finset.sum_range_succ, Finset.sum_range_one]
    have e0 := g4 x X X0 hX z1 0 iv hl 0
    have e1 := g4 x X X0 hX z1 0 iv hl 1
    simp only [zero_add] at e0 e1
    rw [z2] at e0
    rw [z3] at e1
    have e0 : lhs (formedCtr mpc .ab d') x 0 - target (formedCtr mpc .ab d') 0 = _ := e0
    have e1 : lhs (formedCtr mpc .ab d') x 1 - target (formedCtr mpc .ab d') 1 = _ := e1
    rw [e0, e1]
    ring
  obtain ⟨X, x1, x2, x3⟩ := hsim (-6)
  obtain ⟨Y, y1, y2, y3⟩ := hsim 6
  refine ⟨mpc, d', _, _, X, Y, h1, g1, x1, y1, ?_, ?_, ?_, ?_⟩
  · rw [hcost, x2, x3]
    norm_num
  · rw [hres _ X x1, x2, x3]
    norm_num
    exact hg
  · rw [hcost, y2, y3]
    norm_num
  · rw [hres _ Y y1, y2, y3]
    norm_num

/-- The hypotheses of the other theorems hold after the same update. -/
example (junk : ℕ → ℕ → ℕ → ℕ → ℚ) (dflt : Interval ℚ) (gain : ℚ) (d : CtrData ℚ) : ∃ (mpc : Mpc ℚ) (d' : CtrData ℚ),
    MinimisesMotion mpc.intervals (leaningModel 0).getMPCState (formedCtr mpc .asb d') gain baseJerkQuantity ∧ mpc.intervals ≠ [] := by
  obtain ⟨mpc, iv, -, h2, h3, h4, -⟩ := leaning_update 0 junk dflt
  obtain ⟨d', -, -, h⟩ := C85_baseJerk h2 h4 gain d
  exact ⟨mpc, d', h, by rw [h3]; simp⟩

example (junk : ℕ → ℕ → ℕ → ℕ → ℚ) (dflt : Interval ℚ) (junk' : ℕ → ℕ → ℚ) (d : CtrData ℚ) : ∃ (mpc : Mpc ℚ) (d' : CtrData ℚ),
    RestrictsMotion mpc.intervals (leaningModel ![![-2, 2], ![-1, 1]]).getMPCState (formedCtr mpc .alu d') bodyQuantity
      Interval.body_bounds ∧ mpc.intervals ≠ [] := by
  obtain ⟨mpc, iv, -, h2, h3, h4, -, -, hB⟩ := leaning_update ![![-2, 2], ![-1, 1]] junk dflt
  obtain ⟨d', -, -, h⟩ := C85_bodyBounds_partial h2 h4.nonempty (fun iv' hiv a => by
    rw [h3, List.mem_singleton] at hiv
    subst hiv
    rw [hB]
    fin_cases a <;> simp) junk' d
  exact ⟨mpc, d', h, by rw [h3]; simp⟩

end Humoto.Pepper
