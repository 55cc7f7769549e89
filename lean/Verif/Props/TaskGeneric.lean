import Verif.Props.Solution
import Verif.Spec.TaskGeneric
import Verif.Spec.Level

/-!
# Predefined tasks: C64
-/

namespace Humoto

open Spec

variable {K : Type}

/-- The constraints follow the location which is remembered by the task. -/
def ZeroInv (y : ZeroVariables K × CtrData K) : Prop :=
  y.2.idx.n = y.1.location.length ∧ (∀ i < y.1.location.length, y.2.idx.e i = y.1.location.offset + i)

theorem zeroInv_apply {y : ZeroVariables K × CtrData K} (h : ZeroInv y) (op : ZeroOp K) : ZeroInv (op.apply y) := by
  cases op with
  | setGain g => exact h
  | setVariablesID id => exact h
  | form s =>
    unfold ZeroOp.apply ZeroVariables.form
    simp only
    split
    · exact ⟨rfl, fun i _ => rfl⟩
    · exact h

theorem zeroInv_after {y : ZeroVariables K × CtrData K} (h : ZeroInv y) (ops : List (ZeroOp K)) : ZeroInv (afterOps y ops) := by
  unfold afterOps
  induction ops generalizing y with
  | nil => exact h
  | cons op ops ih => exact ih (zeroInv_apply h op)

theorem zeroInv_make {g : K} {id : String} {d : CtrData K} (hd : d.idx.n = 0) : ZeroInv (ZeroVariables.make g id, d) :=
  ⟨hd, fun i hi => absurd hi (Nat.not_lt_zero i)⟩

theorem form_location (y : ZeroVariables K × CtrData K) (s : SolutionStructure) :
    ((ZeroOp.form s).apply y).1.location = y.1.locate s := by
  unfold ZeroOp.apply ZeroVariables.form
  simp only
  split
  · rfl
  · rename_i h
    exact (not_not.1 h).symm

theorem means_iff (t : ZeroVariables K) (s : SolutionStructure) (v : ℕ) :
    Means s t.variables_id v ↔ InLoc (t.locate s) v := by
  unfold Means ZeroVariables.locate InLoc
  by_cases h : t.variables_id = ""
  · rw [if_pos h, if_pos (by rw [h]; rfl)]
    simp
  · rw [if_neg h, if_neg (fun e => h (String.length_eq_zero_iff.1 e))]
    unfold SolutionStructure.location
    cases s.find t.variables_id with
    | none => simp
    | some l => simp

/-- Gains of the rows after a history in which the gain is not changed. -/
theorem gains_kept {t : ZeroVariables K} {d : CtrData K} (hg : d.gains.n = t.location.length ∧ ∀ i < t.location.length, d.gains.e i = t.gain)
    (ops : List (ZeroOp K)) (h : ∀ g, ZeroOp.setGain g ∉ ops) :
    (afterOps (t, d) ops).1.gain = t.gain ∧
    (afterOps (t, d) ops).2.gains.n = (afterOps (t, d) ops).1.location.length ∧
    ∀ i < (afterOps (t, d) ops).1.location.length, (afterOps (t, d) ops).2.gains.e i = t.gain := by
  unfold afterOps
  induction ops generalizing t d with
  | nil => exact ⟨rfl, hg⟩
  | cons op ops ih =>
    have h' : ∀ g, ZeroOp.setGain g ∉ ops := fun g hm => h g (List.mem_cons_of_mem _ hm)
    cases op with
    | setGain g => exact absurd List.mem_cons_self (h g)
    | setVariablesID id => exact ih (t := t.setVariablesID id) hg h'
    | form s =>
      rw [List.foldl_cons]
      have e : ((ZeroOp.form s).apply (t, d)).1.gain = t.gain ∧
          ((ZeroOp.form s).apply (t, d)).2.gains.n = ((ZeroOp.form s).apply (t, d)).1.location.length ∧
          ∀ i < ((ZeroOp.form s).apply (t, d)).1.location.length, ((ZeroOp.form s).apply (t, d)).2.gains.e i = t.gain := by
        unfold ZeroOp.apply ZeroVariables.form
        simp only
        split
        · exact ⟨rfl, rfl, fun i _ => rfl⟩
        · exact ⟨rfl, hg⟩
      have := ih (t := ((ZeroOp.form s).apply (t, d)).1) (d := ((ZeroOp.form s).apply (t, d)).2) (by rw [e.1]; exact e.2) h'
      rw [e.1] at this
      exact this

theorem afterOps_append (y : ZeroVariables K × CtrData K) (a b : List (ZeroOp K)) :
    afterOps y (a ++ b) = afterOps (afterOps y a) b := List.foldl_append

/-- **C64.** After any history which ends with forming, the rows of the task are in one to one correspondence with the variables which
are meant by its id in the given structure, and do not involve other variables. -/
theorem C64_variables [Field K] {g : K} {id : String} {d : CtrData K} (hd : d.idx.n = 0) (ops : List (ZeroOp K)) (s : SolutionStructure)
    (nv : ℕ) (y : ZeroVariables K × CtrData K) (hy : y = afterOps (ZeroVariables.make g id, d) (ops ++ [.form s])) :
    (∀ i < rows ⟨.gib0, nv, y.2⟩, Means s y.1.variables_id (y.2.idx.e i) ∧
      ∀ x, lhs ⟨.gib0, nv, y.2⟩ x i - target ⟨.gib0, nv, y.2⟩ i = y.2.gains.e i * x (y.2.idx.e i)) ∧
    ∀ v, Means s y.1.variables_id v ↔ ∃! i, i < rows ⟨.gib0, nv, y.2⟩ ∧ y.2.idx.e i = v := by
  have hI := zeroInv_after (zeroInv_make (g := g) (id := id) hd) (ops ++ [.form s])
  rw [← hy] at hI
  have hl : y.1.location = y.1.locate s := by
    rw [hy, afterOps_append]
    have e : ∀ z : ZeroVariables K × CtrData K, (afterOps z [.form s]).1.locate s = z.1.locate s := by
      intro z
      unfold afterOps
      rw [List.foldl_cons, List.foldl_nil]
      unfold ZeroOp.apply ZeroVariables.form
      simp only
      split <;> rfl
    rw [e]
    exact form_location _ s
  obtain ⟨h1, h2⟩ := hI
  have hr : rows (⟨.gib0, nv, y.2⟩ : Ctr K) = y.1.location.length := h1
  have hm : ∀ v, Means s y.1.variables_id v ↔ InLoc y.1.location v := fun v => by rw [means_iff, hl]
  refine ⟨fun i hi => ?_, fun v => ?_⟩
  · rw [hr] at hi
    refine ⟨?_, fun x => by simp [lhs, target]⟩
    rw [hm, h2 i hi]
    exact ⟨by omega, by omega⟩
  · rw [hm, hr]
    constructor
    · rintro ⟨a, b⟩
      refine ⟨v - y.1.location.offset, ⟨by omega, ?_⟩, ?_⟩
      · rw [h2 _ (by omega)]; omega
      · rintro j ⟨hj, e⟩
        rw [h2 j hj] at e
        omega
    · rintro ⟨i, ⟨hi, e⟩, -⟩
      rw [h2 i hi] at e
      exact ⟨by omega, by omega⟩

/-- **C64**, partial: the task penalises exactly its variables with its gain after any history in which the gain is not changed.
Missing: changes of the gain, which are ignored while the location of the variables stays the same, see `C64_gain_refuted`. -/
theorem C64_gain_partial [Field K] {g : K} {id : String} {d : CtrData K} (hd : d.idx.n = 0 ∧ d.gains.n = 0) (ops : List (ZeroOp K))
    (hops : ∀ g, ZeroOp.setGain g ∉ ops) (s : SolutionStructure) (nv : ℕ) (y : ZeroVariables K × CtrData K)
    (hy : y = afterOps (ZeroVariables.make g id, d) (ops ++ [.form s])) :
    y.1.gain = g ∧ Penalises ⟨.gib0, nv, y.2⟩ (Means s y.1.variables_id) g := by
  obtain ⟨h1, h2⟩ := C64_variables hd.1 ops s nv y hy
  have hk := gains_kept (t := ZeroVariables.make g id) (d := d) ⟨hd.2, fun i hi => absurd hi (Nat.not_lt_zero i)⟩ (ops ++ [.form s])
    (fun g hm => by
      rcases List.mem_append.1 hm with hm | hm
      · exact hops g hm
      · cases List.mem_singleton.1 hm)
  rw [← hy] at hk
  obtain ⟨k1, k2, k3⟩ := hk
  have hI := zeroInv_after (zeroInv_make (g := g) (id := id) hd.1) (ops ++ [.form s])
  rw [← hy] at hI
  have hr : rows (⟨.gib0, nv, y.2⟩ : Ctr K) = y.1.location.length := hI.1
  have hgain : ∀ i < rows (⟨.gib0, nv, y.2⟩ : Ctr K), y.2.gains.e i = g := fun i hi => k3 i (hr ▸ hi)
  refine ⟨k1, ⟨fun i hi => ?_, fun v hv => ?_, fun i hi j hj e => ?_⟩⟩
  · exact ⟨_, (h1 i hi).1, fun x => by rw [(h1 i hi).2 x, hgain i hi]⟩
  · obtain ⟨i, ⟨hi, e⟩, -⟩ := (h2 v).1 hv
    exact ⟨i, hi, fun x => by rw [(h1 i hi).2 x, hgain i hi, e]⟩
  · obtain ⟨k, hk, hu⟩ := (h2 (y.2.idx.e i)).1 (h1 i hi).1
    rw [hu i ⟨hi, rfl⟩, hu j ⟨hj, e.symm⟩]

/-- **C64**, partial: with a gain which is not zero the task is satisfied exactly if its variables are zero. -/
theorem C64_zero_partial [Field K] [LinearOrder K] [IsStrictOrderedRing K] {g : K} (hg : g ≠ 0) {id : String} {d : CtrData K}
    (hd : d.idx.n = 0 ∧ d.gains.n = 0) (ops : List (ZeroOp K)) (hops : ∀ g, ZeroOp.setGain g ∉ ops) (s : SolutionStructure) (nv : ℕ)
    (y : ZeroVariables K × CtrData K) (hy : y = afterOps (ZeroVariables.make g id, d) (ops ++ [.form s])) (x : ℕ → K) :
    Satisfied ⟨.gib0, nv, y.2⟩ x ↔ ∀ v, Means s y.1.variables_id v → x v = 0 := by
  obtain ⟨-, h⟩ := C64_gain_partial hd ops hops s nv y hy
  have hz : ∀ i < rows (⟨.gib0, nv, y.2⟩ : Ctr K), (RowHolds ⟨.gib0, nv, y.2⟩ x i ↔ lhs ⟨.gib0, nv, y.2⟩ x i = 0) := by
    intro i hi
    unfold RowHolds
    simp only [lower, upper, Option.some.injEq, forall_eq']
    exact ⟨fun h => le_antisymm h.2 h.1, fun h => ⟨h.ge, h.le⟩⟩
  constructor
  · intro hs v hv
    obtain ⟨i, hi, e⟩ := h.covers v hv
    have := e x
    rw [(hz i hi).1 (hs i hi)] at this
    have : g * x v = 0 := by rw [← this]; simp [target]
    exact (mul_eq_zero.1 this).resolve_left hg
  · intro hv i hi
    obtain ⟨v, h1, e⟩ := h.only i hi
    rw [hz i hi]
    have := e x
    rw [hv v h1, mul_zero] at this
    simpa [target] using this

/-- Against C64: a new gain is ignored when the task is formed again for the same structure. -/
theorem C64_gain_refuted (d : CtrData ℚ) (nv : ℕ) : ∃ (s : SolutionStructure) (y : ZeroVariables ℚ × CtrData ℚ), Built s ∧
    y = afterOps (ZeroVariables.make 2 "x", d) ([.form s, .setGain 5] ++ [.form s]) ∧ y.1.gain = 5 ∧ Means s "x" 0 ∧
    (∀ x, lhs ⟨.gib0, nv, y.2⟩ x 0 = 2 * x 0) ∧ ¬ Penalises ⟨.gib0, nv, y.2⟩ (Means s "x") y.1.gain := by
  have hl : ∀ (l : Location) (g : ℚ), (⟨l, "x", g⟩ : ZeroVariables ℚ).locate ⟨1, [("x", ⟨0, 1⟩)]⟩ = ⟨0, 1⟩ := fun l g => by
    simp [ZeroVariables.locate, SolutionStructure.location, SolutionStructure.find]
  have hy : afterOps (ZeroVariables.make 2 "x", d) ([.form ⟨1, [("x", ⟨0, 1⟩)]⟩, .setGain 5] ++ [.form ⟨1, [("x", ⟨0, 1⟩)]⟩]) =
      (⟨⟨0, 1⟩, "x", 5⟩, { d with gains := ⟨1, fun _ => 2⟩, idx := ⟨1, fun i => 0 + i⟩ }) := by
    simp [afterOps, ZeroOp.apply, ZeroVariables.form, ZeroVariables.make, ZeroVariables.setGain, hl]
  refine ⟨⟨1, [("x", ⟨0, 1⟩)]⟩, _, ⟨[("x", 1)], rfl⟩, rfl, ?_⟩
  rw [hy]
  refine ⟨rfl, ?_, fun x => rfl, fun h => ?_⟩
  · unfold Means
    rw [if_neg (by decide)]
    exact ⟨⟨0, 1⟩, rfl, by decide, by decide⟩
  · obtain ⟨v, -, e⟩ := h.only 0 (show (0 : ℕ) < 1 by decide)
    have e1 : ∀ x : ℕ → ℚ, 2 * x 0 - 0 = 5 * x v := fun x => e x
    have := e1 fun _ => 1
    norm_num at this

/-- **C64.** The indices refer to existing variables when the structure is one which a user can build. -/
theorem C64_range [Field K] {g : K} {id : String} {d : CtrData K} (hd : d.idx.n = 0) (ops : List (ZeroOp K)) {s : SolutionStructure}
    (hs : Built s) (y : ZeroVariables K × CtrData K)
    (hy : y = afterOps (ZeroVariables.make g id, d) (ops ++ [.form s])) : InRange (⟨.gib0, s.nvars, y.2⟩ : Ctr K) := by
  intro i hi
  have h := ((C64_variables hd ops s s.nvars y hy).1 i hi).1
  unfold Means at h
  split at h
  · exact h
  · obtain ⟨l, h1, -, h3⟩ := h
    have := (parts_of_built hs).fits _ _ ((parts_of_built hs).mem _ _ h1)
    show y.2.idx.e i < s.nvars
    omega

/-- A history with a change of the id and three structures. -/
example : ∃ y : ZeroVariables ℚ × CtrData ℚ,
    y = afterOps (ZeroVariables.make 3 "a", ⟨⟨0, 0, fun _ _ => 0⟩, 0, ⟨0, fun _ => 0⟩, ⟨0, fun _ => 0⟩, ⟨0, fun _ => 0⟩,
      ⟨0, fun _ => 0⟩, ⟨0, fun _ => 0⟩⟩)
      ([.form (SolutionStructure.empty.addAll [("a", 2), ("b", 3)]), .setVariablesID "b",
        .form (SolutionStructure.empty.addAll [("a", 2), ("b", 3)])] ++ [.form (SolutionStructure.empty.addAll [("a", 1), ("b", 4)])]) ∧
    y.2.idx.n = 4 ∧ y.2.idx.e 0 = 1 ∧ y.2.gains.e 3 = 3 := ⟨_, rfl, rfl, rfl, rfl⟩

/-- **C64.** The task on selected variables penalises the variables with the given indices. -/
theorem C64_selected [Field K] (indices : Vec ℕ) (g : K) (d : CtrData K) (nv : ℕ) :
    rows ⟨.gib0, nv, zeroSelected indices g d⟩ = indices.n ∧
    (∀ i < indices.n, ∀ x, lhs ⟨.gib0, nv, zeroSelected indices g d⟩ x i - target ⟨.gib0, nv, zeroSelected indices g d⟩ i =
      g * x (indices.e i)) ∧
    ((∀ i < indices.n, indices.e i < nv) → WellFormed (⟨.gib0, nv, zeroSelected indices g d⟩ : Ctr K)) :=
  ⟨rfl, fun i _ x => by simp [lhs, target, zeroSelected], fun h => ⟨trivial, rfl, h⟩⟩

/-- **C64.** The infeasible task cannot be satisfied, after any history of forming, if there are variables. -/
theorem C64_infeasible [Field K] [LinearOrder K] [IsStrictOrderedRing K] (d : CtrData K) (ss : List SolutionStructure)
    (s : SolutionStructure) (hs : 0 < s.nvars) (y : ℕ × CtrData K)
    (hy : y = (ss ++ [s]).foldl thenInfeasible (0, d)) (x : ℕ → K) :
    WellFormed (⟨.alu, s.nvars, y.2⟩ : Ctr K) ∧ ¬ Satisfied ⟨.alu, s.nvars, y.2⟩ x := by
  have hinv : ∀ (ss : List SolutionStructure) (z : ℕ × CtrData K),
      (z.1 ≠ 0 → z.2.A = ⟨1, z.1, fun _ _ => 1⟩ ∧ z.2.lb = ⟨1, fun _ => 1⟩ ∧ z.2.ub = ⟨1, fun _ => -1⟩) →
      ∀ z', z' = ss.foldl thenInfeasible z →
      (z'.1 ≠ 0 → z'.2.A = ⟨1, z'.1, fun _ _ => 1⟩ ∧ z'.2.lb = ⟨1, fun _ => 1⟩ ∧ z'.2.ub = ⟨1, fun _ => -1⟩) := by
    intro ss
    induction ss with
    | nil => rintro z hz z' rfl; exact hz
    | cons s ss ih =>
      rintro z hz z' rfl
      refine ih _ ?_ _ rfl
      unfold thenInfeasible infeasibleForm
      split
      · exact fun _ => ⟨rfl, rfl, rfl⟩
      · exact hz
  have h1 : y.1 = s.nvars := by
    rw [hy, List.foldl_append, List.foldl_cons, List.foldl_nil]
    unfold thenInfeasible infeasibleForm
    split
    · rfl
    · rename_i h; exact not_not.1 h
  obtain ⟨hA, hl, hu⟩ := hinv (ss ++ [s]) (0, d) (fun h => absurd rfl h) y hy (by omega)
  rw [h1] at hA
  constructor
  · refine ⟨⟨?_, ?_⟩, ?_, ?_⟩ <;> simp [rows, hA, hl, hu, hs]
  · intro h
    obtain ⟨a, b⟩ := h 0 (by simp [rows, hA])
    have a := a (y.2.lb.e 0) rfl
    have b := b (y.2.ub.e 0) rfl
    rw [hl] at a
    rw [hu] at b
    have := a.trans b
    simp only at this
    linarith

end Humoto
