import Verif.Lemmas.WpgMotion

/-!
# Steps and supports in the horizon of the walking pattern generator
-/

namespace Humoto.Wpg

open Spec Spec.Wpg
open Pepper (ofMatrix2)

/-! ### Lists -/

theorem filter_alternating {α : Type} (p : α → Bool) : ∀ (l : List α) (o : ℕ), o < 2 →
    (∀ (i : ℕ) (x : α), l[i]? = some x → (p x = true ↔ (i + o) % 2 = 0)) → ∀ j : ℕ, (l.filter p)[j]? = l[o + 2 * j]?
  | [], _, _, _, _ => by simp
  | a :: t, o, ho, h, j => by
    have ha := h 0 a rfl
    by_cases h0 : o = 0
    · subst h0
      have hp : p a = true := ha.2 rfl
      have ih := filter_alternating p t 1 (by decide) (fun i x hx => (h (i + 1) x hx).trans (by rw [Nat.add_zero]))
      rw [List.filter_cons_of_pos hp]
      cases j with
      | zero => rfl
      | succ j =>
        rw [List.getElem?_cons_succ, ih j, show 0 + 2 * (j + 1) = (1 + 2 * j) + 1 by omega, List.getElem?_cons_succ]
    · have h1 : o = 1 := by omega
      subst h1
      have hp : ¬ p a = true := fun e => absurd (ha.1 e) (by decide)
      have ih := filter_alternating p t 0 (by decide) (fun i x hx => (h (i + 1) x hx).trans (by omega))
      rw [List.filter_cons_of_neg hp, ih j, show 1 + 2 * j = (0 + 2 * j) + 1 by omega, List.getElem?_cons_succ]

theorem sorted_filter : ∀ (l : List ℕ), l.Pairwise (· < ·) → ∀ (i j k : ℕ), l[j]? = some k →
    (k ≤ i ↔ j < (l.filter (· ≤ i)).length)
  | [], _, _, _, _, h => by simp at h
  | a :: t, hs, i, j, k, h => by
    obtain ⟨ha, ht⟩ := List.pairwise_cons.mp hs
    by_cases hai : a ≤ i
    · rw [List.filter_cons_of_pos (by simpa using hai), List.length_cons]
      cases j with
      | zero =>
        rw [List.getElem?_cons_zero] at h
        cases h
        simp [hai]
      | succ j =>
        rw [List.getElem?_cons_succ] at h
        rw [sorted_filter t ht i j k h]
        omega
    · have hnil : (a :: t).filter (· ≤ i) = [] := by
        rw [List.filter_eq_nil_iff]
        intro x hx
        rcases List.mem_cons.mp hx with rfl | hx
        · simpa using hai
        · have := ha x hx
          simp
          omega
      rw [hnil]
      have hk : a ≤ k := by
        cases j with
        | zero => rw [List.getElem?_cons_zero] at h; cases h; exact le_refl _
        | succ j =>
          rw [List.getElem?_cons_succ] at h
          exact (ha k (List.mem_of_getElem? h)).le
      simp
      omega

theorem filter_next : ∀ (l : List ℕ), l.Pairwise (· < ·) → ∀ i : ℕ,
    (l.filter (· ≤ i + 1)).length = (l.filter (· ≤ i)).length + if i + 1 ∈ l then 1 else 0
  | [], _, _ => by simp
  | a :: t, hs, i => by
    obtain ⟨ha, ht⟩ := List.pairwise_cons.mp hs
    have ih := filter_next t ht i
    rcases lt_trichotomy a (i + 1) with hlt | heq | hgt
    · rw [List.filter_cons_of_pos (by simp; omega), List.filter_cons_of_pos (by simp; omega), List.length_cons, List.length_cons, ih]
      by_cases hm : i + 1 ∈ t
      · rw [if_pos hm, if_pos (List.mem_cons_of_mem _ hm)]
      · rw [if_neg hm, if_neg (by simp [hm]; omega)]
    · have hm : i + 1 ∉ t := fun hm => by have := ha _ hm; omega
      rw [List.filter_cons_of_pos (by simp; omega), List.filter_cons_of_neg (by simp; omega), List.length_cons, ih, if_neg hm,
        if_pos (by simp [heq])]
    · have hm : i + 1 ∉ t := fun hm => by have := ha _ hm; omega
      rw [List.filter_cons_of_neg (by simp; omega), List.filter_cons_of_neg (by simp; omega), ih, if_neg hm, if_neg (by simp [hm]; omega)]

/-! ### Steps -/

theorem stepsBy_next {H : Horizon} (hs : H.variable_steps.Pairwise (· < ·)) (i : ℕ) :
    stepsBy H (i + 1) = stepsBy H i + if i + 1 ∈ H.variable_steps then 1 else 0 := filter_next _ hs i

theorem stepsBy_le (H : Horizon) (i : ℕ) : stepsBy H i ≤ H.variable_steps.length := List.length_filter_le _ _

theorem stepsBy_zero {H : Horizon} (h : ∀ k ∈ H.variable_steps, 0 < k) : stepsBy H 0 = 0 := by
  unfold stepsBy
  rw [List.length_eq_zero_iff, List.filter_eq_nil_iff]
  intro k hk
  have := h k hk
  simp
  omega

theorem step_le_iff {H : Horizon} (hs : H.variable_steps.Pairwise (· < ·)) {j k : ℕ} (h : H.variable_steps[j]? = some k) (i : ℕ) :
    k ≤ i ↔ j < stepsBy H i := sorted_filter _ hs i j k h

/-- The number of steps before the step `j`. -/
theorem stepsBy_before {H : Horizon} (hs : H.variable_steps.Pairwise (· < ·)) (h0 : ∀ k ∈ H.variable_steps, 0 < k) {j k : ℕ}
    (h : H.variable_steps[j]? = some k) : stepsBy H (k - 1) = j := by
  have hk := h0 k (List.mem_of_getElem? h)
  have h1 : ¬ j < stepsBy H (k - 1) := fun hj => by
    have := (step_le_iff hs h (k - 1)).2 hj
    omega
  have h2 : ∀ j' < j, j' < stepsBy H (k - 1) := by
    intro j' hj'
    obtain ⟨hj, e⟩ := List.getElem?_eq_some_iff.mp h
    have hlt := List.pairwise_iff_getElem.mp hs j' j (by omega) hj hj'
    exact (step_le_iff hs (List.getElem?_eq_getElem (by omega)) (k - 1)).1 (by omega)
  by_contra hne
  rcases Nat.lt_or_gt_of_ne hne with hlt | hgt
  · exact absurd (h2 _ hlt) (lt_irrefl _)
  · exact h1 hgt

/-- After the last step. -/
theorem stepsBy_last {H : Horizon} {i : ℕ} (h : ∀ k ∈ H.variable_steps, k ≤ i) :
    stepsBy H i = H.variable_steps.length := by
  unfold stepsBy
  rw [List.filter_eq_self.2 (fun k hk => by simpa using h k hk)]

theorem select_sum {H : Horizon} (hs : H.variable_steps.Pairwise (· < ·)) {N : ℕ} {I : Mat ℝ} (hI : IrOf H.variable_steps N I)
    {i : ℕ} (hi : i < N) (d : ℕ → ℝ) :
    ∑ j ∈ Finset.range H.variable_steps.length, I.e i j * d j = ∑ j ∈ Finset.range (stepsBy H i), d j := by
  have he : ∀ j ∈ Finset.range H.variable_steps.length, I.e i j * d j = if j < stepsBy H i then d j else 0 := by
    intro j hj
    have hj := Finset.mem_range.mp hj
    have hk := List.getElem?_eq_getElem hj
    rw [hI.entry i hi j _ hk]
    by_cases hc : j < stepsBy H i
    · rw [if_pos ((step_le_iff hs hk i).2 hc), if_pos hc, one_mul]
    · rw [if_neg (fun h => hc ((step_le_iff hs hk i).1 h)), if_neg hc, zero_mul]
  rw [Finset.sum_congr rfl he, ← Finset.sum_filter]
  refine Finset.sum_congr ?_ fun _ _ => rfl
  ext j
  simp only [Finset.mem_filter, Finset.mem_range]
  have := stepsBy_le H i
  omega

theorem turned_eq {θ : ℝ} {f : ℕ → ℝ} {i : ℕ} {r : Fin 2 → ℝ} (h : IsTurned θ ![f (2 * i), f (2 * i + 1)] r) (a : Fin 2) :
    turned (rotation2 θ) a f i = r a := by
  unfold IsTurned at h
  simp only [Matrix.cons_val_zero, Matrix.cons_val_one] at h
  unfold turned
  rw [show i * 2 = 2 * i by ring]
  fin_cases a
  · show _ = r 0
    rw [h.1]
    simp [ofMatrix2, rotation2]
    ring
  · show _ = r 1
    rw [h.2]
    simp [ofMatrix2, rotation2]

/-- The horizon can be used for the matrices; `r` are the rotations of supports before steps. -/
structure Usable (H : Horizon) (height : ℝ) (R : BlockMat ℝ) (r : ℕ → Matrix (Fin 2) (Fin 2) ℝ) : Prop where
  pos : 0 < H.intervals.n
  sorted : H.variable_steps.Pairwise (· < ·)
  range : ∀ k ∈ H.variable_steps, 0 < k ∧ k < H.intervals.n
  states : ∀ i < H.intervals.n, ∃ s, H.getWalkState i = .ok s ∧ s.rotation = rotation2 s.theta
  matrix : formR H = .ok R ∧ RotOf R H.variable_steps.length r
  rotations : ∀ (j k : ℕ) (s : WalkState), H.variable_steps[j]? = some k → H.getWalkState (k - 1) = .ok s → r j = s.rotation
  height : ∀ i < H.intervals.n, (H.intervals.e i).com_height = height ∧ (H.intervals.e i).omega = PointMass6z.getOmega height

theorem Usable.steps {H : Horizon} {height : ℝ} {R : BlockMat ℝ} {r : ℕ → Matrix (Fin 2) (Fin 2) ℝ} (h : Usable H height R r)
    {support : Fin 2 → ℝ} {f : ℕ → ℝ} {P : ℕ → Fin 2 → ℝ} (hf : Footsteps H support f P) (a : Fin 2) : ∀ j ≤ H.variable_steps.length,
      P j a = support a + ∑ k ∈ Finset.range j, turned (r k) a f k
  | 0, _ => by rw [hf.start, Finset.sum_range_zero, add_zero]
  | j + 1, hj => by
    have ih := Usable.steps h hf a j (by omega)
    have hk : H.variable_steps[j]? = some H.variable_steps[j] := List.getElem?_eq_getElem (by omega)
    generalize H.variable_steps[j] = k at hk
    have hr := h.range k (List.mem_of_getElem? hk)
    obtain ⟨s, hs, hrot⟩ := h.states (k - 1) (by omega)
    have ht := turned_eq (hf.step j k s hk hs) a
    rw [← hrot, ← h.rotations j k s hk hs] at ht
    rw [Finset.sum_range_succ, ht, Pi.sub_apply, ← add_assoc, ← ih]
    ring

theorem prediction_matrices {H : Horizon} {model : Model} {R : BlockMat ℝ} {r : ℕ → Matrix (Fin 2) (Fin 2) ℝ}
    (h : Usable H model.getCoMHeight R r) (hh : 0 < model.getCoMHeight)
    (ht : ∀ i < H.intervals.n, 0 < (H.intervals.e i).T) (junk : ℕ → ℕ → ℕ → ℕ → ℝ) (junkI : ℕ → ℕ → ℕ) :
    ∃ m, updateMatrices junk junkI H.intervals.n H model = .ok m ∧ PredictionMatrices H model m ∧
      ∃ rh, RotOf m.Rh H.intervals.n rh := by
  have hst : ∀ i, ∃ s, i < H.intervals.n → H.getWalkState i = .ok s ∧ s.rotation = rotation2 s.theta := by
    intro i
    by_cases hi : i < H.intervals.n
    · obtain ⟨s, hs⟩ := h.states i hi
      exact ⟨s, fun _ => hs⟩
    · exact ⟨(h.states 0 h.pos).choose, fun hi' => absurd hi' hi⟩
  choose st hst using hst
  have hrh : ∀ i < H.intervals.n, H.getRotationMatrix i = .ok (st i).rotation := by
    intro i hi
    unfold Horizon.getRotationMatrix
    rw [(hst i hi).1, ok_bind]
    rfl
  obtain ⟨m, em, h1, hI, hm⟩ := updateMatrices_ok junk junkI model h.pos rfl hrh h.matrix.1 h.matrix.2 (fun k hk => (h.range k hk).2)
  have hT : ∀ i < H.intervals.n, (H.intervals.e i).T ≠ 0 := fun i hi => (ht i hi).ne'
  have hw : ∀ i < H.intervals.n, (H.intervals.e i).omega = PointMass6z.getOmega model.getCoMHeight := fun i hi => (h.height i hi).2
  have hsup : ∀ a : Fin 2, (ofFin model.current_support_position).e a = model.current_support_position a := fun a => dif_pos a.2
  -- rotations of intervals
  have hrot : ∀ i < H.intervals.n, ∀ s, H.getWalkState i = .ok s → ∀ (z : ℕ → ℝ) (q : Fin 2 → ℝ),
      IsTurned s.theta ![z (2 * i), z (2 * i + 1)] q → ∀ a : Fin 2, turned (st i).rotation a z i = q a := by
    intro i hi s hs z q hq a
    have e := (hst i hi).1
    rw [hs] at e
    cases e
    rw [(hst i hi).2]
    exact turned_eq hq a
  -- centres of pressure
  have hcop : ∀ z f P cop, Footsteps H model.current_support_position f P → CentresOfPressure H P z cop → ∀ i < H.intervals.n,
      ∀ a : Fin 2, cop i a = copPart m.Ir H.variable_steps.length (fun i => (st i).rotation) r z f a i +
        (ofFin model.current_support_position).e a := by
    intro z f P cop hf hc i hi a
    have e1 := hrot i hi _ (hst i hi).1 z _ (hc i _ hi (hst i hi).1) a
    unfold copPart
    rw [select_sum h.sorted hI hi, e1, Pi.sub_apply, h.steps hf a _ (stepsBy_le H i), hsup]
    ring
  refine ⟨m, em, ⟨h1, ?_, ?_, ?_, ?_, ?_, ?_⟩, _, hm.Rh⟩
  · exact hm.sizes
  · intro x P cop X hX i hi l
    have ht := motion_trajectory hh hT hw hX.motion (a := (l : ℕ) / 3) (by omega)
    have := hm.states x ((l : ℕ) / 3) (by omega) _ _ (fun k hk => hcop x _ P cop hX.footsteps hX.pressure k hk ⟨(l : ℕ) / 3, by omega⟩) ht
      (by
        intro l' hl'
        show axisOf (X 0) _ l' = Pepper.axis _ _ l'
        unfold axisOf Pepper.axis
        rw [hX.start, mul_comm]) i hi ((l : ℕ) % 3) (by omega)
    rw [show (i * 2 + (l : ℕ) / 3) * 3 + (l : ℕ) % 3 = 6 * i + l by omega, axisOf_eq _ (by omega) (by omega)] at this
    have e : (⟨3 * ((l : ℕ) / 3) + (l : ℕ) % 3, by omega⟩ : Fin 6) = l := Fin.ext (by simp only; omega)
    rw [e] at this
    exact this
  · intro x P cop X hX i hi a
    have ht := motion_trajectory hh hT hw hX.motion a.2
    have := hm.velocities x a a.2 _ _ (fun k hk => hcop x _ P cop hX.footsteps hX.pressure k hk a) ht
      (by
        intro l' hl'
        show axisOf (X 0) _ l' = Pepper.axis _ _ l'
        unfold axisOf Pepper.axis
        rw [hX.start, mul_comm]) i hi
    rw [mul_comm i 2] at this
    exact ⟨_, this, output_velocity hh (hT i hi) (hw i hi) (X i) (cop i) a⟩
  · intro f P hf j hj a
    have := hm.supports f j hj a a.2
    rw [hsup, ← h.steps hf a (j + 1) hj, mul_comm j 2] at this
    exact this
  · intro z f P cop hf hc i hi a
    have e := hm.pressure f i hi a a.2
    have e2 := hcop z f P cop hf hc i hi a
    have e3 := hm.Rh.row z hi a.2
    rw [mul_comm i 2] at e e3
    rw [e3, e2]
    unfold copPart
    rw [show ∀ p q s : ℝ, p + q + s - p = s + q by intros; ring]
    exact e
  · intro i hi s hs z q hq a
    have e3 := hm.Rh.row z hi a.2
    rw [mul_comm i 2] at e3
    rw [e3]
    exact hrot i hi s hs z q hq a

end Humoto.Wpg
