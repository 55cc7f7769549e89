import Verif.Spec.Performance
import Mathlib.Algebra.CharZero.Defs
import Mathlib.Algebra.BigOperators.Group.List.Basic
import Mathlib.Data.Fin.VecNotation
import Mathlib.Tactic.Ring
import Mathlib.Tactic.Linarith

/-!
# C120: average times
-/

namespace Humoto.Performance

open Spec LogName

variable {K : Type} [Field K]

theorem mapM_ok {α β : Type} (f : α → Res β) (g : α → β) : ∀ (l : List α), (∀ a ∈ l, f a = .ok (g a)) → l.mapM f = .ok (l.map g) := by
  intro l
  induction l with
  | nil => intro _; rfl
  | cons a l ih =>
    intro h
    rw [List.mapM_cons, h a (by simp), ih fun b hb => h b (by simp [hb])]
    rfl

theorem addTo_ok {S A : Mat K} (h : S.rows = A.rows ∧ S.cols = A.cols) :
    addTo S A = .ok ⟨S.rows, S.cols, fun r c => S.e r c + A.e r c⟩ := by
  unfold addTo
  rw [require_true h]
  rfl

theorem fold_ok (m : ℕ) : ∀ (l : List (List (Measure K))) (S : Mat K), S.rows = 3 → S.cols = m → (∀ x ∈ l, x.length = m) →
    ∃ T : Mat K, (l.map toMatrix).foldlM addTo S = .ok T ∧ T.rows = 3 ∧ T.cols = m ∧
      ∀ r c, T.e r c = S.e r c + (l.map fun x => (toMatrix x).e r c).sum := by
  intro l
  induction l with
  | nil => intro S h1 h2 _; exact ⟨S, rfl, h1, h2, fun r c => by simp⟩
  | cons x l ih =>
    intro S h1 h2 h3
    have hx := h3 x (by simp)
    obtain ⟨T, e1, e2, e3, e4⟩ := ih ⟨S.rows, S.cols, fun r c => S.e r c + (toMatrix x).e r c⟩ h1 h2 fun y hy => h3 y (by simp [hy])
    refine ⟨T, ?_, e2, e3, fun r c => ?_⟩
    · rw [List.map_cons, List.foldlM_cons, addTo_ok ⟨h1, h2.trans hx.symm⟩]
      exact e1
    · rw [e4]
      simp [add_assoc]

theorem matrix_entry (x : List (Measure K)) (k : Fin 3) (j : ℕ) : (toMatrix x).e k j = (x.map fun t => t k).getD j 0 := by
  show (if h : (k : ℕ) < 3 then x.getD j 0 ⟨k, h⟩ else 0) = _
  rw [dif_pos k.2]
  simp only [List.getD_eq_getElem?_getD, List.getElem?_map]
  cases x[j]? <;> rfl

/-- **C120.** If at least one simulation is made, all of them return, and all have the same number of iterations, then three entries
are logged, with the names which begin with the prefix and the type of hot starting, and for each iteration they contain the mean
over all simulations of the times to form the problem, to solve it and to run the full loop. -/
theorem C120_average_partial [CharZero K] {n m : ℕ} (hn : 0 < n) {runs : ℕ → Res (List (Measure K))} {ms : ℕ → List (Measure K)}
    (hr : ∀ i, i < n → runs i = .ok (ms i)) (hm : ∀ i, i < n → (ms i).length = m) (log_prefix hotstart_type : Str) :
    ∃ form solve loop : Vec K, multiRun n runs log_prefix hotstart_type = .ok
        [(add (add log_prefix (.name hotstart_type)) (.name "average_time_to_form_the_problem".toList), form),
         (add (add log_prefix (.name hotstart_type)) (.name "average_time_to_solve_the_problem".toList), solve),
         (add (add log_prefix (.name hotstart_type)) (.name "average_time_to_run_full_loop".toList), loop)] ∧
      MeanTimes n m ms 0 form ∧ MeanTimes n m ms 1 solve ∧ MeanTimes n m ms 2 loop := by
  have e0 : ((List.range n).mapM fun i => do
      let measures ← runs i
      pure (toMatrix measures)) = Except.ok ((List.range n).map fun i => toMatrix (ms i)) :=
    mapM_ok _ _ _ fun i hi => by
      rw [hr i (List.mem_range.1 hi)]
      rfl
  obtain ⟨k, rfl⟩ : ∃ k, n = k + 1 := ⟨n - 1, by omega⟩
  obtain ⟨T, e1, e2, e3, e4⟩ := fold_ok m ((List.range k).map fun i => ms (i + 1)) (toMatrix (ms 0)) rfl (hm 0 hn) fun x hx => by
    obtain ⟨i, hi, rfl⟩ := List.mem_map.1 hx
    exact hm _ (by have := List.mem_range.1 hi; omega)
  have e5 : ((List.range (k + 1)).map fun i => toMatrix (ms i)) = toMatrix (ms 0) :: ((List.range k).map fun i => ms (i + 1)).map toMatrix := by
    rw [List.range_succ_eq_map]
    simp [Function.comp_def]
  have key : ∀ q : Fin 3, MeanTimes (k + 1) m ms q (scaledRow (1 / ((k + 1 : ℕ) : K)) T q) := by
    intro q
    refine ⟨e3, fun j _ => ?_⟩
    have h0 : ((k + 1 : ℕ) : K) ≠ 0 := Nat.cast_ne_zero.2 (by omega)
    show _ * (1 / ((k + 1 : ℕ) : K) * T.e q j) = _
    rw [← mul_assoc, mul_one_div_cancel h0, one_mul, e4, List.range_succ_eq_map]
    simp only [List.map_cons, List.map_map, List.sum_cons, Function.comp_def, matrix_entry, Nat.succ_eq_add_one]
  refine ⟨_, _, _, ?_, key 0, key 1, key 2⟩
  unfold multiRun
  rw [e0]
  show (sum _ >>= _) = _
  have e6 : sum ((List.range (k + 1)).map fun i => toMatrix (ms i)) = .ok T := by
    rw [e5]
    exact e1
  rw [e6]
  rfl

/-- **C120.** If a simulation fails, and none before it does, the failure is passed on and nothing is logged. -/
theorem C120_failure {n k : ℕ} (hk : k < n) {runs : ℕ → Res (List (Measure K))} {ms : ℕ → List (Measure K)} {e : Fault}
    (hr : ∀ i, i < k → runs i = .ok (ms i)) (he : runs k = .error e) (log_prefix hotstart_type : Str) :
    multiRun n runs log_prefix hotstart_type = .error e := by
  have key : ((List.range n).mapM fun i => do
      let measures ← runs i
      pure (toMatrix measures)) = Except.error e := by
    have hsplit : List.range n = List.range k ++ (k :: (List.range (n - k - 1)).map fun i => k + 1 + i) := by
      apply List.ext_getElem
      · simp; omega
      · intro i h1 h2
        simp only [List.getElem_range]
        rcases lt_trichotomy i k with h | h | h
        · rw [List.getElem_append_left (by simpa using h)]
          simp
        · subst h
          rw [List.getElem_append_right (by simp)]
          simp
        · rw [List.getElem_append_right (by simp; omega), List.getElem_cons]
          simp
          split <;> omega
    rw [hsplit, List.mapM_append, mapM_ok _ (fun i => toMatrix (ms i)) _ fun i hi => by rw [hr i (List.mem_range.1 hi)]; rfl,
      List.mapM_cons, he]
    rfl
  unfold multiRun
  rw [key]
  rfl

/-- **C120.** Without simulations the first element of an empty vector is read. -/
theorem C120_none_refuted (runs : ℕ → Res (List (Measure K))) (log_prefix hotstart_type : Str) :
    multiRun 0 runs log_prefix hotstart_type = .error .ub := rfl

/-- **C120.** When the second simulation makes another number of iterations than the first one, matrices of different sizes are added. -/
theorem C120_length_refuted {n : ℕ} (hn : 1 < n) {runs : ℕ → Res (List (Measure K))} {ms : ℕ → List (Measure K)}
    (hr : ∀ i, i < n → runs i = .ok (ms i)) (hm : (ms 1).length ≠ (ms 0).length) (log_prefix hotstart_type : Str) :
    multiRun n runs log_prefix hotstart_type = .error .ub := by
  have e0 : ((List.range n).mapM fun i => do
      let measures ← runs i
      pure (toMatrix measures)) = Except.ok ((List.range n).map fun i => toMatrix (ms i)) :=
    mapM_ok _ _ _ fun i hi => by
      rw [hr i (List.mem_range.1 hi)]
      rfl
  obtain ⟨k, rfl⟩ : ∃ k, n = k + 1 + 1 := ⟨n - 2, by omega⟩
  unfold multiRun
  rw [e0]
  show (sum _ >>= _) = _
  have e1 : sum ((List.range (k + 1 + 1)).map fun i => toMatrix (ms i)) = .error .ub := by
    rw [List.range_succ_eq_map, List.range_succ_eq_map]
    simp only [List.map_cons, List.map_map]
    show List.foldlM addTo (toMatrix (ms 0)) (toMatrix (ms 1) :: _) = _
    rw [List.foldlM_cons]
    have : addTo (toMatrix (ms 0)) (toMatrix (ms 1)) = .error .ub := by
      unfold addTo
      rw [require_false (fun h => hm h.2.symm)]
      rfl
    rw [this]
    rfl
  rw [e1]
  rfl

/-- Two simulations with two iterations: the means of the first entry are 2 and 3. -/
example : ∃ form solve loop : Vec ℚ, multiRun (K := ℚ) 2 (fun i => .ok [![1 + 2 * (i : ℚ), 1, 2], ![3, 1, 4 * (i : ℚ)]]) "qp".toList "no_hotstart".toList = .ok
      [("qp.no_hotstart.average_time_to_form_the_problem".toList, form), ("qp.no_hotstart.average_time_to_solve_the_problem".toList, solve),
       ("qp.no_hotstart.average_time_to_run_full_loop".toList, loop)] ∧ form.n = 2 ∧ form.e 0 = 2 ∧ form.e 1 = 3 := by
  obtain ⟨form, solve, loop, h, h1, -, -⟩ := C120_average_partial (K := ℚ) (n := 2) (m := 2) (by norm_num)
    (runs := fun i => .ok [![1 + 2 * (i : ℚ), 1, 2], ![3, 1, 4 * (i : ℚ)]]) (ms := fun i => [![1 + 2 * (i : ℚ), 1, 2], ![3, 1, 4 * (i : ℚ)]]) (fun i _ => rfl) (fun i _ => rfl)
    "qp".toList "no_hotstart".toList
  refine ⟨form, solve, loop, h, h1.size, ?_, ?_⟩
  · have := h1.mean 0 (by norm_num)
    simp [List.range_succ] at this
    linarith
  · have := h1.mean 1 (by norm_num)
    simp [List.range_succ] at this
    linarith

end Humoto.Performance
