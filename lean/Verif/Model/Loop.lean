import Verif.Model.Basic

/-!
# Loops
-/

namespace Humoto

/-- `for (i = 0; i < n; ++i) { state = body(state, i); }`, leaving on the first failure. -/
def forRange {α : Type} (n : ℕ) (s : α) (body : α → ℕ → Res α) : Res α := (List.range n).foldlM body s

theorem forRange_zero {α : Type} (s : α) (body : α → ℕ → Res α) : forRange 0 s body = .ok s := rfl

theorem forRange_succ {α : Type} (n : ℕ) (s : α) (body : α → ℕ → Res α) :
    forRange (n + 1) s body = (forRange n s body >>= fun s' => body s' n) := by
  simp only [forRange, List.range_succ, List.foldlM_append, List.foldlM_cons, List.foldlM_nil]
  rcases List.foldlM body s (List.range n) with e | s'
  · rfl
  · show (body s' n >>= fun s => pure s) = body s' n
    cases body s' n <;> rfl

/-- Loop invariant rule for total correctness. -/
theorem forRange_inv {α : Type} (P : ℕ → α → Prop) {n : ℕ} {s : α} {body : α → ℕ → Res α} (h0 : P 0 s)
    (hstep : ∀ i s, i < n → P i s → ∃ s', body s i = .ok s' ∧ P (i + 1) s') :
    ∃ s', forRange n s body = .ok s' ∧ P n s' := by
  induction n with
  | zero => exact ⟨s, rfl, h0⟩
  | succ n ih =>
    obtain ⟨s', h, hP⟩ := ih (fun i s hi => hstep i s (by omega))
    obtain ⟨s'', h', hP'⟩ := hstep n s' (by omega) hP
    exact ⟨s'', by rw [forRange_succ, h]; exact h', hP'⟩

/-- `forRange_inv` with a postcondition. -/
theorem forRange_post {α : Type} (P : ℕ → α → Prop) {Q : α → Prop} {n : ℕ} {s : α} {body : α → ℕ → Res α}
    (h0 : P 0 s) (hstep : ∀ i s, i < n → P i s → ∃ s', body s i = .ok s' ∧ P (i + 1) s')
    (hQ : ∀ s, P n s → Q s) : ∃ s', forRange n s body = .ok s' ∧ Q s' := by
  obtain ⟨s', h, hP⟩ := forRange_inv P h0 hstep
  exact ⟨s', h, hQ s' hP⟩

/-- Invariant rule for a loop which may fail. -/
theorem forRange_inv_of_ok {α : Type} (P : ℕ → α → Prop) {n : ℕ} {s r : α} {body : α → ℕ → Res α} (h0 : P 0 s)
    (hstep : ∀ i s s', i < n → P i s → body s i = .ok s' → P (i + 1) s') (h : forRange n s body = .ok r) : P n r := by
  induction n generalizing r with
  | zero => cases h; exact h0
  | succ n ih =>
    rw [forRange_succ] at h
    cases hn : forRange n s body with
    | error e => rw [hn] at h; cases h
    | ok s' =>
      rw [hn] at h
      exact hstep n s' r (by omega) (ih (fun i s s' hi => hstep i s s' (by omega)) hn) h

/-- Rule for a loop which either completes or is left by the failure `e`. -/
theorem forRange_or {α : Type} (P : ℕ → α → Prop) (Bad : ℕ → Prop) (e : Fault) {n : ℕ} {s : α} {body : α → ℕ → Res α}
    (h0 : P 0 s)
    (hstep : ∀ i s, i < n → P i s → (∃ s', body s i = .ok s' ∧ P (i + 1) s') ∨ (body s i = .error e ∧ Bad i)) :
    (∃ s', forRange n s body = .ok s' ∧ P n s') ∨ (forRange n s body = .error e ∧ ∃ i, i < n ∧ Bad i) := by
  induction n with
  | zero => exact Or.inl ⟨s, rfl, h0⟩
  | succ n ih =>
    rcases ih (fun i s hi => hstep i s (by omega)) with ⟨s', h, hP⟩ | ⟨h, i, hi, hb⟩
    · rw [forRange_succ, h]
      rcases hstep n s' (by omega) hP with h' | ⟨h', hb⟩
      · exact Or.inl h'
      · exact Or.inr ⟨h', n, by omega, hb⟩
    · exact Or.inr ⟨by rw [forRange_succ, h]; rfl, i, by omega, hb⟩

end Humoto
