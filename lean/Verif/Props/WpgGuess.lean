import Verif.Model.WpgTasks
import Verif.Props.ActiveSet
import Verif.Lemmas.Constraints

/-!
# C82: what the tasks on the footsteps and the centre of pressure guess about their active constraints

The guess is made from the active set determined when the previous problem was solved (`a`, two entries per step or
per interval).
-/

namespace Humoto

namespace Wpg

variable {env : TaskEnv} {a : ActiveSetC}

/-- The guess of the task on the footsteps: fixed footsteps are equalities; otherwise nothing is active the first time,
the active set is kept as long as the number of steps does not change, its first step is forgotten when the number of
steps decreases, and the new steps are inactive when it increases. -/
theorem C82_footsteps_guess {n : ℕ} (hn : (env.structure_.location footposId).length = n) :
    (∃ g, footstepBoundsGuess true env a = .ok g ∧ g.length = n ∧ ∀ x ∈ g, x = .equality) ∧
    (a.length = 0 → ∃ g, footstepBoundsGuess false env a = .ok g ∧ g.length = n ∧ ∀ x ∈ g, x = .inactive) ∧
    (a.length = n → footstepBoundsGuess false env a = .ok a) ∧
    (n < a.length → 2 ≤ a.length → footstepBoundsGuess false env a = .ok (a.drop 2)) ∧
    (a.length ≤ n → ∃ g, footstepBoundsGuess false env a = .ok g ∧ g.length = n ∧ (∀ i, i < a.length → g[i]? = a[i]?) ∧
      ∀ i, a.length ≤ i → i < n → g[i]? = some .inactive) := by
  subst hn
  refine ⟨⟨_, rfl, by simp [ActiveSetC.initWith], fun x hx => List.eq_of_mem_replicate hx⟩, fun h0 => ?_, fun h1 => ?_, fun h2 h3 => ?_,
    fun h4 => ?_⟩
  · refine ⟨ActiveSetC.initWith _ .inactive, ?_, List.length_replicate, fun x hx => List.eq_of_mem_replicate hx⟩
    simp [footstepBoundsGuess, h0]
    rfl
  · unfold footstepBoundsGuess
    simp only [Bool.false_eq_true, if_false]
    split
    · next h0 =>
      obtain rfl := List.eq_nil_of_length_eq_zero h0
      rw [← h1]; rfl
    · first | rfl | (rw [if_pos h1]; rfl)
  · unfold footstepBoundsGuess
    simp only [Bool.false_eq_true, if_false]
    rw [if_neg (by omega), if_neg (by omega), if_pos h2, C03_initFrom [] a ⟨2, a.length - 2⟩ (by show 2 + (a.length - 2) ≤ _; omega)]
    show Except.ok ((a.drop 2).take (a.length - 2)) = _
    rw [List.take_of_length_le (by simp)]
  · unfold footstepBoundsGuess
    simp only [Bool.false_eq_true, if_false]
    split
    · next h0 =>
      refine ⟨_, rfl, by simp [ActiveSetC.initWith], fun i hi => by omega, fun i _ hi => ?_⟩
      simp [ActiveSetC.initWith, hi]
    split
    · next h1 => exact ⟨_, rfl, h1, fun i _ => rfl, fun i h h' => by omega⟩
    rw [if_neg (by omega)]
    obtain ⟨g, hg, e1, e2, e3⟩ := C03_copyTo_partial (ActiveSetC.initWith (env.structure_.location footposId).length .inactive) a
      ⟨0, a.length⟩ rfl (by simp [ActiveSetC.initWith]; omega)
    refine ⟨g, hg, by simpa [ActiveSetC.initWith] using e1, fun i hi => by simpa using e2 i hi, fun i hi hi' => ?_⟩
    rw [e3 i (Or.inr (by simpa using hi))]
    simp [ActiveSetC.initWith, hi']

/-- The guess of the task on the centre of pressure: nothing is active the first time; after that the active set is
shifted by one interval and the last interval is inactive. The number of intervals may not change. -/
theorem C82_cop_guess {n : ℕ} (hn : (env.structure_.location copId).length = n) :
    (a.length = 0 → ∃ g, copBoundsGuess env a = .ok g ∧ g.length = n ∧ ∀ x ∈ g, x = .inactive) ∧
    (a.length = n → 2 < n → ∃ g, copBoundsGuess env a = .ok g ∧ g.length = n ∧ (∀ i, i < n - 2 → g[i]? = a[i + 2]?) ∧
      ∀ i, n - 2 ≤ i → i < n → g[i]? = some .inactive) ∧
    (a.length ≠ 0 → a.length ≠ n → copBoundsGuess env a = .error .thrown) := by
  subst hn
  refine ⟨fun h0 => ?_, fun h1 h2 => ?_, fun h3 h4 => ?_⟩
  · refine ⟨ActiveSetC.initWith _ .inactive, ?_, List.length_replicate, fun x hx => List.eq_of_mem_replicate hx⟩
    simp [copBoundsGuess, h0]
    rfl
  · unfold copBoundsGuess
    simp only
    rw [if_neg (by omega), assertThat_true h1, ok_bind, ← h1]
    obtain ⟨g, e, e1, e2, e3⟩ := C02_shift a 2 .inactive (by omega)
    exact ⟨g, e, e1, e2, e3⟩
  · unfold copBoundsGuess
    simp only
    rw [if_neg h3, assertThat_false h4]
    rfl

/-- Two steps were active, one of them is over; an interval of the preview is over. -/
example {s : SolutionStructure} (e : env.structure_ = s) (h : (s.location footposId).length = 2) :
    footstepBoundsGuess false env [.lowerBound, .inactive, .upperBound, .lowerBound] = .ok [.upperBound, .lowerBound] := by
  subst e
  exact (C82_footsteps_guess h).2.2.2.1 (by decide) (by decide)

end Wpg

end Humoto
