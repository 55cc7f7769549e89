import Verif.Lemmas.Constraints
import Verif.Props.ActiveSet
import Mathlib.Tactic.NormNum
import Mathlib.Data.Rat.Defs
import Mathlib.Algebra.Order.Ring.Rat
import Mathlib.Algebra.Field.Rat

/-!
# C05, C06: evaluation of constraints at a point
-/

namespace Humoto

open Spec

variable {K : Type} [Field K] [LinearOrder K] [IsStrictOrderedRing K]

set_option linter.unusedSectionVars false

/-- The loop over the rows writes the result of each row to its place. -/
theorem determineLoop_ok (c : Ctr K) (row : ℕ → Res Act) (f : ℕ → Act) (s : List Act) (l : Location)
    (hl : l.length = rows c) (hfit : l.offset + l.length ≤ s.length) (hrow : ∀ i, i < rows c → row i = .ok (f i)) :
    ∃ s', c.determineLoop row s l = .ok s' ∧ s'.length = s.length ∧
      (∀ i, i < rows c → s'[l.offset + i]? = some (f i)) ∧
      (∀ i, i < l.offset ∨ l.offset + l.length ≤ i → s'[i]? = s[i]?) := by
  unfold Ctr.determineLoop
  rw [assertThat_true (by rw [numRows_eq, hl]), ok_bind]
  refine forRange_post (P := fun k s' => List.length s' = s.length ∧
      (∀ i, i < k → s'[l.offset + i]? = some (f i)) ∧
      (∀ i, i < l.offset ∨ l.offset + l.length ≤ i → s'[i]? = s[i]?)) ?_ ?_ ?_
  · exact ⟨rfl, fun i hi => absurd hi (by omega), fun _ _ => rfl⟩
  · rintro k s' hk ⟨h1, h2, h3⟩
    refine ⟨s'.set (l.offset + k) (f k), ?_, by simpa using h1, ?_, ?_⟩
    · rw [hrow k (by omega), ok_bind, ActiveSetC.setAt, if_pos (by omega)]
    · intro i hi
      by_cases h : i = k
      · subst h; rw [List.getElem?_set_self (by omega)]
      · rw [List.getElem?_set_ne (by omega)]
        exact h2 i (by omega)
    · intro i hi
      rw [List.getElem?_set_ne (by omega)]
      exact h3 i hi
  · rintro s' ⟨h1, h2, h3⟩
    exact ⟨h1, fun i hi => h2 i (by omega), h3⟩

/-- Activation of a row computed by the code. -/
def codeAct (c : Ctr K) (x : ℕ → K) (i : ℕ) : Act :=
  match c.ctype.bounds with
  | .lu => if c.data.lb.e i > c.data.ub.e i then .undefined
      else if c.data.lb.e i = c.data.ub.e i then .equality
      else if lhs c x i ≤ c.data.lb.e i then .lowerBound
      else if lhs c x i ≥ c.data.ub.e i then .upperBound else .inactive
  | .l => if lhs c x i ≤ c.data.lb.e i then .lowerBound else .inactive
  | .u => if lhs c x i ≥ c.data.ub.e i then .upperBound else .inactive
  | .b | .b0 => .equality

theorem codeAct_correct (c : Ctr K) (x : ℕ → K) (i : ℕ) : ActivationCorrect c x i (codeAct c x i) := by
  have hb : ∀ v : K, lower c i = some v → upper c i = some v → ActivationCorrect c x i .equality := by
    intro v h1 h2
    have he : IsEqualityRow c i := ⟨v, h1, h2⟩
    refine ⟨by simp [he], ?_, by simp [he], by simp [he], by simp [he]⟩
    simp only [IsContradictoryRow, h1, h2, Option.some.injEq, reduceCtorEq, false_iff]
    rintro ⟨l, u, rfl, rfl, h⟩
    exact lt_irrefl _ h
  have hl : ∀ v : K, lower c i = some v → upper c i = none →
      ActivationCorrect c x i (if lhs c x i ≤ v then .lowerBound else .inactive) := by
    intro v h1 h2
    have he : ¬ IsEqualityRow c i := by rintro ⟨w, _, h⟩; rw [h2] at h; cases h
    have hc : ¬ IsContradictoryRow c i := by rintro ⟨w, w', _, h, _⟩; rw [h2] at h; cases h
    by_cases h : lhs c x i ≤ v
    · rw [if_pos h]
      exact ⟨by simp [he], by simp [hc], by simp [he, hc, h1, h], by simp [he, hc, h2],
        by simp [he, h1, h2, h]⟩
    · rw [if_neg h]
      exact ⟨by simp [he], by simp [hc], by simpa [he, hc, h1] using h, by simp [he, hc, h2],
        by simpa [he, h1, h2] using h⟩
  have hu : ∀ v : K, lower c i = none → upper c i = some v →
      ActivationCorrect c x i (if lhs c x i ≥ v then .upperBound else .inactive) := by
    intro v h1 h2
    have he : ¬ IsEqualityRow c i := by rintro ⟨w, h, _⟩; rw [h1] at h; cases h
    have hc : ¬ IsContradictoryRow c i := by rintro ⟨w, w', h, _, _⟩; rw [h1] at h; cases h
    by_cases h : lhs c x i ≥ v
    · rw [if_pos h]
      exact ⟨by simp [he], by simp [hc], by simp [he, hc, h1], by simpa [he, hc, h2] using h,
        by simpa [he, h1, h2] using h⟩
    · rw [if_neg h]
      exact ⟨by simp [he], by simp [hc], by simp [he, hc, h1], by simpa [he, hc, h2] using h,
        by simpa [he, h1, h2] using h⟩
  have hlu : ∀ v w : K, lower c i = some v → upper c i = some w →
      ActivationCorrect c x i (if v > w then .undefined
        else if v = w then .equality
        else if lhs c x i ≤ v then .lowerBound
        else if lhs c x i ≥ w then .upperBound else .inactive) := by
    intro v w h1 h2
    have he : IsEqualityRow c i ↔ v = w := by
      simp only [IsEqualityRow, h1, h2, Option.some.injEq]
      exact ⟨by rintro ⟨_, rfl, rfl⟩; rfl, fun h => ⟨v, rfl, h.symm⟩⟩
    have hc : IsContradictoryRow c i ↔ w < v := by
      simp only [IsContradictoryRow, h1, h2, Option.some.injEq]
      exact ⟨by rintro ⟨_, _, rfl, rfl, h⟩; exact h, fun h => ⟨v, w, rfl, rfl, h⟩⟩
    by_cases h3 : v > w
    · rw [if_pos h3]
      refine ⟨by simp [he]; exact ne_of_gt h3, by simpa [hc] using h3, ?_, ?_, ?_⟩
      · have : w < v := h3
        simp [hc, this]
      · have : w < v := h3
        simp [hc, this]
      · simp only [he, h1, h2, Option.some.injEq, reduceCtorEq, false_iff]
        rintro ⟨_, ha, hb⟩
        exact absurd (lt_trans (ha v rfl) (hb w rfl)) (not_lt.2 h3.le)
    · rw [if_neg h3]
      by_cases h4 : v = w
      · rw [if_pos h4]
        exact hb v h1 (by rw [h2, h4])
      · rw [if_neg h4]
        have h5 : v < w := lt_of_le_of_ne (not_lt.1 h3) h4
        have hc' : ¬ w < v := h3
        by_cases h6 : lhs c x i ≤ v
        · rw [if_pos h6]
          refine ⟨by simp [he, h4], by simpa [hc] using h5.le, by simpa [he, hc, h4, h1, h6] using h5.le, ?_, ?_⟩
          · simp only [he, hc, h4, h2, Option.some.injEq, reduceCtorEq, false_iff]
            rintro ⟨_, _, u, rfl, h⟩
            exact absurd (le_trans h h6) (not_le.2 h5)
          · simp only [he, h4, h1, Option.some.injEq, reduceCtorEq, false_iff]
            rintro ⟨_, ha, _⟩
            exact absurd (ha v rfl) (not_lt.2 h6)
        · rw [if_neg h6]
          have h6' := not_le.1 h6
          by_cases h7 : lhs c x i ≥ w
          · rw [if_pos h7]
            refine ⟨by simp [he, h4], by simpa [hc] using h5.le, ?_, ?_, ?_⟩
            · simpa [he, hc, h4, h1] using fun _ => h6'
            · simpa [he, hc, h4, h2] using ⟨h5.le, h7⟩
            · simp only [he, h4, h2, Option.some.injEq, reduceCtorEq, false_iff]
              rintro ⟨_, _, ha⟩
              exact absurd (ha w rfl) (not_lt.2 h7)
          · rw [if_neg h7]
            have h7' := not_le.1 h7
            refine ⟨by simp [he, h4], by simpa [hc] using h5.le, ?_, ?_, ?_⟩
            · simpa [he, hc, h4, h1] using fun _ => h6'
            · simpa [he, hc, h4, h2] using fun _ => h7'
            · simpa [he, h4, h1, h2] using ⟨h6', h7'⟩
  rcases c with ⟨t, n, d⟩
  cases t <;> simp only [codeAct, CtrType.bounds] <;>
    first
    | exact hb _ rfl rfl
    | exact hl _ rfl rfl
    | exact hu _ rfl rfl
    | exact hlu _ _ rfl rfl

/-- C05: whatever the kind of the constraint, its sizes and the point, every row gets exactly one correct activation at
its place in the active set of the level and the rest of the active set is not touched. -/
theorem C05_determineActiveSet (c : Ctr K) (hwf : WellFormed c) (s : List Act) (l : Location) (x : Vec K)
    (hx : x.n = c.nvars) (hl : l.length = rows c) (hfit : l.offset + l.length ≤ s.length) :
    ∃ s', c.determineActiveSet s l x = .ok s' ∧ s'.length = s.length ∧
      (∀ i, i < rows c → ∃ a, s'[l.offset + i]? = some a ∧ ActivationCorrect c x.e i a) ∧
      (∀ i, i < l.offset ∨ l.offset + l.length ≤ i → s'[i]? = s[i]?) := by
  suffices h : ∃ s', c.determineActiveSet s l x = .ok s' ∧ s'.length = s.length ∧
      (∀ i, i < rows c → s'[l.offset + i]? = some (codeAct c x.e i)) ∧
      (∀ i, i < l.offset ∨ l.offset + l.length ≤ i → s'[i]? = s[i]?) by
    obtain ⟨s', h1, h2, h3, h4⟩ := h
    exact ⟨s', h1, h2, fun i hi => ⟨_, h3 i hi, codeAct_correct c x.e i⟩, h4⟩
  have hp := getProduct_ok c hwf x hx
  have hb := hwf.1
  unfold Ctr.determineActiveSet
  cases ht : c.ctype.bounds
  case b0 | b =>
    simp only
    obtain ⟨r, h1, h2, h3, h4⟩ := C03_setLoc s l .equality hfit
    refine ⟨r, h1, h2, ?_, h4⟩
    intro i hi
    rw [h3 i (by omega)]
    simp [codeAct, ht]
  case l =>
    refine determineLoop_ok c _ _ s l hl hfit ?_
    intro i hi
    have hn : c.data.lb.n = rows c := by
      rcases c with ⟨t, n, d⟩; cases t <;> first | (cases ht; done) | exact hb
    simp only [Ctr.determineRowL, hp i hi, ok_bind, Vec.get_ok (show i < c.data.lb.n by omega), codeAct, ht]
    split <;> rfl
  case u =>
    refine determineLoop_ok c _ _ s l hl hfit ?_
    intro i hi
    have hn : c.data.ub.n = rows c := by
      rcases c with ⟨t, n, d⟩; cases t <;> first | (cases ht; done) | exact hb
    simp only [Ctr.determineRowU, hp i hi, ok_bind, Vec.get_ok (show i < c.data.ub.n by omega), codeAct, ht]
    split <;> rfl
  case lu =>
    refine determineLoop_ok c _ _ s l hl hfit ?_
    intro i hi
    have hn : c.data.lb.n = rows c ∧ c.data.ub.n = rows c := by
      rcases c with ⟨t, n, d⟩; cases t <;> first | (cases ht; done) | exact hb
    simp only [Ctr.determineRowLU, hp i hi, ok_bind, Vec.get_ok (show i < c.data.lb.n by omega),
      Vec.get_ok (show i < c.data.ub.n by omega), codeAct, ht]
    split
    · rfl
    · split
      · rfl
      · split
        · rfl
        · split <;> rfl

/-! ## C06 -/

/-- Differences computed by the code. -/
def codeDiffs (c : Ctr K) (x : ℕ → K) (i : ℕ) : K × K :=
  (((lower c i).map (lhs c x i - ·)).getD 0, ((upper c i).map (lhs c x i - ·)).getD 0)

theorem violationDiffs_ok (c : Ctr K) (hwf : WellFormed c) (x : Vec K) (hx : x.n = c.nvars) (i : ℕ) (hi : i < rows c) :
    c.violationDiffs x i = .ok (codeDiffs c x.e i) := by
  have hp := getProduct_ok c hwf x hx i hi
  have hb := hwf.1
  unfold Ctr.violationDiffs
  rw [hp, ok_bind]
  rcases c with ⟨t, n, d⟩
  cases t <;> simp only [CtrType.bounds, codeDiffs, lower, upper, Option.map, Option.getD, sub_zero] <;>
    first
    | rfl
    | (rw [Vec.get_ok (by have := hb; simp only [BoundsFit] at this; omega), ok_bind]; rfl)
    | (rw [Vec.get_ok (by have := hb.1; simp only at this; omega), ok_bind,
        Vec.get_ok (by have := hb.2; simp only at this; omega), ok_bind]; rfl)

theorem measure_correct (c : Ctr K) (x : ℕ → K) (i : ℕ) (hc : ¬ IsContradictoryRow c i) :
    ViolationCorrect c x i (ViolationsC.measure (codeDiffs c x i).1 (codeDiffs c x i).2) := by
  unfold codeDiffs ViolationsC.measure
  cases h1 : lower c i with
  | none =>
    cases h2 : upper c i with
    | none => exact ⟨by simp [RowHolds, h1, h2], by simp [h1], by simp [h2]⟩
    | some u =>
      simp only [Option.map, Option.getD, ge_iff_le, le_refl, if_true]
      by_cases h : lhs c x i - u ≤ 0
      · have h' : lhs c x i ≤ u := by linarith
        refine ⟨by simpa [h, RowHolds, h1, h2] using h', by simp [h1], ?_⟩
        intro u' hu' hlt
        rw [h2] at hu'; cases hu'
        linarith
      · have h' : u < lhs c x i := by linarith
        refine ⟨?_, by simp [h1], ?_⟩
        · simp only [h, if_false, RowHolds, h1, h2, Option.some.injEq]
          constructor
          · intro h0; linarith
          · rintro ⟨_, h0⟩; linarith [h0 u rfl]
        · intro u' hu' hlt
          rw [h2] at hu'; cases hu'
          simp only [h, if_false, true_and]
          linarith
  | some l =>
    have hcl : ∀ u, upper c i = some u → l ≤ u := by
      intro u hu
      by_contra h
      exact hc ⟨l, u, h1, hu, not_le.1 h⟩
    simp only [Option.map, Option.getD]
    by_cases hl : lhs c x i - l ≥ 0
    · have hl' : l ≤ lhs c x i := by linarith
      simp only [hl, if_true]
      cases h2 : upper c i with
      | none =>
        refine ⟨by simpa [RowHolds, h1, h2] using hl', ?_, by simp [h2]⟩
        intro l' h' hlt
        rw [h1] at h'; cases h'
        linarith
      | some u =>
        simp only
        by_cases h : lhs c x i - u ≤ 0
        · have h' : lhs c x i ≤ u := by linarith
          refine ⟨by simpa [h, RowHolds, h1, h2] using ⟨hl', h'⟩, ?_, ?_⟩
          · intro l' hl'' hlt
            rw [h1] at hl''; cases hl''
            linarith
          · intro u' hu' hlt
            rw [h2] at hu'; cases hu'
            linarith
        · have h' : u < lhs c x i := by linarith
          simp only [h, if_false]
          refine ⟨?_, ?_, ?_⟩
          · simp only [RowHolds, h1, h2, Option.some.injEq]
            constructor
            · intro h0; linarith
            · rintro ⟨_, h0⟩; linarith [h0 u rfl]
          · intro l' hl'' hlt
            rw [h1] at hl''; cases hl''
            linarith
          · intro u' hu' hlt
            rw [h2] at hu'; cases hu'
            exact ⟨rfl, by linarith⟩
    · have hl' : lhs c x i < l := by linarith
      simp only [hl, if_false]
      refine ⟨?_, ?_, ?_⟩
      · simp only [RowHolds, h1, Option.some.injEq]
        constructor
        · intro h0; linarith
        · rintro ⟨h0, _⟩; linarith [h0 l rfl]
      · intro l' hl'' hlt
        rw [h1] at hl''; cases hl''
        exact ⟨rfl, by linarith⟩
      · intro u' hu' hlt
        linarith [hcl u' hu']

/-- What is written for each row. -/
theorem computeViolations_exact (c : Ctr K) (hwf : WellFormed c) (v : ViolationsC K) (l : Location) (x : Vec K)
    (hx : x.n = c.nvars) (hl : l.length = rows c) (hfit : l.offset + l.length ≤ v.data.n)
    (hlow : v.lower.n = v.data.n) (hupp : v.upper.n = v.data.n) :
    ∃ v', c.computeViolations v l x = .ok v' ∧ v'.data.n = v.data.n ∧ v'.lower.n = v.data.n ∧ v'.upper.n = v.data.n ∧
      (∀ i, i < rows c → v'.data.e (l.offset + i) = ViolationsC.measure (codeDiffs c x.e i).1 (codeDiffs c x.e i).2 ∧
        v'.lower.e (l.offset + i) = (codeDiffs c x.e i).1 ∧ v'.upper.e (l.offset + i) = (codeDiffs c x.e i).2) ∧
      (∀ i, i < l.offset ∨ l.offset + l.length ≤ i →
        v'.data.e i = v.data.e i ∧ v'.lower.e i = v.lower.e i ∧ v'.upper.e i = v.upper.e i) := by
  unfold Ctr.computeViolations
  rw [assertThat_true (by rw [numRows_eq, hl]), ok_bind]
  refine forRange_post (P := fun k (w : ViolationsC K) =>
      (w.data.n = v.data.n ∧ w.lower.n = v.data.n ∧ w.upper.n = v.data.n) ∧
      (∀ i, i < k → w.data.e (l.offset + i) = ViolationsC.measure (codeDiffs c x.e i).1 (codeDiffs c x.e i).2 ∧
        w.lower.e (l.offset + i) = (codeDiffs c x.e i).1 ∧ w.upper.e (l.offset + i) = (codeDiffs c x.e i).2) ∧
      (∀ i, i < l.offset ∨ l.offset + l.length ≤ i →
        w.data.e i = v.data.e i ∧ w.lower.e i = v.lower.e i ∧ w.upper.e i = v.upper.e i)) ?_ ?_ ?_
  · exact ⟨⟨rfl, hlow, hupp⟩, fun i hi => absurd hi (by omega), fun _ _ => ⟨rfl, rfl, rfl⟩⟩
  · rintro k w hk ⟨⟨h1, h2, h3⟩, h4, h5⟩
    rw [violationDiffs_ok c hwf x hx k (by omega), ok_bind]
    refine ⟨⟨⟨w.data.n, Function.update w.data.e (l.offset + k)
        (ViolationsC.measure (codeDiffs c x.e k).1 (codeDiffs c x.e k).2)⟩,
      ⟨w.lower.n, Function.update w.lower.e (l.offset + k) (codeDiffs c x.e k).1⟩,
      ⟨w.upper.n, Function.update w.upper.e (l.offset + k) (codeDiffs c x.e k).2⟩⟩, ?_, ⟨h1, h2, h3⟩, ?_, ?_⟩
    · unfold ViolationsC.set
      rw [assertThat_true (by omega), ok_bind, Vec.set_ok (by omega), ok_bind, Vec.set_ok (by omega), ok_bind,
        Vec.set_ok (by omega), ok_bind]
      rfl
    · intro i hi
      by_cases h : i = k
      · subst h; simp
      · have hne : l.offset + i ≠ l.offset + k := by omega
        simp only [Function.update_of_ne hne]
        exact h4 i (by omega)
    · intro i hi
      have hne : i ≠ l.offset + k := by omega
      simp only [Function.update_of_ne hne]
      exact h5 i hi
  · rintro w ⟨⟨h1, h2, h3⟩, h4, h5⟩
    exact ⟨h1, h2, h3, fun i hi => h4 i (by omega), h5⟩

/-- C06: for every kind of constraint, every row whose bounds do not contradict each other gets the correct violation at
its place, and no other entry changes. The differences to the individual bounds are available too; they are zero if there is no
bound. -/
theorem C06_computeViolations (c : Ctr K) (hwf : WellFormed c) (v : ViolationsC K) (l : Location) (x : Vec K)
    (hx : x.n = c.nvars) (hl : l.length = rows c) (hfit : l.offset + l.length ≤ v.data.n)
    (hlow : v.lower.n = v.data.n) (hupp : v.upper.n = v.data.n) :
    ∃ v', c.computeViolations v l x = .ok v' ∧ v'.data.n = v.data.n ∧ v'.lower.n = v.data.n ∧ v'.upper.n = v.data.n ∧
      (∀ i, i < rows c → ¬ IsContradictoryRow c i → ViolationCorrect c x.e i (v'.data.e (l.offset + i))) ∧
      (∀ i b, i < rows c → lower c i = some b → v'.lower.e (l.offset + i) = lhs c x.e i - b) ∧
      (∀ i b, i < rows c → upper c i = some b → v'.upper.e (l.offset + i) = lhs c x.e i - b) ∧
      (∀ i, i < rows c → lower c i = none → v'.lower.e (l.offset + i) = 0) ∧
      (∀ i, i < rows c → upper c i = none → v'.upper.e (l.offset + i) = 0) ∧
      (∀ i, i < l.offset ∨ l.offset + l.length ≤ i →
        v'.data.e i = v.data.e i ∧ v'.lower.e i = v.lower.e i ∧ v'.upper.e i = v.upper.e i) := by
  obtain ⟨v', h0, h1, h2, h3, h4, h5⟩ := computeViolations_exact c hwf v l x hx hl hfit hlow hupp
  refine ⟨v', h0, h1, h2, h3, ?_, ?_, ?_, ?_, ?_, h5⟩
  · intro i hi hc
    rw [(h4 i hi).1]
    exact measure_correct c x.e i hc
  · intro i b hi hb
    rw [(h4 i hi).2.1]
    simp [codeDiffs, hb]
  · intro i b hi hb
    rw [(h4 i hi).2.2]
    simp [codeDiffs, hb]
  · intro i hi hb
    rw [(h4 i hi).2.1]
    simp [codeDiffs, hb]
  · intro i hi hb
    rw [(h4 i hi).2.2]
    simp [codeDiffs, hb]

/-! ## Examples -/

/-- Two-sided rows `0 ≤ x₀ + x₁ ≤ 2`, `3 ≤ x₀ - x₁ ≤ 3`. -/
def exampleALU : Ctr ℚ :=
  ⟨.alu, 2, ⟨Mat.ofRows 2 [[1, 1], [1, -1]], 0, Vec.ofList [], Vec.ofList [], Vec.ofList [], Vec.ofList [0, 3],
    Vec.ofList [2, 3]⟩⟩

theorem exampleALU_wf : WellFormed exampleALU := by
  simp [WellFormed, BoundsFit, BodyFits, exampleALU, Spec.rows, Mat.ofRows, Vec.ofList]

example : ¬ IsContradictoryRow exampleALU 0 := by
  simp [IsContradictoryRow, lower, upper, exampleALU, Vec.ofList]

example : (exampleALU.determineActiveSet [.undefined, .undefined, .undefined] ⟨1, 2⟩ (Vec.ofList [5, -2])) =
    .ok [.undefined, .upperBound, .equality] := by
  simp [exampleALU, Ctr.determineActiveSet, CtrType.bounds, Ctr.determineLoop, Ctr.numRows, CtrType.body, Mat.ofRows,
    Vec.ofList, forRange, Ctr.determineRowLU, Vec.get, List.range_succ, Ctr.getProduct, bind, Except.bind, pure,
    Except.pure, Finset.sum_range_succ, ActiveSetC.setAt]
  norm_num

end Humoto
