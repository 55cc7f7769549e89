import Verif.Spec.Constraints
import Mathlib.Algebra.BigOperators.Intervals
import Mathlib.Algebra.BigOperators.Ring.Finset
import Mathlib.Algebra.Order.BigOperators.Group.Finset
import Mathlib.Tactic.Ring
import Mathlib.Tactic.Linarith

/-!
# Helper lemmas about constraints
-/

namespace Humoto

open Spec

set_option linter.unusedSectionVars false

variable {K : Type}

theorem ok_bind {α β : Type} (a : α) (f : α → Res β) : ((.ok a : Res α) >>= f) = f a := rfl
theorem error_bind {α β : Type} (e : Fault) (f : α → Res β) : ((.error e : Res α) >>= f) = .error e := rfl
theorem pure_eq_ok {α : Type} (a : α) : (pure a : Res α) = .ok a := rfl

theorem bind_eq_ok {α β : Type} {x : Res α} {f : α → Res β} {b : β} :
    (x >>= f) = .ok b ↔ ∃ a, x = .ok a ∧ f a = .ok b := by
  cases x with
  | error e => constructor
               · intro h; cases h
               · rintro ⟨a, h, _⟩; cases h
  | ok a => constructor
            · intro h; exact ⟨a, rfl, h⟩
            · rintro ⟨a', h, h'⟩; cases h; exact h'

namespace Vec
theorem get_ok {v : Vec K} {i : ℕ} (h : i < v.n) : v.get i = .ok (v.e i) := by simp [get, h]
theorem set_ok {v : Vec K} {i : ℕ} (h : i < v.n) (x : K) : v.set i x = .ok ⟨v.n, Function.update v.e i x⟩ := by
  simp [set, h]
theorem setSegment_ok {v w : Vec K} {off len : ℕ} (h : off + len ≤ v.n) (h' : w.n = len) :
    v.setSegment off len w =
      .ok ⟨v.n, fun i => if off ≤ i ∧ i < off + len then w.e (i - off) else v.e i⟩ := by
  simp [setSegment, h, h']
end Vec

namespace Mat
theorem get_ok {A : Mat K} {i j : ℕ} (h : i < A.rows) (h' : j < A.cols) : A.get i j = .ok (A.e i j) := by
  simp [get, h, h']
theorem set_ok {A : Mat K} {i j : ℕ} (h : i < A.rows) (h' : j < A.cols) (x : K) :
    A.set i j x = .ok ⟨A.rows, A.cols, fun r c => if r = i ∧ c = j then x else A.e r c⟩ := by
  simp [set, h, h']
theorem setBlock_ok {A B : Mat K} {r c h w : ℕ} (h1 : r + h ≤ A.rows) (h2 : c + w ≤ A.cols) (h3 : B.rows = h)
    (h4 : B.cols = w) :
    A.setBlock r c h w B = .ok ⟨A.rows, A.cols, fun i j =>
      if (r ≤ i ∧ i < r + h) ∧ (c ≤ j ∧ j < c + w) then B.e (i - r) (j - c) else A.e i j⟩ := by
  simp [setBlock, h1, h2, h3, h4]
end Mat

/-- Sum over a window. -/
theorem sum_window {M : Type} [AddCommMonoid M] (n off w : ℕ) (h : off + w ≤ n) (f : ℕ → M) :
    ∑ j ∈ Finset.range n, (if off ≤ j ∧ j < off + w then f j else 0) = ∑ j ∈ Finset.range w, f (off + j) := by
  rw [← Finset.sum_filter]
  have : (Finset.range n).filter (fun j => off ≤ j ∧ j < off + w) = Finset.Ico off (off + w) := by
    ext j
    simp only [Finset.mem_filter, Finset.mem_range, Finset.mem_Ico]
    omega
  rw [this, Finset.sum_Ico_eq_sum_range]
  simp

variable [Field K]

theorem numRows_eq (c : Ctr K) : c.numRows = rows c := by
  rcases c with ⟨t, n, d⟩; cases t <;> rfl

/-- Coefficient of the variable `j` in row `i`. -/
def coef (c : Ctr K) (i j : ℕ) : K :=
  match c.ctype.body with
  | .a => c.data.A.e i j
  | .as => if c.data.offset.toNat ≤ j ∧ j < c.data.offset.toNat + c.data.A.cols
      then c.data.A.e i (j - c.data.offset.toNat) else 0
  | .i => if j = c.data.idx.e i then 1 else 0
  | .gi => if j = c.data.idx.e i then c.data.gains.e i else 0

theorem sum_coef (c : Ctr K) (hwf : WellFormed c) (x : ℕ → K) (i : ℕ) (hi : i < rows c) :
    ∑ j ∈ Finset.range c.nvars, coef c i j * x j = lhs c x i := by
  obtain ⟨_, hbody⟩ := hwf
  rcases c with ⟨t, n, d⟩
  have hA : 0 < d.A.cols ∧ d.A.cols = n →
      ∑ j ∈ Finset.range n, d.A.e i j * x j = ∑ j ∈ Finset.range d.A.cols, d.A.e i j * x j := by
    rintro ⟨_, h⟩; rw [h]
  have hAS : 0 < d.A.cols ∧ 0 ≤ d.offset ∧ d.offset + (d.A.cols : ℤ) ≤ (n : ℤ) →
      ∑ j ∈ Finset.range n, (if d.offset.toNat ≤ j ∧ j < d.offset.toNat + d.A.cols
        then d.A.e i (j - d.offset.toNat) else 0) * x j =
      ∑ j ∈ Finset.range d.A.cols, d.A.e i j * x (d.offset.toNat + j) := by
    rintro ⟨_, h1, h2⟩
    have := sum_window n d.offset.toNat d.A.cols (by omega) (fun j => d.A.e i (j - d.offset.toNat) * x j)
    simp only [Nat.add_sub_cancel_left] at this
    rw [← this]
    apply Finset.sum_congr rfl
    intro j _
    split <;> simp
  have hI : ∀ v : K, d.idx.e i < n →
      ∑ j ∈ Finset.range n, (if j = d.idx.e i then v else 0) * x j = v * x (d.idx.e i) := by
    intro v h
    simp only [ite_mul, zero_mul, Finset.sum_ite_eq', Finset.mem_range, h, if_true]
  cases t <;> simp only [coef, lhs, CtrType.body] <;>
    first
    | exact hA hbody
    | exact hAS hbody
    | (simpa using hI 1 (hbody i hi))
    | exact hI _ (hbody.2 i hi)

theorem getProduct_ok (c : Ctr K) (hwf : WellFormed c) (x : Vec K) (hx : x.n = c.nvars) (i : ℕ) (hi : i < rows c) :
    c.getProduct i x = .ok (lhs c x.e i) := by
  obtain ⟨_, hbody⟩ := hwf
  rcases c with ⟨t, n, d⟩
  simp only at hx
  have hA : 0 < d.A.cols ∧ d.A.cols = n → i < d.A.rows → (i < d.A.rows ∧ d.A.cols = x.n) := by
    rintro ⟨_, h⟩ h'; exact ⟨h', h.trans hx.symm⟩
  have hAS : 0 < d.A.cols ∧ 0 ≤ d.offset ∧ d.offset + (d.A.cols : ℤ) ≤ (n : ℤ) → i < d.A.rows →
      (i < d.A.rows ∧ 0 ≤ d.offset ∧ d.offset + (d.A.cols : ℤ) ≤ (x.n : ℤ)) := by
    rintro ⟨_, h1, h2⟩ h'
    exact ⟨h', h1, by omega⟩
  cases t <;> simp only [Ctr.getProduct, lhs, CtrType.body] <;>
    first
    | (rw [require_true (hA hbody hi)]; rfl)
    | (rw [require_true (hAS hbody hi)]; rfl)
    | (rw [Vec.get_ok (by exact hi), ok_bind, Vec.get_ok (by have := hbody i hi; simp only at this; omega)])
    | (have hg : i < d.gains.n := by have := hbody.1; simp only at this; rw [this]; exact hi
       rw [Vec.get_ok hg, ok_bind, Vec.get_ok (by exact hi), ok_bind,
         Vec.get_ok (by have := hbody.2 i hi; simp only at this; omega)]
       rfl)

/-! ### Copying of bodies -/

/-- Result of writing the rows of a constraint to a matrix. -/
structure BodyCopied (c : Ctr K) (neg : Bool) (A A' : Mat K) (o : ℕ) : Prop where
  rows : A'.rows = A.rows
  cols : A'.cols = A.cols
  inside : ∀ i, i < Spec.rows c → ∀ j, j < c.nvars → A'.e (o + i) j = Ctr.signed neg (coef c i j)
  outside : ∀ i j, i < o ∨ o + Spec.rows c ≤ i → A'.e i j = A.e i j

/-- The loop of the simple bodies. -/
theorem copyIndices_ok (A : Mat K) (idx : Vec ℕ) (val : ℕ → K) (get : ℕ → Res K) (o n nv : ℕ)
    (hA : A.cols = nv) (hfit : o + n ≤ A.rows) (hn : idx.n = n) (hidx : ∀ i, i < n → idx.e i < nv)
    (hget : ∀ i, i < n → get i = .ok (val i)) :
    ∃ A', (do
        let A0 ← A.setBlock o 0 n nv (Mat.const n nv 0)
        forRange n A0 fun A i => do
          let k ← idx.get i
          let v ← get i
          A.set (o + i) k v) = .ok A' ∧ A'.rows = A.rows ∧ A'.cols = A.cols ∧
      (∀ i, i < n → ∀ j, j < nv → A'.e (o + i) j = if j = idx.e i then val i else 0) ∧
      (∀ i j, i < o ∨ o + n ≤ i → A'.e i j = A.e i j) := by
  rw [Mat.setBlock_ok (h := n) (w := nv) hfit (by omega) rfl rfl, ok_bind]
  refine forRange_post
    (P := fun k (M : Mat K) => M.rows = A.rows ∧ M.cols = A.cols ∧
      (∀ i, i < k → ∀ j, j < nv → M.e (o + i) j = if j = idx.e i then val i else 0) ∧
      (∀ i, k ≤ i → i < n → ∀ j, j < nv → M.e (o + i) j = 0) ∧
      (∀ i j, i < o ∨ o + n ≤ i → M.e i j = A.e i j)) ?_ ?_ ?_
  · refine ⟨rfl, rfl, fun i hi => absurd hi (by omega), ?_, ?_⟩
    · intro i _ hi j hj
      simp only [Mat.const]
      rw [if_pos (by omega)]
    · intro i j hij
      simp only
      rw [if_neg (by omega)]
  · rintro k M hk ⟨hr, hc, hin, hz, hout⟩
    refine ⟨⟨M.rows, M.cols, fun r c => if r = o + k ∧ c = idx.e k then val k else M.e r c⟩, ?_, hr, hc, ?_, ?_, ?_⟩
    · have := hidx k hk
      rw [Vec.get_ok (by omega), ok_bind, hget k hk, ok_bind, Mat.set_ok (by omega) (by omega)]
    · intro i hi j hj
      simp only
      by_cases hik : i = k
      · subst hik
        by_cases hjk : j = idx.e i
        · simp [hjk]
        · rw [if_neg (by simp [hjk]), hz i (by omega) hk j hj, if_neg hjk]
      · rw [if_neg (by omega)]
        exact hin i (by omega) j hj
    · intro i hi hi' j hj
      simp only
      rw [if_neg (by omega)]
      exact hz i (by omega) hi' j hj
    · intro i j hij
      simp only
      rw [if_neg (by omega)]
      exact hout i j hij
  · rintro A' ⟨h1, h2, h3, h4, h5⟩
    exact ⟨h1, h2, h3, h5⟩

theorem copyBody_ok (c : Ctr K) (hwf : WellFormed c) (neg : Bool) (A : Mat K) (hA : A.cols = c.nvars) (o : ℕ)
    (hfit : o + rows c ≤ A.rows) :
    ∃ A', c.copyBody neg A ⟨o, rows c⟩ = .ok A' ∧ BodyCopied c neg A A' o := by
  obtain ⟨_, hbody⟩ := hwf
  rcases c with ⟨t, n, d⟩
  simp only at hA
  have hcA : ∀ t, t.body = .a → rows ⟨t, n, d⟩ = d.A.rows → (0 < d.A.cols ∧ d.A.cols = n) → o + d.A.rows ≤ A.rows →
      ∃ A', (Ctr.mk t n d).copyBodyA neg A ⟨o, d.A.rows⟩ = .ok A' ∧ BodyCopied ⟨t, n, d⟩ neg A A' o := by
    rintro t ht hr ⟨_, hcols⟩ hfit
    simp only [Ctr.copyBodyA]
    rw [assertThat_true (by omega), ok_bind, Mat.setBlock_ok (B := ⟨d.A.rows, d.A.cols, fun i j => Ctr.signed neg (d.A.e i j)⟩) (r := o) (c := 0)
      (h := d.A.rows) (w := d.A.cols) (by omega) (by omega) rfl rfl]
    refine ⟨_, rfl, rfl, rfl, ?_, ?_⟩
    · intro i hi j hj
      simp only at hj ⊢
      rw [hr] at hi
      rw [if_pos (by omega)]
      simp [coef, ht]
    · intro i j hij
      simp only
      rw [hr] at hij
      rw [if_neg (by omega)]
  have hcAS : ∀ t, t.body = .as → rows ⟨t, n, d⟩ = d.A.rows →
      (0 < d.A.cols ∧ 0 ≤ d.offset ∧ d.offset + (d.A.cols : ℤ) ≤ (n : ℤ)) → o + d.A.rows ≤ A.rows →
      ∃ A', (Ctr.mk t n d).copyBodyAS neg A ⟨o, d.A.rows⟩ = .ok A' ∧ BodyCopied ⟨t, n, d⟩ neg A A' o := by
    rintro t ht hr ⟨_, h0, hcols⟩ hfit
    simp only [Ctr.copyBodyAS]
    rw [assertThat_true ⟨hA.symm, by omega⟩, ok_bind, require_true ⟨h0, hfit, True.intro⟩, ok_bind]
    refine ⟨_, rfl, rfl, rfl, ?_, ?_⟩
    · intro i hi j hj
      simp only at hj ⊢
      rw [hr] at hi
      rw [if_pos (by omega)]
      simp only [coef, ht, Nat.add_sub_cancel_left]
      by_cases h1 : j < d.offset.toNat
      · rw [if_pos h1, if_neg (by omega)]; simp [Ctr.signed]
      · rw [if_neg h1]
        by_cases h2 : j < d.offset.toNat + d.A.cols
        · rw [if_pos h2, if_pos (by omega)]
        · rw [if_neg h2, if_neg (by omega)]; simp [Ctr.signed]
    · intro i j hij
      simp only
      rw [hr] at hij
      rw [if_neg (by omega)]
  have hcI : ∀ t, t.body = .i → rows ⟨t, n, d⟩ = d.idx.n →
      (∀ i, i < d.idx.n → d.idx.e i < n) → o + d.idx.n ≤ A.rows →
      ∃ A', (Ctr.mk t n d).copyBodyI neg A ⟨o, d.idx.n⟩ = .ok A' ∧ BodyCopied ⟨t, n, d⟩ neg A A' o := by
    rintro t ht hr hidx hfit
    obtain ⟨A', h, h1, h2, h3, h4⟩ := copyIndices_ok A d.idx (fun _ => Ctr.signed neg 1)
      (fun _ => .ok (Ctr.signed neg 1)) o d.idx.n n hA hfit rfl hidx (fun _ _ => rfl)
    refine ⟨A', ?_, h1, h2, ?_, ?_⟩
    · simp only [Ctr.copyBodyI]
      rw [assertThat_true hA, ok_bind, assertThat_true True.intro, ok_bind]
      exact h
    · intro i hi j hj
      rw [hr] at hi
      rw [h3 i hi j hj]
      simp only [coef, ht]
      split <;> simp [Ctr.signed]
    · intro i j hij
      rw [hr] at hij
      exact h4 i j hij
  have hcGI : ∀ t, t.body = .gi → rows ⟨t, n, d⟩ = d.idx.n →
      (d.gains.n = d.idx.n ∧ ∀ i, i < d.idx.n → d.idx.e i < n) → o + d.idx.n ≤ A.rows →
      ∃ A', (Ctr.mk t n d).copyBodyGI neg A ⟨o, d.idx.n⟩ = .ok A' ∧ BodyCopied ⟨t, n, d⟩ neg A A' o := by
    rintro t ht hr ⟨hg, hidx⟩ hfit
    obtain ⟨A', h, h1, h2, h3, h4⟩ := copyIndices_ok A d.idx (fun i => Ctr.signed neg (d.gains.e i))
      (fun i => do let g ← d.gains.get i; pure (Ctr.signed neg g)) o d.idx.n n hA hfit rfl hidx
      (fun i hi => by rw [Vec.get_ok (by omega)]; rfl)
    refine ⟨A', ?_, h1, h2, ?_, ?_⟩
    · simp only [Ctr.copyBodyGI]
      rw [assertThat_true hA, ok_bind, assertThat_true True.intro, ok_bind]
      simpa only [bind_assoc, pure_bind] using h
    · intro i hi j hj
      rw [hr] at hi
      rw [h3 i hi j hj]
      simp only [coef, ht]
      split <;> simp [Ctr.signed]
    · intro i j hij
      rw [hr] at hij
      exact h4 i j hij
  cases t
  all_goals first
    | exact hcA _ rfl rfl hbody hfit
    | exact hcAS _ rfl rfl hbody hfit
    | exact hcI _ rfl rfl hbody hfit
    | exact hcGI _ rfl rfl hbody hfit

/-! ### Copying of bounds -/

/-- Value written to the lower bounds of a two-sided container. -/
def lbVal (c : Ctr K) (i : ℕ) : K := (lower c i).getD (-gInf K)
/-- Value written to the upper bounds of a two-sided container. -/
def ubVal (c : Ctr K) (i : ℕ) : K := (upper c i).getD (gInf K)

/-- Result of writing `n` values to a vector. -/
structure SegCopied (val : ℕ → K) (n : ℕ) (v v' : Vec K) (o : ℕ) : Prop where
  size : v'.n = v.n
  inside : ∀ i, i < n → v'.e (o + i) = val i
  outside : ∀ i, i < o ∨ o + n ≤ i → v'.e i = v.e i

theorem setSegment_copied (v w : Vec K) (o n : ℕ) (val : ℕ → K) (hfit : o + n ≤ v.n) (hw : w.n = n)
    (hval : ∀ i, i < n → w.e i = val i) :
    ∃ v', v.setSegment o n w = .ok v' ∧ SegCopied val n v v' o := by
  refine ⟨_, Vec.setSegment_ok hfit hw, rfl, ?_, ?_⟩
  · intro i hi
    simp only
    rw [if_pos (by omega), Nat.add_sub_cancel_left, hval i hi]
  · intro i hi
    simp only
    rw [if_neg (by omega)]

theorem copyBounds_ok (c : Ctr K) (hwf : WellFormed c) (lb ub : Vec K) (o : ℕ) (hl : o + rows c ≤ lb.n)
    (hu : o + rows c ≤ ub.n) :
    ∃ p, c.copyBounds lb ub ⟨o, rows c⟩ = .ok p ∧ SegCopied (lbVal c) (rows c) lb p.1 o ∧
      SegCopied (ubVal c) (rows c) ub p.2 o := by
  obtain ⟨hb, _⟩ := hwf
  have key : ∀ wl wu : Vec K, wl.n = rows c → wu.n = rows c → (∀ i, i < rows c → wl.e i = lbVal c i) →
      (∀ i, i < rows c → wu.e i = ubVal c i) →
      ∃ p, (do
          let lb' ← lb.setSegment o (rows c) wl
          let ub' ← ub.setSegment o (rows c) wu
          pure (lb', ub') : Res (Vec K × Vec K)) = .ok p ∧ SegCopied (lbVal c) (rows c) lb p.1 o ∧
        SegCopied (ubVal c) (rows c) ub p.2 o := by
    intro wl wu h1 h2 h3 h4
    obtain ⟨l', hl', hl''⟩ := setSegment_copied lb wl o (rows c) (lbVal c) hl h1 h3
    obtain ⟨u', hu', hu''⟩ := setSegment_copied ub wu o (rows c) (ubVal c) hu h2 h4
    exact ⟨(l', u'), by rw [hl', ok_bind, hu']; rfl, hl'', hu''⟩
  rcases c with ⟨t, n, d⟩
  cases t
  all_goals simp only [Ctr.copyBounds, CtrType.bounds]
  all_goals apply key
  all_goals first
    | exact hb
    | exact hb.1
    | exact hb.2
    | (simp only [Vec.const])
    | (intro i _; rfl)
  all_goals (intro i _; rfl)

end Humoto
