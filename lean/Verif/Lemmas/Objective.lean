import Verif.Lemmas.Gram
import Verif.Lemmas.Level
import Verif.Spec.Objective
import Mathlib.Tactic.Ring
import Mathlib.Tactic.LinearCombination
import Mathlib.Algebra.BigOperators.Ring.Finset

/-!
# Helper lemmas about objectives
-/

namespace Humoto

open Spec

set_option linter.unusedSectionVars false

variable {E K : Type} [Field K]

/-- Entry of `A'*A` of a task. -/
def gram (c : Ctr K) (i j : ℕ) : K := ∑ r ∈ Finset.range (rows c), coef c r i * coef c r j

/-- Entry of `A'*b` of a task. -/
def atb (c : Ctr K) (j : ℕ) : K := ∑ r ∈ Finset.range (rows c), coef c r j * target c r

/-- The lower triangle of `H` is that of `S`. -/
structure LowerIs (H : Mat K) (nv : ℕ) (S : ℕ → ℕ → K) : Prop where
  rows : H.rows = nv
  cols : H.cols = nv
  e : ∀ i j, j ≤ i → i < nv → H.e i j = S i j

theorem addATADiag_ok (c : Ctr K) (w : ℕ → Res K) (v : ℕ → K) (hw : ∀ i, i < c.data.idx.n → w i = .ok (v i))
    (H : Mat K) {nv : ℕ} (hi : ∀ i, i < c.data.idx.n → c.data.idx.e i < nv) {S : ℕ → ℕ → K} (hH : LowerIs H nv S) :
    ∃ R, c.addATADiag w H = .ok R ∧ LowerIs R nv (fun i j => S i j +
      ∑ r ∈ Finset.range c.data.idx.n, if i = c.data.idx.e r ∧ j = c.data.idx.e r then v r else 0) := by
  refine forRange_post (P := fun k R => LowerIs R nv (fun i j => S i j +
      ∑ r ∈ Finset.range k, if i = c.data.idx.e r ∧ j = c.data.idx.e r then v r else 0)) ?_ ?_ ?_
  · simpa using hH
  · rintro k R hk ⟨h1, h2, h3⟩
    have hik := hi k hk
    rw [Vec.get_ok hk, ok_bind, hw k hk, ok_bind, Mat.get_ok (by omega) (by omega), ok_bind]
    refine ⟨_, Mat.set_ok (by omega) (by omega) _, h1, h2, ?_⟩
    intro i j hij hin
    simp only [Finset.sum_range_succ]
    by_cases h : i = c.data.idx.e k ∧ j = c.data.idx.e k
    · rw [if_pos h, if_pos h, h3 _ _ (le_refl _) hik, h.1, h.2, add_assoc]
    · rw [if_neg h, if_neg h, h3 i j hij hin, add_zero]
  · exact fun _ h => h

theorem lowerIs_congr {H : Mat K} {nv : ℕ} {S T : ℕ → ℕ → K} (h : LowerIs H nv S)
    (e : ∀ i j, j ≤ i → i < nv → S i j = T i j) : LowerIs H nv T :=
  ⟨h.rows, h.cols, fun i j hij hi => by rw [h.e i j hij hi, e i j hij hi]⟩

theorem gram_a {c : Ctr K} (hb : c.ctype.body = .a) (i j : ℕ) : gram c i j = gramE c.data.A i j := by
  rcases c with ⟨t, n, d⟩
  cases t <;> simp only [CtrType.body, reduceCtorEq] at hb <;> rfl

theorem gram_as {c : Ctr K} (hb : c.ctype.body = .as) (i j : ℕ) (hij : j ≤ i) :
    gram c i j = if c.data.offset.toNat ≤ j ∧ j ≤ i ∧ i < c.data.offset.toNat + c.data.A.cols
      then gramE c.data.A (i - c.data.offset.toNat) (j - c.data.offset.toNat) else 0 := by
  have : ∀ d : CtrData K, (∑ r ∈ Finset.range d.A.rows,
      (if d.offset.toNat ≤ i ∧ i < d.offset.toNat + d.A.cols then d.A.e r (i - d.offset.toNat) else 0) *
      (if d.offset.toNat ≤ j ∧ j < d.offset.toNat + d.A.cols then d.A.e r (j - d.offset.toNat) else 0)) =
      if d.offset.toNat ≤ j ∧ j ≤ i ∧ i < d.offset.toNat + d.A.cols
      then gramE d.A (i - d.offset.toNat) (j - d.offset.toNat) else 0 := by
    intro d
    by_cases h : d.offset.toNat ≤ j ∧ j ≤ i ∧ i < d.offset.toNat + d.A.cols
    · rw [if_pos h]
      refine Finset.sum_congr rfl fun r _ => ?_
      rw [if_pos (by omega), if_pos (by omega)]
    · rw [if_neg h]
      refine Finset.sum_eq_zero fun r _ => ?_
      by_cases h1 : d.offset.toNat ≤ i ∧ i < d.offset.toNat + d.A.cols
      · rw [if_neg (c := d.offset.toNat ≤ j ∧ j < d.offset.toNat + d.A.cols) (by omega), mul_zero]
      · rw [if_neg h1, zero_mul]
  rcases c with ⟨t, n, d⟩
  cases t <;> simp only [CtrType.body, reduceCtorEq] at hb <;> exact this d

theorem gram_diag {c : Ctr K} (v : ℕ → K) (hr : rows c = c.data.idx.n)
    (hc : ∀ r j, coef c r j = if j = c.data.idx.e r then v r else 0) (i j : ℕ) :
    gram c i j = ∑ r ∈ Finset.range c.data.idx.n, if i = c.data.idx.e r ∧ j = c.data.idx.e r then v r * v r else 0 := by
  unfold gram
  rw [hr]
  refine Finset.sum_congr rfl fun r _ => ?_
  rw [hc, hc]
  by_cases h1 : i = c.data.idx.e r <;> by_cases h2 : j = c.data.idx.e r <;> simp [h1, h2]

theorem bodyGetATA_ok (c : Ctr K) (hwf : WellFormed c) (z : ℕ → ℕ → K) :
    ∃ H, c.bodyGetATA z = .ok H ∧ LowerIs H c.nvars (gram c) := by
  unfold Ctr.bodyGetATA
  cases hb : c.ctype.body with
  | a =>
    have hn : c.data.A.cols = c.nvars := by
      have := hwf.2
      rcases c with ⟨t, n, d⟩
      cases t <;> simp only [CtrType.body, reduceCtorEq] at hb <;> exact this.2
    obtain ⟨R, h0, h1, h2, h3⟩ := getATA_ok z c.data.A
    refine ⟨R, h0, by omega, by omega, fun i j hij hi => ?_⟩
    rw [h3, if_pos ⟨hij, by omega⟩, gram_a hb]
  | as =>
    have hn : 0 ≤ c.data.offset ∧ c.data.offset + (c.data.A.cols : ℤ) ≤ (c.nvars : ℤ) := by
      have := hwf.2
      rcases c with ⟨t, n, d⟩
      cases t <;> simp only [CtrType.body, reduceCtorEq] at hb <;> exact this.2
    obtain ⟨R, h0, h1, h2, h3⟩ := getATAOffset_ok z c.data.A c.data.offset c.nvars hn.1 hn.2
    refine ⟨R, h0, h1, h2, fun i j hij hi => ?_⟩
    rw [h3, gram_as hb i j hij, if_pos (c := j ≤ i) hij]
  | i =>
    have hn : (∀ i, i < c.data.idx.n → c.data.idx.e i < c.nvars) ∧ rows c = c.data.idx.n ∧
        ∀ r j, coef c r j = if j = c.data.idx.e r then 1 else 0 := by
      have := hwf.2
      rcases c with ⟨t, n, d⟩
      cases t <;> simp only [CtrType.body, reduceCtorEq] at hb <;> exact ⟨this, rfl, fun _ _ => rfl⟩
    obtain ⟨R, h0, h1⟩ := addATADiag_ok c (fun _ => pure 1) (fun _ => 1) (fun _ _ => rfl)
      ⟨c.nvars, c.nvars, fun i j => if j ≤ i then 0 else z i j⟩ hn.1 (S := fun _ _ => 0)
      ⟨rfl, rfl, fun i j hij _ => if_pos hij⟩
    refine ⟨R, h0, lowerIs_congr h1 fun i j _ _ => ?_⟩
    rw [gram_diag _ hn.2.1 hn.2.2, zero_add, mul_one]
  | gi =>
    have hn : (∀ i, i < c.data.idx.n → c.data.idx.e i < c.nvars) ∧ rows c = c.data.idx.n ∧
        (∀ r j, coef c r j = if j = c.data.idx.e r then c.data.gains.e r else 0) ∧ c.data.gains.n = c.data.idx.n := by
      have := hwf.2
      rcases c with ⟨t, n, d⟩
      cases t <;> simp only [CtrType.body, reduceCtorEq] at hb <;> exact ⟨this.2, rfl, fun _ _ => rfl, this.1⟩
    obtain ⟨R, h0, h1⟩ := addATADiag_ok c c.gainSq (fun r => c.data.gains.e r * c.data.gains.e r)
      (fun i hi => by rw [Ctr.gainSq, Vec.get_ok (by omega), ok_bind]; rfl)
      ⟨c.nvars, c.nvars, fun i j => if j ≤ i then 0 else z i j⟩ hn.1 (S := fun _ _ => 0)
      ⟨rfl, rfl, fun i j hij _ => if_pos hij⟩
    refine ⟨R, h0, lowerIs_congr h1 fun i j _ _ => ?_⟩
    rw [gram_diag _ hn.2.1 hn.2.2.1, zero_add]

theorem bodyAddATA_ok (c : Ctr K) (hwf : WellFormed c) (H : Mat K) {S : ℕ → ℕ → K} (hH : LowerIs H c.nvars S) :
    ∃ R, c.bodyAddATA H = .ok R ∧ LowerIs R c.nvars (fun i j => S i j + gram c i j) := by
  obtain ⟨hr, hc, he⟩ := hH
  unfold Ctr.bodyAddATA
  cases hb : c.ctype.body with
  | a =>
    have hn : c.data.A.cols = c.nvars := by
      have := hwf.2
      rcases c with ⟨t, n, d⟩
      cases t <;> simp only [CtrType.body, reduceCtorEq] at hb <;> exact this.2
    obtain ⟨R, h0, h1, h2, h3⟩ := addATA_ok H c.data.A (by omega) (by omega)
    refine ⟨R, h0, by omega, by omega, fun i j hij hi => ?_⟩
    rw [h3, if_pos ⟨hij, by omega⟩, gram_a hb, he i j hij hi]
  | as =>
    have hn : 0 ≤ c.data.offset ∧ c.data.offset + (c.data.A.cols : ℤ) ≤ (c.nvars : ℤ) := by
      have := hwf.2
      rcases c with ⟨t, n, d⟩
      cases t <;> simp only [CtrType.body, reduceCtorEq] at hb <;> exact this.2
    obtain ⟨R, h0, h1, h2, h3⟩ := addATAOffset_ok H c.data.A c.data.offset hn.1 (by rw [hr]; exact hn.2)
      (by rw [hc]; exact hn.2)
    refine ⟨R, h0, by omega, by omega, fun i j hij hi => ?_⟩
    rw [h3, gram_as hb i j hij, he i j hij hi]
    split <;> simp
  | i =>
    have hn : (∀ i, i < c.data.idx.n → c.data.idx.e i < c.nvars) ∧ rows c = c.data.idx.n ∧
        ∀ r j, coef c r j = if j = c.data.idx.e r then 1 else 0 := by
      have := hwf.2
      rcases c with ⟨t, n, d⟩
      cases t <;> simp only [CtrType.body, reduceCtorEq] at hb <;> exact ⟨this, rfl, fun _ _ => rfl⟩
    obtain ⟨R, h0, h1⟩ := addATADiag_ok c (fun _ => pure 1) (fun _ => 1) (fun _ _ => rfl) H hn.1 ⟨hr, hc, he⟩
    refine ⟨R, h0, lowerIs_congr h1 fun i j _ _ => ?_⟩
    rw [gram_diag _ hn.2.1 hn.2.2, mul_one]
  | gi =>
    have hn : (∀ i, i < c.data.idx.n → c.data.idx.e i < c.nvars) ∧ rows c = c.data.idx.n ∧
        (∀ r j, coef c r j = if j = c.data.idx.e r then c.data.gains.e r else 0) ∧ c.data.gains.n = c.data.idx.n := by
      have := hwf.2
      rcases c with ⟨t, n, d⟩
      cases t <;> simp only [CtrType.body, reduceCtorEq] at hb <;> exact ⟨this.2, rfl, fun _ _ => rfl, this.1⟩
    obtain ⟨R, h0, h1⟩ := addATADiag_ok c c.gainSq (fun r => c.data.gains.e r * c.data.gains.e r)
      (fun i hi => by rw [Ctr.gainSq, Vec.get_ok (by omega), ok_bind]; rfl) H hn.1 ⟨hr, hc, he⟩
    refine ⟨R, h0, lowerIs_congr h1 fun i j _ _ => ?_⟩
    rw [gram_diag _ hn.2.1 hn.2.2.1]

/-- The entries of `g` are those of `t`. -/
structure VecIs (g : Vec K) (nv : ℕ) (t : ℕ → K) : Prop where
  n : g.n = nv
  e : ∀ j, j < nv → g.e j = t j

theorem addATbGI_ok (c : Ctr K) (g : Vec K) {nv : ℕ} {t : ℕ → K} (hg : VecIs g nv t)
    (hi : ∀ i, i < c.data.idx.n → c.data.idx.e i < nv) (h1 : c.data.gains.n = c.data.idx.n)
    (h2 : c.data.b.n = c.data.idx.n) : ∃ g', c.addATbGI g = .ok g' ∧ VecIs g' nv (fun j => t j +
      ∑ r ∈ Finset.range c.data.idx.n, if j = c.data.idx.e r then c.data.gains.e r * c.data.b.e r else 0) := by
  refine forRange_post (P := fun k g => VecIs g nv (fun j => t j +
      ∑ r ∈ Finset.range k, if j = c.data.idx.e r then c.data.gains.e r * c.data.b.e r else 0)) ?_ ?_ ?_
  · simpa using hg
  · rintro k g hk ⟨g1, g2⟩
    have hik := hi k hk
    rw [Vec.get_ok hk, ok_bind, Vec.get_ok (by omega), ok_bind, Vec.get_ok (by omega), ok_bind,
      Vec.get_ok (by omega), ok_bind]
    refine ⟨_, Vec.set_ok (by omega) _, g1, ?_⟩
    intro j hj
    simp only [Finset.sum_range_succ]
    by_cases h : j = c.data.idx.e k
    · subst h
      simp only [Function.update_self, if_true]
      rw [g2 _ hj, add_assoc]
    · rw [Function.update_of_ne h, if_neg h, add_zero, g2 j hj]
  · exact fun _ h => h

theorem getATAandATb_ok (c : Ctr K) (hwf : WellFormed c) (hm : CanMinimise c) (z : ℕ → ℕ → K) :
    ∃ p, c.getATAandATb z = .ok p ∧ LowerIs p.1 c.nvars (gram c) ∧ VecIs p.2 c.nvars (atb c) := by
  obtain ⟨H, h0, h1⟩ := bodyGetATA_ok c hwf z
  obtain ⟨hbn, hbody⟩ := hwf
  obtain ⟨he, hib⟩ := hm
  rcases c with ⟨t, n, d⟩
  have hzero : ∀ t' : CtrType, (∀ r, target (⟨t', n, d⟩ : Ctr K) r = 0) →
      VecIs (Vec.const n 0) n (atb ⟨t', n, d⟩) := fun t' ht => ⟨rfl, fun j _ => by
    rw [atb, Finset.sum_eq_zero fun r _ => by rw [ht, mul_zero]]; rfl⟩
  cases t <;> first | (exfalso; exact hib rfl) | cases he
  case gib =>
    obtain ⟨g, k0, k1⟩ := addATbGI_ok ⟨.gib, n, d⟩ (Vec.const n 0) (nv := n) (t := fun _ => 0)
      ⟨rfl, fun _ _ => rfl⟩ hbody.2 hbody.1 hbn
    refine ⟨(H, g), by simp only [Ctr.getATAandATb, h0, k0, ok_bind]; rfl, h1, k1.n, fun j hj => ?_⟩
    rw [k1.e j hj, zero_add]
    refine Finset.sum_congr rfl fun r _ => ?_
    show _ = (if j = d.idx.e r then d.gains.e r else 0) * d.b.e r
    simp only [ite_mul, zero_mul]
  case ab =>
    refine ⟨(H, _), by
      simp only [Ctr.getATAandATb, h0, ok_bind, Ctr.ATb]
      rw [require_true (show d.A.rows = d.b.n from hbn.symm)]; rfl, h1, hbody.2, fun j hj => rfl⟩
  case asb =>
    refine ⟨(H, _), by
      simp only [Ctr.getATAandATb, h0, ok_bind, Ctr.ATb]
      rw [require_true (show d.A.rows = d.b.n from hbn.symm), ok_bind, pure_eq_ok, ok_bind, require_true hbody.2]
      rfl, h1, rfl, fun j hj => ?_⟩
    show (if _ then _ else _) = ∑ r ∈ Finset.range d.A.rows,
      (if d.offset.toNat ≤ j ∧ j < d.offset.toNat + d.A.cols then d.A.e r (j - d.offset.toNat) else 0) * d.b.e r
    by_cases h : d.offset.toNat ≤ j ∧ j < d.offset.toNat + d.A.cols
    · simp only [if_pos h]
    · simp only [if_neg h, zero_mul, Finset.sum_const_zero]
  all_goals
    exact ⟨(H, Vec.const n 0), by simp only [Ctr.getATAandATb, h0, ok_bind]; rfl, h1, hzero _ fun _ => rfl⟩

theorem addATAandATb_ok (c : Ctr K) (hwf : WellFormed c) (hm : CanMinimise c) (H : Mat K) (g : Vec K)
    {S : ℕ → ℕ → K} {t : ℕ → K} (hH : LowerIs H c.nvars S) (hg : VecIs g c.nvars t) :
    ∃ p, c.addATAandATb H g = .ok p ∧ LowerIs p.1 c.nvars (fun i j => S i j + gram c i j) ∧
      VecIs p.2 c.nvars (fun j => t j + atb c j) := by
  obtain ⟨R, h0, h1⟩ := bodyAddATA_ok c hwf H hH
  obtain ⟨hbn, hbody⟩ := hwf
  obtain ⟨he, hib⟩ := hm
  obtain ⟨hgn, hge⟩ := hg
  rcases c with ⟨ty, n, d⟩
  have hzero : ∀ t' : CtrType, (∀ r, target (⟨t', n, d⟩ : Ctr K) r = 0) →
      VecIs g n (fun j => t j + atb ⟨t', n, d⟩ j) := fun t' ht => ⟨hgn, fun j hj => by
    rw [atb, Finset.sum_eq_zero fun r _ => by rw [ht, mul_zero], add_zero]; exact hge j hj⟩
  cases ty <;> first | (exfalso; exact hib rfl) | cases he
  case gib =>
    obtain ⟨g', k0, k1⟩ := addATbGI_ok ⟨.gib, n, d⟩ g (nv := n) ⟨hgn, hge⟩ hbody.2 hbody.1 hbn
    refine ⟨(R, g'), by simp only [Ctr.addATAandATb, h0, k0, ok_bind]; rfl, h1, k1.n, fun j hj => ?_⟩
    rw [k1.e j hj]
    refine congrArg _ (Finset.sum_congr rfl fun r _ => ?_)
    show _ = (if j = d.idx.e r then d.gains.e r else 0) * d.b.e r
    simp only [ite_mul, zero_mul]
  case ab =>
    have hgA : g.n = d.A.cols := by rw [hbody.2]; exact hgn
    refine ⟨(R, ⟨g.n, fun j => g.e j + ∑ r ∈ Finset.range d.A.rows, d.A.e r j * d.b.e r⟩), by
      simp only [Ctr.addATAandATb, h0, ok_bind, Ctr.ATb]
      rw [require_true (show d.A.rows = d.b.n from hbn.symm), ok_bind, pure_eq_ok, ok_bind, require_true hgA]
      rfl, h1, hgn, fun j hj => ?_⟩
    show g.e j + _ = _
    rw [hge j hj]; rfl
  case asb =>
    refine ⟨(R, ⟨g.n, fun j => if d.offset.toNat ≤ j ∧ j < d.offset.toNat + d.A.cols then
        g.e j + ∑ r ∈ Finset.range d.A.rows, d.A.e r (j - d.offset.toNat) * d.b.e r else g.e j⟩), by
      simp only [Ctr.addATAandATb, h0, ok_bind, Ctr.ATb]
      rw [require_true (show d.A.rows = d.b.n from hbn.symm), ok_bind, pure_eq_ok, ok_bind,
        require_true (by rw [hgn]; exact hbody.2)]
      rfl, h1, hgn, fun j hj => ?_⟩
    show (if _ then _ else _) = t j + ∑ r ∈ Finset.range d.A.rows,
      (if d.offset.toNat ≤ j ∧ j < d.offset.toNat + d.A.cols then d.A.e r (j - d.offset.toNat) else 0) * d.b.e r
    by_cases h : d.offset.toNat ≤ j ∧ j < d.offset.toNat + d.A.cols
    · simp only [if_pos h, hge j hj]
    · simp only [if_neg h, zero_mul, Finset.sum_const_zero, add_zero, hge j hj]
  all_goals
    exact ⟨(R, g), by simp only [Ctr.addATAandATb, h0, ok_bind]; rfl, h1, hzero _ fun _ => rfl⟩

/-- Sum over tasks. -/
def overTasks (f : Ctr K → K) (ts : List (TaskInfo E K)) : K := (ts.map fun ti => f ti.task.ctr).sum

theorem getObjective_ok {L : Level E K} {nv : ℕ} (hf : FormedLevel L nv) (hm : ∀ ti ∈ L.tasks, CanMinimise ti.task.ctr)
    (z : ℕ → ℕ → K) (H0 : Mat K) (g0 : Vec K) :
    ∃ p, L.getObjective z H0 g0 = .ok p ∧ LowerIs p.1 nv (fun i j => overTasks (fun c => gram c i j) L.tasks) ∧
      VecIs p.2 nv (fun j => overTasks (fun c => atb c j) L.tasks) := by
  have key : ∀ (ts : List (TaskInfo E K)) (p : Mat K × Vec K) (S : ℕ → ℕ → K) (t : ℕ → K),
      (∀ ti ∈ ts, ti ∈ L.tasks) → LowerIs p.1 nv S → VecIs p.2 nv t →
      ∃ q, ts.foldlM (fun (Hg : Mat K × Vec K) ti => ti.task.ctr.addATAandATb Hg.1 Hg.2) p = .ok q ∧
        LowerIs q.1 nv (fun i j => S i j + overTasks (fun c => gram c i j) ts) ∧
        VecIs q.2 nv (fun j => t j + overTasks (fun c => atb c j) ts) := by
    intro ts
    induction ts with
    | nil =>
      intro p S t _ h1 h2
      exact ⟨p, rfl, by simpa [overTasks] using h1, by simpa [overTasks] using h2⟩
    | cons ti ts ih =>
      intro p S t hsub h1 h2
      have hti := hsub ti (by simp)
      have hn := hf.nvars ti hti
      obtain ⟨q, k0, k1, k2⟩ := addATAandATb_ok ti.task.ctr (hf.wf ti hti) (hm ti hti) p.1 p.2 (by rw [hn]; exact h1)
        (by rw [hn]; exact h2)
      rw [hn] at k1 k2
      obtain ⟨r, l0, l1, l2⟩ := ih q _ _ (fun t ht => hsub t (by simp [ht])) k1 k2
      refine ⟨r, by rw [List.foldlM_cons, k0, ok_bind, l0], ?_, ?_⟩
      · simpa [overTasks, add_assoc] using l1
      · simpa [overTasks, add_assoc] using l2
  unfold Level.getObjective
  cases hts : L.tasks with
  | nil =>
    have := hf.pos
    rw [hf.nConstraints, hts] at this
    exact absurd this (by simp [totalRows])
  | cons ti ts =>
    have hti : ti ∈ L.tasks := by simp [hts]
    have hn := hf.nvars ti hti
    obtain ⟨q, k0, k1, k2⟩ := getATAandATb_ok ti.task.ctr (hf.wf ti hti) (hm ti hti) z
    rw [hn] at k1 k2
    obtain ⟨r, l0, l1, l2⟩ := key ts q _ _ (fun t ht => by simp [hts, ht]) k1 k2
    refine ⟨r, by simp only [k0, ok_bind, l0], ?_, ?_⟩
    · simpa [overTasks] using l1
    · simpa [overTasks] using l2

/-! ### From matrices to the sum of squares -/

theorem sq_expand (c : Ctr K) (hwf : WellFormed c) (x : ℕ → K) :
    (∑ i ∈ Finset.range c.nvars, ∑ j ∈ Finset.range c.nvars, gram c i j * x i * x j) -
      2 * (∑ j ∈ Finset.range c.nvars, atb c j * x j) = residualSq c x - residualSq c (fun _ => 0) := by
  have e1 : (∑ i ∈ Finset.range c.nvars, ∑ j ∈ Finset.range c.nvars, gram c i j * x i * x j) =
      ∑ r ∈ Finset.range (rows c), lhs c x r ^ 2 := by
    have : ∀ r ∈ Finset.range (rows c), lhs c x r ^ 2 = ∑ i ∈ Finset.range c.nvars, ∑ j ∈ Finset.range c.nvars,
        coef c r i * coef c r j * x i * x j := by
      intro r hr
      rw [← sum_coef c hwf x r (Finset.mem_range.mp hr), sq, Finset.sum_mul_sum]
      exact Finset.sum_congr rfl fun i _ => Finset.sum_congr rfl fun j _ => by ring
    rw [Finset.sum_congr rfl this]
    symm
    rw [Finset.sum_comm]
    refine Finset.sum_congr rfl fun i _ => ?_
    rw [Finset.sum_comm]
    refine Finset.sum_congr rfl fun j _ => ?_
    rw [gram, Finset.sum_mul, Finset.sum_mul]
  have e2 : (∑ j ∈ Finset.range c.nvars, atb c j * x j) = ∑ r ∈ Finset.range (rows c), lhs c x r * target c r := by
    have : ∀ r ∈ Finset.range (rows c), lhs c x r * target c r =
        ∑ j ∈ Finset.range c.nvars, coef c r j * target c r * x j := by
      intro r hr
      rw [← sum_coef c hwf x r (Finset.mem_range.mp hr), Finset.sum_mul]
      exact Finset.sum_congr rfl fun j _ => by ring
    rw [Finset.sum_congr rfl this]
    symm
    rw [Finset.sum_comm]
    refine Finset.sum_congr rfl fun j _ => ?_
    rw [atb, Finset.sum_mul]
  have e3 : ∀ r ∈ Finset.range (rows c), lhs c (fun _ => 0) r = 0 := by
    intro r hr
    rw [← sum_coef c hwf _ r (Finset.mem_range.mp hr)]
    simp
  rw [e1, e2, residualSq, residualSq, Finset.mul_sum, ← Finset.sum_sub_distrib, ← Finset.sum_sub_distrib]
  refine Finset.sum_congr rfl fun r hr => ?_
  rw [e3 r hr]; ring

theorem lowerQuadratic_eq {H : Mat K} {nv : ℕ} {S : ℕ → ℕ → K} (h : LowerIs H nv S) (hs : ∀ i j, S i j = S j i)
    (x : ℕ → K) : lowerQuadratic H x = ∑ i ∈ Finset.range nv, ∑ j ∈ Finset.range nv, S i j * x i * x j := by
  rw [lowerQuadratic, h.rows, h.cols]
  refine Finset.sum_congr rfl fun i hi => Finset.sum_congr rfl fun j hj => ?_
  split
  · rename_i hij
    rw [h.e i j hij (Finset.mem_range.mp hi)]
  · rename_i hij
    rw [h.e j i (by omega) (Finset.mem_range.mp hj), hs]

theorem gram_comm (c : Ctr K) (i j : ℕ) : gram c i j = gram c j i :=
  Finset.sum_congr rfl fun _ _ => mul_comm _ _

theorem tasks_expand {nv : ℕ} (ts : List (TaskInfo E K)) (hn : ∀ ti ∈ ts, ti.task.ctr.nvars = nv)
    (hwf : ∀ ti ∈ ts, WellFormed ti.task.ctr) (x : ℕ → K) :
    (∑ i ∈ Finset.range nv, ∑ j ∈ Finset.range nv, overTasks (fun c => gram c i j) ts * x i * x j) -
      2 * (∑ j ∈ Finset.range nv, overTasks (fun c => atb c j) ts * x j) =
      leastSquares ts x - leastSquares ts (fun _ => 0) := by
  induction ts with
  | nil => simp [overTasks, leastSquares]
  | cons ti ts ih =>
    have e := sq_expand ti.task.ctr (hwf ti (by simp)) x
    rw [hn ti (by simp)] at e
    have e' := ih (fun t ht => hn t (by simp [ht])) (fun t ht => hwf t (by simp [ht]))
    have c1 : ∀ f : Ctr K → K, overTasks f (ti :: ts) = f ti.task.ctr + overTasks f ts := fun f => by
      simp [overTasks]
    have c2 : ∀ y : ℕ → K, leastSquares (ti :: ts) y = residualSq ti.task.ctr y + leastSquares ts y := fun y => by
      simp [leastSquares]
    simp only [c1, c2, add_mul, Finset.sum_add_distrib, mul_add]
    linear_combination e + e'

end Humoto
