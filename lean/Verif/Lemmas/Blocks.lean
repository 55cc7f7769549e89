import Verif.Lemmas.Constraints
import Verif.Spec.Level

/-!
# Assembling rows block by block
-/

namespace Humoto

open Spec

set_option linter.unusedSectionVars false

section generic

variable {S T R : Type}

/-- The rows `rd o, rd (o+1), ...` are those of the items of the list, one item after the other. `P t i r`: `r` is row `i`
of `t`. -/
def Placed (n : T → ℕ) (P : T → ℕ → R → Prop) (rd : ℕ → R) : ℕ → List T → Prop
  | _, [] => True
  | o, t :: ts => (∀ i, i < n t → P t i (rd (o + i))) ∧ Placed n P rd (o + n t) ts

/-- Number of rows of a list of items. -/
def total (n : T → ℕ) (ts : List T) : ℕ := (ts.map n).sum

@[simp] theorem total_nil (n : T → ℕ) : total n [] = 0 := rfl
@[simp] theorem total_cons (n : T → ℕ) (t : T) (ts : List T) : total n (t :: ts) = n t + total n ts := by
  simp [total]
@[simp] theorem total_append (n : T → ℕ) (a b : List T) : total n (a ++ b) = total n a + total n b := by
  simp [total]

theorem Placed.congr {n : T → ℕ} {P : T → ℕ → R → Prop} {rd rd' : ℕ → R} {o : ℕ} {ts : List T}
    (h : Placed n P rd o ts) (he : ∀ p, o ≤ p → p < o + total n ts → rd' p = rd p) : Placed n P rd' o ts := by
  induction ts generalizing o with
  | nil => trivial
  | cons t ts ih =>
    refine ⟨fun i hi => ?_, ih h.2 fun p h1 h2 => he p (by omega) (by simp only [total_cons]; omega)⟩
    rw [he (o + i) (by omega) (by simp only [total_cons]; omega)]
    exact h.1 i hi

theorem Placed.row {n : T → ℕ} {P : T → ℕ → R → Prop} {rd : ℕ → R} {o : ℕ} {ts : List T} (h : Placed n P rd o ts)
    {p : ℕ} (h1 : o ≤ p) (h2 : p < o + total n ts) : ∃ t ∈ ts, ∃ i, i < n t ∧ P t i (rd p) := by
  induction ts generalizing o with
  | nil => simp only [total_nil] at h2; omega
  | cons t ts ih =>
    by_cases hp : p < o + n t
    · refine ⟨t, by simp, p - o, by omega, ?_⟩
      have := h.1 (p - o) (by omega)
      rwa [show o + (p - o) = p by omega] at this
    · simp only [total_cons] at h2
      obtain ⟨t', ht', h'⟩ := ih h.2 (by omega) (by omega)
      exact ⟨t', by simp [ht'], h'⟩

theorem Placed.item {n : T → ℕ} {P : T → ℕ → R → Prop} {rd : ℕ → R} {o : ℕ} {ts : List T} (h : Placed n P rd o ts)
    {t : T} (ht : t ∈ ts) {i : ℕ} (hi : i < n t) : ∃ p, o ≤ p ∧ p < o + total n ts ∧ P t i (rd p) := by
  induction ts generalizing o with
  | nil => simp at ht
  | cons t' ts ih =>
    rcases List.mem_cons.mp ht with rfl | ht
    · exact ⟨o + i, by omega, by simp only [total_cons]; omega, h.1 i hi⟩
    · obtain ⟨p, h1, h2, h3⟩ := ih h.2 ht
      exact ⟨p, by omega, by simp only [total_cons]; omega, h3⟩

/-- Effect of one writing step. -/
structure Wrote (inv : S → Prop) (rd : S → ℕ → R) (P : ℕ → R → Prop) (n : ℕ) (s s' : S) (o : ℕ) : Prop where
  inv : inv s'
  inside : ∀ i, i < n → P i (rd s' (o + i))
  outside : ∀ p, p < o ∨ o + n ≤ p → rd s' p = rd s p

theorem fold_wrote (inv : S → Prop) (size : ℕ) (rd : S → ℕ → R) (n : T → ℕ) (P : T → ℕ → R → Prop)
    (f : S × ℕ → T → Res (S × ℕ)) (ts : List T)
    (hf : ∀ t ∈ ts, ∀ s o, inv s → o + n t ≤ size →
      ∃ s', f (s, o) t = .ok (s', o + n t) ∧ Wrote inv rd (P t) (n t) s s' o)
    (s : S) (o : ℕ) (hs : inv s) (ho : o + total n ts ≤ size) :
    ∃ s', ts.foldlM f (s, o) = .ok (s', o + total n ts) ∧ inv s' ∧ Placed n P (rd s') o ts ∧
      ∀ p, p < o ∨ o + total n ts ≤ p → rd s' p = rd s p := by
  induction ts generalizing s o with
  | nil => exact ⟨s, rfl, hs, trivial, fun _ _ => rfl⟩
  | cons t ts ih =>
    simp only [total_cons] at ho
    obtain ⟨s1, h1, w1⟩ := hf t (by simp) s o hs (by omega)
    obtain ⟨s2, h2, hi2, hp2, ho2⟩ := ih (fun t' ht' => hf t' (by simp [ht'])) s1 (o + n t) w1.inv (by omega)
    refine ⟨s2, ?_, hi2, ⟨fun i hi => ?_, hp2⟩, ?_⟩
    · rw [List.foldlM_cons, h1, ok_bind, h2, total_cons, Nat.add_assoc]
    · rw [ho2 (o + i) (by omega)]; exact w1.inside i hi
    · intro p hp
      simp only [total_cons] at hp
      rw [ho2 p (by omega), w1.outside p (by omega)]

/-- Skipping items in a loop is a loop over the other items. -/
theorem foldlM_skip (c : T → Bool) (f : S → T → Res S) (ts : List T) (s : S) :
    ts.foldlM (fun s t => if c t then f s t else pure s) s = (ts.filter c).foldlM f s := by
  induction ts generalizing s with
  | nil => rfl
  | cons t ts ih =>
    rw [List.foldlM_cons]
    cases h : c t
    · rw [if_neg (by simp), List.filter_cons_of_neg (by simp [h])]
      exact ih s
    · rw [if_pos rfl, List.filter_cons_of_pos h, List.foldlM_cons]
      congr 1
      funext s'
      exact ih s'

end generic

variable {K : Type} [Field K]

/-! ### Consistency checks -/

theorem checkConsistency_of_wellFormed (c : Ctr K) (h : WellFormed c) : c.checkConsistency = .ok () := by
  obtain ⟨hb, ha⟩ := h
  rcases c with ⟨t, n, d⟩
  unfold Ctr.checkConsistency
  have h1 : (Ctr.mk t n d).boundSizesMatch = true := by
    cases t <;> simp_all [BoundsFit, Ctr.boundSizesMatch, CtrType.bounds, Spec.rows, Ctr.numRows, CtrType.body]
  have h2 : (Ctr.mk t n d).bodyMatches = true := by
    cases t <;> simp_all [BodyFits, Ctr.bodyMatches, CtrType.body] <;> omega
  rw [assertThat_true h1, ok_bind, assertThat_true h2]

theorem wellFormed_of_checkConsistency (c : Ctr K) (h : c.checkConsistency = .ok ()) (hr : InRange c) :
    WellFormed c := by
  unfold Ctr.checkConsistency at h
  obtain ⟨_, h1, h2⟩ := bind_eq_ok.mp h
  have h1' : c.boundSizesMatch = true := by
    by_contra hc; rw [assertThat_false hc] at h1; cases h1
  have h2' : c.bodyMatches = true := by
    by_contra hc; rw [assertThat_false hc] at h2; cases h2
  clear h h1 h2
  rcases c with ⟨t, n, d⟩
  constructor
  · cases t <;>
      simp_all [BoundsFit, Ctr.boundSizesMatch, CtrType.bounds, Spec.rows, Ctr.numRows, CtrType.body] <;>
      first
      | exact ⟨(of_decide_eq_true h1'.1).symm, (of_decide_eq_true h1'.2).symm⟩
      | exact (of_decide_eq_true h1').symm
  · cases t <;> simp_all [BodyFits, Ctr.bodyMatches, CtrType.body, InRange] <;> omega

theorem getCopyLocation_ok (r nv n o : ℕ) (h : o + n ≤ r) : getCopyLocation r nv n o nv = .ok ⟨o, n⟩ := by
  unfold getCopyLocation
  simp only
  rw [assertThat_true ((Location.checkLength_iff _ _).mpr h), ok_bind, assertThat_true True.intro, ok_bind]
  rfl

/-! ### Two-sided container -/

/-- Row of a two-sided container. -/
def rdALU (k : ContainerALU K) (p : ℕ) : (ℕ → K) × K × K := (k.A.e p, k.lb.e p, k.ub.e p)
/-- Sizes of a two-sided container. -/
structure InvALU (size nv : ℕ) (k : ContainerALU K) : Prop where
  nvars : k.nvars = nv
  rows : k.A.rows = size
  cols : k.A.cols = nv
  lb : k.lb.n = size
  ub : k.ub.n = size
/-- Row `i` of the constraint in a two-sided container. -/
def PALU (c : Ctr K) (i : ℕ) (r : (ℕ → K) × K × K) : Prop :=
  (∀ j, j < c.nvars → r.1 j = coef c i j) ∧ r.2.1 = lbVal c i ∧ r.2.2 = ubVal c i

theorem copyToALU_ok (c : Ctr K) (hwf : WellFormed c) (size : ℕ) (k : ContainerALU K) (o : ℕ)
    (hk : InvALU size c.nvars k) (ho : o + rows c ≤ size) :
    ∃ k', c.copyToALU k o = .ok (k', o + rows c) ∧ Wrote (InvALU size c.nvars) rdALU (PALU c) (rows c) k k' o := by
  unfold Ctr.copyToALU
  rw [numRows_eq, getCopyLocation_ok _ _ _ _ (by rw [hk.rows]; exact ho), ok_bind]
  obtain ⟨p, hp, hl, hu⟩ := copyBounds_ok c hwf k.lb k.ub o (by rw [hk.lb]; exact ho) (by rw [hk.ub]; exact ho)
  obtain ⟨A', hA, hb⟩ := copyBody_ok c hwf false k.A hk.cols o (by rw [hk.rows]; exact ho)
  refine ⟨⟨k.nvars, A', p.1, p.2⟩, ?_, ?_, ?_, ?_⟩
  · rw [hp, ok_bind]; simp only; rw [hA, ok_bind]; rfl
  · exact ⟨hk.nvars, hb.rows.trans hk.rows, hb.cols.trans hk.cols, hl.size.trans hk.lb, hu.size.trans hk.ub⟩
  · intro i hi
    exact ⟨fun j hj => hb.inside i hi j hj, hl.inside i hi, hu.inside i hi⟩
  · intro q hq
    simp only [rdALU]
    rw [hl.outside q hq, hu.outside q hq, funext fun j => hb.outside q j hq]

/-! ### Container of lower bounds -/

/-- Row of a container of lower bounds. -/
def rdAL (k : ContainerAL K) (p : ℕ) : (ℕ → K) × K := (k.A.e p, k.lb.e p)
/-- Sizes of a container of lower bounds. -/
structure InvAL (size nv : ℕ) (k : ContainerAL K) : Prop where
  nvars : k.nvars = nv
  rows : k.A.rows = size
  cols : k.A.cols = nv
  lb : k.lb.n = size

theorem copyLowerToAL_ok (c : Ctr K) (hwf : WellFormed c) (hb : c.data.lb.n = rows c) (size : ℕ) (k : ContainerAL K)
    (o : ℕ) (hk : InvAL size c.nvars k) (ho : o + rows c ≤ size) :
    ∃ k', c.copyLowerToAL k o = .ok (k', o + rows c) ∧ Wrote (InvAL size c.nvars) rdAL
      (fun i r => (∀ j, j < c.nvars → r.1 j = coef c i j) ∧ r.2 = c.data.lb.e i) (rows c) k k' o := by
  unfold Ctr.copyLowerToAL
  rw [numRows_eq, getCopyLocation_ok _ _ _ _ (by rw [hk.rows]; exact ho), ok_bind]
  obtain ⟨l', hl, hl'⟩ := setSegment_copied k.lb c.data.lb o (rows c) c.data.lb.e (by rw [hk.lb]; exact ho) hb
    (fun _ _ => rfl)
  obtain ⟨A', hA, hb⟩ := copyBody_ok c hwf false k.A hk.cols o (by rw [hk.rows]; exact ho)
  refine ⟨⟨k.nvars, A', l'⟩, ?_, ?_, ?_, ?_⟩
  · simp only; rw [hl, ok_bind, hA, ok_bind]; rfl
  · exact ⟨hk.nvars, hb.rows.trans hk.rows, hb.cols.trans hk.cols, hl'.size.trans hk.lb⟩
  · intro i hi
    exact ⟨fun j hj => hb.inside i hi j hj, hl'.inside i hi⟩
  · intro q hq
    simp only [rdAL]
    rw [hl'.outside q hq, funext fun j => hb.outside q j hq]

theorem copyUpperToAL_ok (c : Ctr K) (hwf : WellFormed c) (hb : c.data.ub.n = rows c) (size : ℕ) (k : ContainerAL K)
    (o : ℕ) (hk : InvAL size c.nvars k) (ho : o + rows c ≤ size) :
    ∃ k', c.copyUpperToAL k o = .ok (k', o + rows c) ∧ Wrote (InvAL size c.nvars) rdAL
      (fun i r => (∀ j, j < c.nvars → r.1 j = - coef c i j) ∧ r.2 = - c.data.ub.e i) (rows c) k k' o := by
  unfold Ctr.copyUpperToAL
  rw [numRows_eq, getCopyLocation_ok _ _ _ _ (by rw [hk.rows]; exact ho), ok_bind]
  obtain ⟨l', hl, hl'⟩ := setSegment_copied k.lb c.data.ub.neg o (rows c) (fun i => - c.data.ub.e i)
    (by rw [hk.lb]; exact ho) hb (fun _ _ => rfl)
  obtain ⟨A', hA, hb⟩ := copyBody_ok c hwf true k.A hk.cols o (by rw [hk.rows]; exact ho)
  refine ⟨⟨k.nvars, A', l'⟩, ?_, ?_, ?_, ?_⟩
  · simp only; rw [hl, ok_bind, hA, ok_bind]; rfl
  · exact ⟨hk.nvars, hb.rows.trans hk.rows, hb.cols.trans hk.cols, hl'.size.trans hk.lb⟩
  · intro i hi
    exact ⟨fun j hj => by rw [rdAL]; simpa [Ctr.signed] using hb.inside i hi j hj, hl'.inside i hi⟩
  · intro q hq
    simp only [rdAL]
    rw [hl'.outside q hq, funext fun j => hb.outside q j hq]

/-- Number of one-sided rows of an inequality. -/
def rowsAL (c : Ctr K) : ℕ := if c.ctype.isTwoSided then rows c + rows c else rows c

/-- Row `i` of an inequality in a container of lower bounds: a lower bound, or a negated upper bound. -/
def PAL (c : Ctr K) (i : ℕ) (r : (ℕ → K) × K) : Prop :=
  ∃ q, q < rows c ∧
    (((∀ j, j < c.nvars → r.1 j = coef c q j) ∧ lower c q = some r.2 ∧ i = q) ∨
     ((∀ j, j < c.nvars → r.1 j = - coef c q j) ∧ upper c q = some (- r.2) ∧
       i = if c.ctype.isTwoSided then rows c + q else q))

theorem copyToAL_ok (c : Ctr K) (hwf : WellFormed c) (hne : c.ctype.isEquality = false) (size : ℕ) (k : ContainerAL K)
    (o : ℕ) (hk : InvAL size c.nvars k) (ho : o + rowsAL c ≤ size) :
    ∃ k', c.copyToAL k o = .ok (k', o + rowsAL c) ∧ Wrote (InvAL size c.nvars) rdAL (PAL c) (rowsAL c) k k' o := by
  have hL : ∀ hb : c.data.lb.n = rows c, c.ctype.isTwoSided = false → (∀ i, lower c i = some (c.data.lb.e i)) →
      ∃ k', c.copyLowerToAL k o = .ok (k', o + rowsAL c) ∧
        Wrote (InvAL size c.nvars) rdAL (PAL c) (rowsAL c) k k' o := by
    intro hb h2 hl
    have hr : rowsAL c = rows c := by simp [rowsAL, h2]
    rw [hr] at ho ⊢
    obtain ⟨k', h, w⟩ := copyLowerToAL_ok c hwf hb size k o hk ho
    refine ⟨k', h, w.inv, fun i hi => ?_, w.outside⟩
    obtain ⟨w1, w2⟩ := w.inside i hi
    exact ⟨i, hi, Or.inl ⟨w1, by rw [hl, w2], rfl⟩⟩
  have hU : ∀ hb : c.data.ub.n = rows c, c.ctype.isTwoSided = false → (∀ i, upper c i = some (c.data.ub.e i)) →
      ∃ k', c.copyUpperToAL k o = .ok (k', o + rowsAL c) ∧
        Wrote (InvAL size c.nvars) rdAL (PAL c) (rowsAL c) k k' o := by
    intro hb h2 hl
    have hr : rowsAL c = rows c := by simp [rowsAL, h2]
    rw [hr] at ho ⊢
    obtain ⟨k', h, w⟩ := copyUpperToAL_ok c hwf hb size k o hk ho
    refine ⟨k', h, w.inv, fun i hi => ?_, w.outside⟩
    obtain ⟨w1, w2⟩ := w.inside i hi
    exact ⟨i, hi, Or.inr ⟨w1, by rw [hl, w2, neg_neg], by simp [h2]⟩⟩
  have hLU : ∀ hb : c.data.lb.n = rows c ∧ c.data.ub.n = rows c, c.ctype.isTwoSided = true →
      (∀ i, lower c i = some (c.data.lb.e i)) → (∀ i, upper c i = some (c.data.ub.e i)) →
      ∃ k', (do let (k', o') ← c.copyLowerToAL k o
                c.copyUpperToAL k' o' : Res (ContainerAL K × ℕ)) = .ok (k', o + rowsAL c) ∧
        Wrote (InvAL size c.nvars) rdAL (PAL c) (rowsAL c) k k' o := by
    intro hb h2 hl hu
    have hr : rowsAL c = rows c + rows c := by simp [rowsAL, h2]
    rw [hr] at ho ⊢
    obtain ⟨k1, h1, w1⟩ := copyLowerToAL_ok c hwf hb.1 size k o hk (by omega)
    obtain ⟨k2, h2', w2⟩ := copyUpperToAL_ok c hwf hb.2 size k1 (o + rows c) w1.inv (by omega)
    refine ⟨k2, ?_, w2.inv, fun i hi => ?_, fun p hp => ?_⟩
    · rw [h1, ok_bind]; simp only; rw [h2', Nat.add_assoc]
    · by_cases hi' : i < rows c
      · obtain ⟨a, b⟩ := w1.inside i hi'
        refine ⟨i, hi', Or.inl ?_⟩
        rw [w2.outside (o + i) (by omega)]
        exact ⟨a, by rw [hl, b], rfl⟩
      · obtain ⟨a, b⟩ := w2.inside (i - rows c) (by omega)
        rw [show o + rows c + (i - rows c) = o + i by omega] at a b
        exact ⟨i - rows c, by omega, Or.inr ⟨a, by rw [hu, b, neg_neg], by rw [if_pos h2]; omega⟩⟩
    · rw [w2.outside p (by omega), w1.outside p (by omega)]
  have hb := hwf.1
  rcases c with ⟨t, n, d⟩
  cases t
  all_goals first
    | exact hL hb rfl (fun _ => rfl)
    | exact hU hb rfl (fun _ => rfl)
    | exact hLU hb rfl (fun _ => rfl) (fun _ => rfl)
    | (cases hne)

/-! ### Container of equalities -/

/-- Row of a container of equalities. -/
def rdAB (k : ContainerAB K) (p : ℕ) : (ℕ → K) × K := (k.A.e p, k.b.e p)
/-- Sizes of a container of equalities. -/
structure InvAB (size nv : ℕ) (k : ContainerAB K) : Prop where
  nvars : k.nvars = nv
  rows : k.A.rows = size
  cols : k.A.cols = nv
  b : k.b.n = size
/-- Row `i` of an equality. -/
def PAB (c : Ctr K) (i : ℕ) (r : (ℕ → K) × K) : Prop :=
  (∀ j, j < c.nvars → r.1 j = coef c i j) ∧ lower c i = some r.2 ∧ upper c i = some r.2

theorem copyToAB_ok (c : Ctr K) (hwf : WellFormed c) (he : c.ctype.isEquality = true) (size : ℕ) (k : ContainerAB K)
    (o : ℕ) (hk : InvAB size c.nvars k) (ho : o + rows c ≤ size) :
    ∃ k', c.copyToAB k o = .ok (k', o + rows c) ∧ Wrote (InvAB size c.nvars) rdAB (PAB c) (rows c) k k' o := by
  obtain ⟨A', hA, hb⟩ := copyBody_ok c hwf false k.A hk.cols o (by rw [hk.rows]; exact ho)
  have key : ∀ w : Vec K, w.n = rows c → (∀ i, i < rows c → lower c i = some (w.e i)) →
      (∀ i, i < rows c → upper c i = some (w.e i)) →
      ∃ k', (do
        let l ← getCopyLocation k.A.rows k.nvars c.numRows o k.nvars
        let b ← k.b.setSegment l.offset l.length w
        let A ← c.copyBody false k.A l
        pure ((⟨k.nvars, A, b⟩ : ContainerAB K), l.offset + l.length)) = .ok (k', o + rows c) ∧
        Wrote (InvAB size c.nvars) rdAB (PAB c) (rows c) k k' o := by
    intro w hw h1 h2
    obtain ⟨l', hl, hl'⟩ := setSegment_copied k.b w o (rows c) w.e (by rw [hk.b]; exact ho) hw (fun _ _ => rfl)
    refine ⟨⟨k.nvars, A', l'⟩, ?_, ?_, ?_, ?_⟩
    · rw [numRows_eq, getCopyLocation_ok _ _ _ _ (by rw [hk.rows]; exact ho), ok_bind]
      simp only; rw [hl, ok_bind, hA, ok_bind]; rfl
    · exact ⟨hk.nvars, hb.rows.trans hk.rows, hb.cols.trans hk.cols, hl'.size.trans hk.b⟩
    · intro i hi
      refine ⟨fun j hj => hb.inside i hi j hj, ?_, ?_⟩
      · rw [h1 i hi]; simp only [rdAB]; rw [hl'.inside i hi]
      · rw [h2 i hi]; simp only [rdAB]; rw [hl'.inside i hi]
    · intro q hq
      simp only [rdAB]
      rw [hl'.outside q hq, funext fun j => hb.outside q j hq]
  have hbf := hwf.1
  have key0 := key (Vec.const (rows c) 0) rfl
  have keyb := key c.data.b
  rw [numRows_eq, getCopyLocation_ok _ _ _ _ (by rw [hk.rows]; exact ho)] at key0 keyb
  unfold Ctr.copyToAB
  rw [numRows_eq, getCopyLocation_ok _ _ _ _ (by rw [hk.rows]; exact ho)]
  rcases c with ⟨t, n, d⟩
  cases t
  all_goals first
    | (cases he; done)
    | exact key0 (fun _ _ => rfl) (fun _ _ => rfl)
    | exact keyb hbf (fun _ _ => rfl) (fun _ _ => rfl)

/-! ### Container of bounds on variables -/

/-- Row of a container of bounds. -/
def rdILU (k : ContainerILU K) (p : ℕ) : ℕ × K × K := (k.idx.e p, k.lb.e p, k.ub.e p)
/-- Sizes of a container of bounds. -/
structure InvILU (size nv : ℕ) (k : ContainerILU K) : Prop where
  nvars : k.nvars = nv
  idx : k.idx.n = size
  lb : k.lb.n = size
  ub : k.ub.n = size
/-- Row `i` of a bound. -/
def PILU (c : Ctr K) (i : ℕ) (r : ℕ × K × K) : Prop :=
  r.1 = c.data.idx.e i ∧ r.2.1 = lbVal c i ∧ r.2.2 = ubVal c i

theorem copyToILU_ok (c : Ctr K) (hwf : WellFormed c) (hi : c.ctype.hasILUCopy = true) (size : ℕ)
    (k : ContainerILU K) (o : ℕ) (hk : InvILU size c.nvars k) (ho : o + rows c ≤ size) :
    ∃ k', c.copyToILU k o = .ok (k', o + rows c) ∧ Wrote (InvILU size c.nvars) rdILU (PILU c) (rows c) k k' o := by
  have hrows : c.data.idx.n = rows c := by
    rcases c with ⟨t, n, d⟩; cases t <;> first | rfl | (cases hi)
  unfold Ctr.copyToILU
  rw [if_pos hi, numRows_eq, getCopyLocation_ok _ _ _ _ (by rw [hk.idx]; exact ho), ok_bind]
  obtain ⟨p, hp, hl, hu⟩ := copyBounds_ok c hwf k.lb k.ub o (by rw [hk.lb]; exact ho) (by rw [hk.ub]; exact ho)
  refine ⟨⟨k.nvars, ⟨k.idx.n, fun i => if o ≤ i ∧ i < o + rows c then c.data.idx.e (i - o) else k.idx.e i⟩,
    p.1, p.2⟩, ?_, ?_, ?_, ?_⟩
  · rw [hp, ok_bind]; simp only
    rw [Vec.setSegment_ok (by rw [hk.idx]; exact ho) hrows, ok_bind]; rfl
  · exact ⟨hk.nvars, hk.idx, hl.size.trans hk.lb, hu.size.trans hk.ub⟩
  · intro i hi
    refine ⟨?_, hl.inside i hi, hu.inside i hi⟩
    simp only [rdILU]
    rw [if_pos (by omega), Nat.add_sub_cancel_left]
  · intro q hq
    simp only [rdILU]
    rw [hl.outside q hq, hu.outside q hq, if_neg (by omega)]

end Humoto
