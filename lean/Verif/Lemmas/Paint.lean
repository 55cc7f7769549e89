import Verif.Lemmas.Condense
import Mathlib.Algebra.BigOperators.Intervals

/-!
# Filling a matrix block by block
-/

namespace Humoto

set_option linter.unusedSectionVars false

variable {K : Type}

theorem div_blk {h i p : ℕ} (hp : p < h) : (i * h + p) / h = i := by
  have h0 : 0 < h := by omega
  rw [Nat.mul_comm, Nat.mul_add_div h0, Nat.div_eq_of_lt hp, Nat.add_zero]

theorem mod_blk {h i p : ℕ} (hp : p < h) : (i * h + p) % h = p := by
  rw [Nat.mul_comm, Nat.mul_add_mod, Nat.mod_eq_of_lt hp]

/-- A sum over blocks. -/
theorem sum_blk {M : Type} [AddCommMonoid M] (n h : ℕ) (f : ℕ → M) :
    ∑ k ∈ Finset.range (n * h), f k = ∑ i ∈ Finset.range n, ∑ p ∈ Finset.range h, f (i * h + p) := by
  induction n with
  | zero => simp
  | succ n ih => rw [Nat.succ_mul, Finset.sum_range_add, ih, Finset.sum_range_succ]

/-- The matrix `M'` is `M`, where the entries in `W` are replaced by those of `G`. -/
structure Painted (W : ℕ → ℕ → Prop) (G : ℕ → ℕ → K) (M M' : Mat K) : Prop where
  rows : M'.rows = M.rows
  cols : M'.cols = M.cols
  inside : ∀ x y, W x y → M'.e x y = G x y
  outside : ∀ x y, ¬ W x y → M'.e x y = M.e x y

/-- The rectangle of a block. -/
def Rect (r c h w : ℕ) (x y : ℕ) : Prop := (r ≤ x ∧ x < r + h) ∧ (c ≤ y ∧ y < c + w)

theorem paint_setBlock {M B : Mat K} {r c h w : ℕ} {G : ℕ → ℕ → K} (h1 : r + h ≤ M.rows) (h2 : c + w ≤ M.cols)
    (h3 : B.rows = h) (h4 : B.cols = w) (hG : ∀ i < h, ∀ j < w, B.e i j = G (r + i) (c + j)) :
    ∃ M', M.setBlock r c h w B = .ok M' ∧ Painted (Rect r c h w) G M M' := by
  refine ⟨_, if_pos ⟨h1, h2, h3, h4⟩, rfl, rfl, ?_, ?_⟩
  · intro x y hxy
    have : (r ≤ x ∧ x < r + h) ∧ (c ≤ y ∧ y < c + w) := hxy
    simp only
    rw [if_pos this, hG _ (by omega) _ (by omega)]
    congr 1 <;> omega
  · intro x y hxy
    exact if_neg hxy

theorem paint_set {M : Mat K} {i j : ℕ} {x : K} {G : ℕ → ℕ → K} (h1 : i < M.rows) (h2 : j < M.cols) (hG : x = G i j) :
    ∃ M', M.set i j x = .ok M' ∧ Painted (fun a b => a = i ∧ b = j) G M M' := by
  refine ⟨_, if_pos ⟨h1, h2⟩, rfl, rfl, ?_, ?_⟩
  · rintro a b ⟨rfl, rfl⟩
    simp only [and_self, if_true]
    exact hG
  · intro a b h
    exact if_neg h

theorem paint_forRange {n : ℕ} {M : Mat K} {G : ℕ → ℕ → K} {body : Mat K → ℕ → Res (Mat K)}
    (W : ℕ → ℕ → ℕ → Prop)
    (h : ∀ i, i < n → ∀ N : Mat K, N.rows = M.rows → N.cols = M.cols → ∃ N', body N i = .ok N' ∧ Painted (W i) G N N') :
    ∃ M', forRange n M body = .ok M' ∧ Painted (fun x y => ∃ i < n, W i x y) G M M' := by
  refine forRange_post (P := fun k N => Painted (fun x y => ∃ i < k, W i x y) G M N) ?_ ?_ ?_
  · exact ⟨rfl, rfl, by rintro x y ⟨i, hi, -⟩; omega, fun _ _ _ => rfl⟩
  · intro i N hi hN
    obtain ⟨N', hN', hp⟩ := h i hi N hN.rows hN.cols
    refine ⟨N', hN', hp.rows.trans hN.rows, hp.cols.trans hN.cols, ?_, ?_⟩
    · rintro x y ⟨j, hj, hw⟩
      by_cases hi' : W i x y
      · exact hp.inside x y hi'
      · rw [hp.outside x y hi']
        have : j ≠ i := by rintro rfl; exact hi' hw
        exact hN.inside x y ⟨j, by omega, hw⟩
    · intro x y hno
      rw [hp.outside x y (fun hw => hno ⟨i, by omega, hw⟩)]
      exact hN.outside x y (fun ⟨j, hj, hw⟩ => hno ⟨j, by omega, hw⟩)
  · intro s hs
    exact hs

/-- `paint_forRange` for block matrices. -/
theorem paint_forRangeB {n : ℕ} {M : BlockMat K} {G : ℕ → ℕ → K} {body : BlockMat K → ℕ → Res (BlockMat K)}
    (W : ℕ → ℕ → ℕ → Prop)
    (h : ∀ i, i < n → ∀ N : BlockMat K, N.br = M.br → N.bc = M.bc → N.m.rows = M.m.rows → N.m.cols = M.m.cols →
      ∃ N', body N i = .ok N' ∧ N'.br = N.br ∧ N'.bc = N.bc ∧ Painted (W i) G N.m N'.m) :
    ∃ M', forRange n M body = .ok M' ∧ M'.br = M.br ∧ M'.bc = M.bc ∧
      Painted (fun x y => ∃ i < n, W i x y) G M.m M'.m := by
  refine forRange_post (P := fun k N => N.br = M.br ∧ N.bc = M.bc ∧ Painted (fun x y => ∃ i < k, W i x y) G M.m N.m)
    ?_ ?_ ?_
  · exact ⟨rfl, rfl, rfl, rfl, by rintro x y ⟨i, hi, -⟩; omega, fun _ _ _ => rfl⟩
  · rintro i N hi ⟨hb, hc, hN⟩
    obtain ⟨N', hN', hb', hc', hp⟩ := h i hi N hb hc hN.rows hN.cols
    refine ⟨N', hN', hb'.trans hb, hc'.trans hc, hp.rows.trans hN.rows, hp.cols.trans hN.cols, ?_, ?_⟩
    · rintro x y ⟨j, hj, hw⟩
      by_cases hi' : W i x y
      · exact hp.inside x y hi'
      · rw [hp.outside x y hi']
        have : j ≠ i := by rintro rfl; exact hi' hw
        exact hN.inside x y ⟨j, by omega, hw⟩
    · intro x y hno
      rw [hp.outside x y (fun hw => hno ⟨i, by omega, hw⟩)]
      exact hN.outside x y (fun ⟨j, hj, hw⟩ => hno ⟨j, by omega, hw⟩)
  · intro s hs
    exact hs

theorem paint_setBlk {M : BlockMat K} {B : Mat K} {i j : ℕ} {G : ℕ → ℕ → K} (h1 : i * M.br + M.br ≤ M.m.rows)
    (h2 : j * M.bc + M.bc ≤ M.m.cols) (h3 : B.rows = M.br) (h4 : B.cols = M.bc)
    (hG : ∀ p < M.br, ∀ q < M.bc, B.e p q = G (i * M.br + p) (j * M.bc + q)) :
    ∃ M', M.setBlk i j B = .ok M' ∧ M'.br = M.br ∧ M'.bc = M.bc ∧
      Painted (Rect (i * M.br) (j * M.bc) M.br M.bc) G M.m M'.m := by
  obtain ⟨m, hm, hp⟩ := paint_setBlock h1 h2 h3 h4 hG
  refine ⟨{ M with m := m }, ?_, rfl, rfl, hp⟩
  unfold BlockMat.setBlk
  rw [hm]
  rfl

theorem rect_blk {i j h w x y : ℕ} : Rect (i * h) (j * w) h w x y ↔ (x / h = i ∧ 0 < h) ∧ (y / w = j ∧ 0 < w) := by
  have key : ∀ {i h x : ℕ}, (i * h ≤ x ∧ x < i * h + h) ↔ (x / h = i ∧ 0 < h) := by
    intro i h x
    constructor
    · rintro ⟨h1, h2⟩
      obtain ⟨p, rfl⟩ := Nat.exists_eq_add_of_le h1
      have hp : p < h := by omega
      exact ⟨div_blk hp, by omega⟩
    · rintro ⟨rfl, h0⟩
      have e1 := Nat.div_add_mod x h
      have e2 := Nat.mod_lt x h0
      have e3 : h * (x / h) = x / h * h := Nat.mul_comm _ _
      omega
  unfold Rect
  rw [key, key]

/-! ### Vectors -/

/-- The vector `v'` is `v`, where the entries in `W` are replaced by those of `g`. -/
structure VPainted (W : ℕ → Prop) (g : ℕ → K) (v v' : Vec K) : Prop where
  n : v'.n = v.n
  inside : ∀ x, W x → v'.e x = g x
  outside : ∀ x, ¬ W x → v'.e x = v.e x

theorem paint_setSegment {v w : Vec K} {off len : ℕ} {g : ℕ → K} (h1 : off + len ≤ v.n) (h2 : w.n = len)
    (hg : ∀ i < len, w.e i = g (off + i)) :
    ∃ v', v.setSegment off len w = .ok v' ∧ VPainted (fun x => off ≤ x ∧ x < off + len) g v v' := by
  refine ⟨_, if_pos ⟨h1, h2⟩, rfl, ?_, ?_⟩
  · intro x hx
    simp only
    rw [if_pos hx, hg _ (by omega)]
    congr 1; omega
  · intro x hx
    exact if_neg hx

theorem vpaint_forRange {n : ℕ} {v : Vec K} {g : ℕ → K} {body : Vec K → ℕ → Res (Vec K)} (W : ℕ → ℕ → Prop)
    (h : ∀ i, i < n → ∀ u : Vec K, u.n = v.n → ∃ u', body u i = .ok u' ∧ VPainted (W i) g u u') :
    ∃ v', forRange n v body = .ok v' ∧ VPainted (fun x => ∃ i < n, W i x) g v v' := by
  refine forRange_post (P := fun k u => VPainted (fun x => ∃ i < k, W i x) g v u) ?_ ?_ ?_
  · exact ⟨rfl, by rintro x ⟨i, hi, -⟩; omega, fun _ _ => rfl⟩
  · intro i u hi hu
    obtain ⟨u', hu', hp⟩ := h i hi u hu.n
    refine ⟨u', hu', hp.n.trans hu.n, ?_, ?_⟩
    · rintro x ⟨j, hj, hw⟩
      by_cases hi' : W i x
      · exact hp.inside x hi'
      · rw [hp.outside x hi']
        have : j ≠ i := by rintro rfl; exact hi' hw
        exact hu.inside x ⟨j, by omega, hw⟩
    · intro x hno
      rw [hp.outside x (fun hw => hno ⟨i, by omega, hw⟩)]
      exact hu.outside x (fun ⟨j, hj, hw⟩ => hno ⟨j, by omega, hw⟩)
  · intro s hs
    exact hs

end Humoto
