import Verif.Lemmas.Condense
import Mathlib.Tactic.Common

/-!
# Consequences of the specification of condensing, time invariant systems, outputs
-/

namespace Humoto

open Spec

variable {K : Type} [Field K]

/-- The trajectory from a given state under given controls. -/
def traj (A B : List (Mat K)) (ns nu : ℕ) (x0 : ℕ → K) (u : ℕ → ℕ → K) : ℕ → ℕ → K
  | 0 => x0
  | k + 1 => fun i =>
    match A[k]?, B[k]? with
    | some a, some b => ∑ j ∈ Finset.range ns, a.e i j * traj A B ns nu x0 u k j + ∑ j ∈ Finset.range nu, b.e i j * u k j
    | _, _ => 0

theorem traj_trajectory (A B : List (Mat K)) (ns nu : ℕ) (x0 : ℕ → K) (u : ℕ → ℕ → K) :
    Trajectory A B ns nu (traj A B ns nu x0 u) u := by
  intro k a b ha hb i _
  rw [traj, ha, hb]

theorem traj_zero (A B : List (Mat K)) (ns nu : ℕ) (u : ℕ → ℕ → K) (m : ℕ) (hu : ∀ k, k < m → ∀ j, u k j = 0) (k : ℕ)
    (hk : k ≤ m) (i : ℕ) : traj A B ns nu (fun _ => 0) u k i = 0 := by
  induction k generalizing i with
  | zero => rfl
  | succ k ih =>
    rw [traj]
    split
    · rename_i a b _ _
      have e1 : ∑ j ∈ Finset.range ns, a.e i j * traj A B ns nu (fun _ => 0) u k j = 0 :=
        Finset.sum_eq_zero fun j _ => by rw [ih (by omega), mul_zero]
      have e2 : ∑ j ∈ Finset.range nu, b.e i j * u k j = 0 :=
        Finset.sum_eq_zero fun j _ => by rw [hu k (by omega), mul_zero]
      show _ + _ = (0 : K)
      rw [e1, e2, add_zero]
    · rfl

/-- Unit controls. -/
def unitControl (m q : ℕ) : ℕ → ℕ → K := fun k j => if k = m ∧ j = q then 1 else 0

theorem controlTerm_zero (U : Mat K) (h nu N k i : ℕ) : controlTerm U h nu N (fun _ _ => 0) k i = 0 := by
  unfold controlTerm
  exact Finset.sum_eq_zero fun m _ => Finset.sum_eq_zero fun j _ => mul_zero _

theorem stateTerm_zero (S : Mat K) (h ns k i : ℕ) : stateTerm S h ns (fun _ => 0) k i = 0 := by
  unfold stateTerm
  exact Finset.sum_eq_zero fun m _ => mul_zero _

theorem controlTerm_unit (U : Mat K) (h nu N k i m q : ℕ) (hm : m < N) (hq : q < nu) :
    controlTerm U h nu N (unitControl m q) k i = U.e (k * h + i) (m * nu + q) := by
  unfold controlTerm unitControl
  rw [Finset.sum_eq_single m, Finset.sum_eq_single q]
  · simp
  · intro j _ hj; simp [hj]
  · intro hn; exact absurd (Finset.mem_range.mpr hq) hn
  · intro j _ hj; exact Finset.sum_eq_zero fun l _ => by simp [hj]
  · intro hn; exact absurd (Finset.mem_range.mpr hm) hn

theorem stateTerm_unit (S : Mat K) (h ns k i j : ℕ) (hj : j < ns) :
    stateTerm S h ns (fun l => if l = j then 1 else 0) k i = S.e (k * h + i) j := by
  unfold stateTerm
  rw [Finset.sum_eq_single j]
  · simp
  · intro l _ hl; simp [hl]
  · intro hn; exact absurd (Finset.mem_range.mpr hj) hn

/-- Condensed matrices are determined by the system. -/
theorem condensed_unique {S S' U U' : Mat K} {A B : List (Mat K)} {ns nu : ℕ} (h : Condensed S U A B ns nu)
    (h' : Condensed S' U' A B ns nu) : S.Equiv S' ∧ U.Equiv U' := by
  refine ⟨⟨by rw [h.rowsS, h'.rowsS], by rw [h.colsS, h'.colsS], ?_⟩, ⟨by rw [h.rowsU, h'.rowsU], by rw [h.colsU, h'.colsU], ?_⟩⟩
  · intro r hr j hj
    rw [h.rowsS] at hr
    rw [h.colsS] at hj
    have hns : 0 < ns := Nat.pos_of_ne_zero fun h0 => by subst h0; omega
    have hk : r / ns < A.length := Nat.div_lt_of_lt_mul (by rw [Nat.mul_comm]; exact hr)
    have hi : r % ns < ns := Nat.mod_lt _ hns
    have er : r = r / ns * ns + r % ns := (Nat.div_add_mod' r ns).symm
    have e1 := h.states _ _ (traj_trajectory A B ns nu (fun l => if l = j then 1 else 0) (fun _ _ => 0)) _ hk _ hi
    have e2 := h'.states _ _ (traj_trajectory A B ns nu (fun l => if l = j then 1 else 0) (fun _ _ => 0)) _ hk _ hi
    rw [controlTerm_zero, add_zero] at e1 e2
    simp only [traj] at e1 e2
    rw [stateTerm_unit _ _ _ _ _ _ hj] at e1 e2
    rw [er, e1, ← e2]
  · intro r hr c hc
    rw [h.rowsU] at hr
    rw [h.colsU] at hc
    have hns : 0 < ns := Nat.pos_of_ne_zero fun h0 => by subst h0; omega
    have hnu : 0 < nu := Nat.pos_of_ne_zero fun h0 => by subst h0; omega
    have hk : r / ns < A.length := Nat.div_lt_of_lt_mul (by rw [Nat.mul_comm]; exact hr)
    have hi : r % ns < ns := Nat.mod_lt _ hns
    have er : r = r / ns * ns + r % ns := (Nat.div_add_mod' r ns).symm
    have hm : c / nu < A.length := Nat.div_lt_of_lt_mul (by rw [Nat.mul_comm]; exact hc)
    have hq : c % nu < nu := Nat.mod_lt _ hnu
    have ec : c = c / nu * nu + c % nu := (Nat.div_add_mod' c nu).symm
    have e1 := h.states _ _ (traj_trajectory A B ns nu (fun _ => 0) (unitControl (c / nu) (c % nu))) _ hk _ hi
    have e2 := h'.states _ _ (traj_trajectory A B ns nu (fun _ => 0) (unitControl (c / nu) (c % nu))) _ hk _ hi
    rw [show (traj A B ns nu (fun _ => 0) (unitControl (c / nu) (c % nu)) 0) = fun _ => 0 from rfl, stateTerm_zero, zero_add,
      controlTerm_unit _ _ _ _ _ _ _ _ hm hq] at e1 e2
    rw [er, ec, e1, ← e2]

/-- Later controls do not influence earlier states. -/
theorem condensed_causal {S U : Mat K} {A B : List (Mat K)} {ns nu : ℕ} (h : Condensed S U A B ns nu) {k m i q : ℕ}
    (hm : m < A.length) (hkm : k < m) (hi : i < ns) (hq : q < nu) : U.e (k * ns + i) (m * nu + q) = 0 := by
  have e1 := h.states _ _ (traj_trajectory A B ns nu (fun _ => 0) (unitControl m q)) k (by omega) i hi
  rw [show (traj A B ns nu (fun _ => 0) (unitControl m q) 0) = fun _ => 0 from rfl, stateTerm_zero, zero_add,
    controlTerm_unit _ _ _ _ _ _ _ _ hm hq] at e1
  rw [e1]
  refine traj_zero A B ns nu _ m (fun l hl j => ?_) (k + 1) (by omega) i
  unfold unitControl
  rw [if_neg (by omega)]

/-! ### Time invariant systems -/

/-- `A^(k+1)`. -/
def powE (a : Mat K) (ns : ℕ) : ℕ → ℕ → ℕ → K
  | 0 => a.e
  | k + 1 => fun p q => ∑ l ∈ Finset.range ns, powE a ns k p l * a.e l q

/-- `A^k B`. -/
def impE (a b : Mat K) (ns : ℕ) : ℕ → ℕ → ℕ → K
  | 0 => b.e
  | k + 1 => fun p q => ∑ l ∈ Finset.range ns, powE a ns k p l * b.e l q

theorem powE_comm (a : Mat K) (ns k p q : ℕ) :
    powE a ns (k + 1) p q = ∑ l ∈ Finset.range ns, a.e p l * powE a ns k l q := by
  induction k generalizing p q with
  | zero => rfl
  | succ k ih =>
    show ∑ l ∈ Finset.range ns, powE a ns (k + 1) p l * a.e l q =
      ∑ l ∈ Finset.range ns, a.e p l * ∑ j ∈ Finset.range ns, powE a ns k l j * a.e j q
    rw [sum_mul_swap]
    exact Finset.sum_congr rfl fun l _ => by rw [ih]

theorem impE_succ (a b : Mat K) (ns k p q : ℕ) :
    impE a b ns (k + 1) p q = ∑ l ∈ Finset.range ns, a.e p l * impE a b ns k l q := by
  cases k with
  | zero => rfl
  | succ k =>
    show ∑ l ∈ Finset.range ns, powE a ns (k + 1) p l * b.e l q =
      ∑ l ∈ Finset.range ns, a.e p l * ∑ j ∈ Finset.range ns, powE a ns k l j * b.e j q
    rw [sum_mul_swap]
    exact Finset.sum_congr rfl fun l _ => by rw [powE_comm]

theorem invariant_traj {a b : Mat K} {ns nu N : ℕ} {x u : ℕ → ℕ → K}
    (ht : Trajectory (List.replicate N a) (List.replicate N b) ns nu x u) (k : ℕ) (hk : k < N) (i : ℕ) (hi : i < ns) :
    x (k + 1) i = ∑ j ∈ Finset.range ns, powE a ns k i j * x 0 j +
      ∑ m ∈ Finset.range (k + 1), ∑ q ∈ Finset.range nu, impE a b ns (k - m) i q * u m q := by
  induction k generalizing i with
  | zero =>
    have := ht 0 a b (by simp [hk]) (by simp [hk]) i hi
    rw [this]
    simp [powE, impE]
  | succ k ih =>
    have := ht (k + 1) a b (by simp [hk]) (by simp [hk]) i hi
    rw [this, Finset.sum_range_succ _ (k + 1), Nat.sub_self]
    rw [show impE a b ns 0 = b.e from rfl, ← add_assoc]
    congr 1
    have e : ∀ j ∈ Finset.range ns, a.e i j * x (k + 1) j =
        a.e i j * (∑ l ∈ Finset.range ns, powE a ns k j l * x 0 l) +
        ∑ m ∈ Finset.range (k + 1), a.e i j * ∑ q ∈ Finset.range nu, impE a b ns (k - m) j q * u m q := by
      intro j hj
      rw [ih (by omega) j (Finset.mem_range.mp hj), mul_add, Finset.mul_sum (s := Finset.range (k + 1))]
    rw [Finset.sum_congr rfl e, Finset.sum_add_distrib]
    congr 1
    · rw [sum_mul_swap]
      exact Finset.sum_congr rfl fun j _ => by rw [powE_comm]
    · rw [Finset.sum_comm]
      refine Finset.sum_congr rfl fun m hm => ?_
      have hm' := Finset.mem_range.mp hm
      rw [sum_mul_swap]
      refine Finset.sum_congr rfl fun q _ => ?_
      rw [show k + 1 - m = k - m + 1 by omega, impE_succ]

theorem invariant_condensed {a b S U : Mat K} {ns nu N : ℕ} (hS : Blk S N 1 ns ns (fun i _ p q => powE a ns i p q))
    (hU : Blk U N N ns nu (fun i m p q => if m ≤ i then impE a b ns (i - m) p q else 0)) :
    Condensed S U (List.replicate N a) (List.replicate N b) ns nu := by
  refine ⟨by simp [hS.rows], by rw [hS.cols]; ring, by simp [hU.rows], by simp [hU.cols], ?_⟩
  intro x u ht k hk i hi
  rw [List.length_replicate] at hk ⊢
  rw [invariant_traj ht k hk i hi]
  unfold stateTerm controlTerm
  congr 1
  · refine Finset.sum_congr rfl fun j hj => ?_
    have := hS.entry k 0 i j hk (by omega) hi (Finset.mem_range.mp hj)
    rw [Nat.zero_mul, Nat.zero_add] at this
    rw [this]
  · rw [← Finset.sum_subset (Finset.range_subset_range.mpr (show k + 1 ≤ N by omega))]
    · refine Finset.sum_congr rfl fun m hm => Finset.sum_congr rfl fun q hq => ?_
      have hm' := Finset.mem_range.mp hm
      rw [hU.entry k m i q hk (by omega) hi (Finset.mem_range.mp hq), if_pos (by omega)]
    · intro m hm hn
      have hm' := Finset.mem_range.mp hm
      have hn' : ¬ m < k + 1 := fun h => hn (Finset.mem_range.mpr h)
      refine Finset.sum_eq_zero fun q hq => ?_
      rw [hU.entry k m i q hk hm' hi (Finset.mem_range.mp hq), if_neg (by omega), zero_mul]

theorem condenseTimeInvariant_ok (junk : ℕ → ℕ → K) {N : ℕ} {a b : Mat K} {ns nu : ℕ} (hN : 0 < N) (ha1 : a.rows = ns)
    (ha2 : a.cols = ns) (hb1 : b.rows = ns) (hb2 : b.cols = nu) :
    ∃ S U, condenseTimeInvariant junk N a b = .ok (S, U) ∧
      Condensed S U (List.replicate N a) (List.replicate N b) ns nu := by
  have hS0 : Blk (⟨ns * N, ns, junk⟩ : Mat K) N 1 ns ns (fun i j p q => junk (i * ns + p) (j * ns + q)) :=
    ⟨Nat.mul_comm _ _, (Nat.one_mul _).symm, fun _ _ _ _ _ _ _ _ => rfl⟩
  obtain ⟨S1, e1, h1⟩ := hS0.setBlock 0 0 1 1 (by omega) (by omega) (Blk.one' ha1 ha2)
  simp only [Nat.zero_mul, Nat.one_mul] at e1
  have hloop : ∃ r, forRange (N - 1) (S1, a) (fun (x : Mat K × Mat K) t => match x with
      | (S, M) => do
        let M ← M.mul a
        let S ← S.setBlock ((t + 1) * a.rows) 0 a.rows a.cols M
        pure (S, M)) = .ok r ∧ Blk r.1 N 1 ns ns (fun i _ p q => powE a ns i p q) := by
    refine forRange_post (P := fun t r => Blk r.2 1 1 ns ns (fun _ _ p q => powE a ns t p q) ∧
      ∃ F, Blk r.1 N 1 ns ns F ∧ ∀ i p q, i ≤ t → i < N → p < ns → q < ns → F i 0 p q = powE a ns i p q) ?_ ?_ ?_
    · refine ⟨Blk.one' ha1 ha2, _, h1, ?_⟩
      intro i p q hi _ hp hq
      have : i = 0 := by omega
      subst i
      rw [if_pos (by omega)]; rfl
    · rintro t ⟨S, M⟩ ht ⟨hM, F, hS, hF⟩
      obtain ⟨M', e2, h2⟩ := hM.mul ha1 ha2
      obtain ⟨S', e3, h3⟩ := hS.setBlock (t + 1) 0 1 1 (by omega) (by omega) h2
      simp only [Nat.zero_mul, Nat.one_mul] at e3
      refine ⟨(S', M'), ?_, h2, _, h3, ?_⟩
      · dsimp only
        rw [e2, ok_bind, ha1, ha2, e3, ok_bind]
        rfl
      · intro i p q hi hiN hp hq
        by_cases c : i = t + 1
        · subst i
          rw [if_pos (by omega)]
          rfl
        · rw [if_neg (by omega)]
          exact hF i p q (by omega) hiN hp hq
    · rintro ⟨S, M⟩ ⟨_, F, hS, hF⟩
      refine hS.congr fun i j p q hi hj hp hq => ?_
      have : j = 0 := by omega
      subst j
      exact hF i p q (by omega) hi hp hq
  obtain ⟨⟨S2, M2⟩, e2, h2⟩ := hloop
  obtain ⟨s, e3, h3⟩ := h2.block 0 0 (N - 1) 1 (by omega) (by omega)
  obtain ⟨p, e4, h4⟩ := h3.mul hb1 hb2
  simp only [Nat.zero_mul, Nat.one_mul] at e3
  have hbot : p.rows = (N - 1) * ns := h4.rows
  have hcol : ∃ C, Mat.commaInit (ns * N) nu b p = .ok C ∧ Blk C N 1 ns nu (fun i _ p q => impE a b ns i p q) := by
    have hsz : ns + (N - 1) * ns = ns * N := by
      obtain ⟨n, rfl⟩ : ∃ n, N = n + 1 := ⟨N - 1, by omega⟩
      simp only [Nat.add_sub_cancel]; ring
    refine ⟨⟨ns * N, nu, fun i j => if i < b.rows then b.e i j else p.e (i - b.rows) j⟩, ?_, Nat.mul_comm _ _,
      (Nat.one_mul _).symm, ?_⟩
    · unfold Mat.commaInit
      have h4c : p.cols = nu := by rw [h4.cols]; ring
      rw [require_true ⟨hb2, h4c, by rw [hb1, hbot, hsz]⟩]
      rfl
    · intro i j p' q hi hj hp hq
      have : j = 0 := by omega
      subst j
      simp only [Nat.zero_mul, Nat.zero_add, hb1]
      cases i with
      | zero =>
        simp only [Nat.zero_mul, Nat.zero_add]
        rw [if_pos hp]; rfl
      | succ i =>
        have e : (i + 1) * ns + p' - ns = i * ns + p' := by
          have : (i + 1) * ns = i * ns + ns := by ring
          omega
        have hge : ¬ ((i + 1) * ns + p' < ns) := by
          have : (i + 1) * ns = i * ns + ns := by ring
          omega
        rw [if_neg hge, e]
        have := h4.entry i 0 p' q (by omega) (by omega) hp hq
        rw [Nat.zero_mul, Nat.zero_add] at this
        rw [this]
        simp only [Nat.zero_add]
        rfl
  obtain ⟨C, e5, h5⟩ := hcol
  have hU0 : Blk (⟨ns * N, nu * N, fun _ _ => 0⟩ : Mat K) N N ns nu (fun _ _ _ _ => 0) :=
    ⟨Nat.mul_comm _ _, Nat.mul_comm _ _, fun _ _ _ _ _ _ _ _ => rfl⟩
  have hloop2 : ∃ U, forRange N (⟨ns * N, nu * N, fun _ _ => 0⟩ : Mat K) (fun U i => do
      let c ← C.block 0 0 (b.rows * (N - i)) b.cols
      U.setBlock (b.rows * i) (b.cols * i) (b.rows * (N - i)) b.cols c) = .ok U ∧
      Blk U N N ns nu (fun i m p q => if m ≤ i then impE a b ns (i - m) p q else 0) := by
    refine forRange_post (P := fun t U => Blk U N N ns nu
      (fun i m p q => if m < t ∧ m ≤ i then impE a b ns (i - m) p q else 0)) ?_ ?_ ?_
    · exact hU0.congr fun i m p q _ _ _ _ => by rw [if_neg (by omega)]
    · intro t U ht hU
      obtain ⟨c, e6, h6⟩ := h5.block 0 0 (N - t) 1 (by omega) (by omega)
      obtain ⟨U', e7, h7⟩ := hU.setBlock t t (N - t) 1 (by omega) (by omega) h6
      simp only [Nat.zero_mul, Nat.one_mul] at e6 e7
      refine ⟨U', ?_, h7.congr ?_⟩
      · rw [hb1, hb2, Nat.mul_comm ns (N - t), e6, ok_bind, Nat.mul_comm ns t, Nat.mul_comm nu t, e7]
      · intro i m p q hi hm hp hq
        by_cases c : m = t ∧ t ≤ i
        · rw [if_pos (by omega), if_pos (by omega), c.1, Nat.zero_add]
        · rw [if_neg (by omega)]
          by_cases c' : m < t ∧ m ≤ i
          · rw [if_pos c', if_pos (by omega)]
          · rw [if_neg c', if_neg (by omega)]
    · intro U hU
      refine hU.congr fun i m p q hi hm _ _ => ?_
      by_cases c : m ≤ i
      · rw [if_pos ⟨hm, c⟩, if_pos c]
      · rw [if_neg (by omega), if_neg c]
  obtain ⟨U, e8, h8⟩ := hloop2
  refine ⟨S2, U, ?_, invariant_condensed h2 h8⟩
  unfold condenseTimeInvariant
  dsimp only
  rw [ha1, ha2] at e2
  simp only [ha1, ha2]
  rw [e1, ok_bind, e2, ok_bind]
  dsimp only
  rw [hb1, hb2, Nat.mul_comm ns (N - 1), e3, ok_bind, e4, ok_bind, e5, ok_bind]
  rw [hb1, hb2] at e8
  rw [e8, ok_bind]
  rfl

/-! ### Outputs -/

/-- Values of the blocks of the condensed output matrices. -/
theorem output_condensed {S U Ox Ou : Mat K} {A B D E : List (Mat K)} {ns nu ny : ℕ} (h : Condensed S U A B ns nu)
    (hD : D.length = A.length) (hE : E.length = A.length)
    {F G : ℕ → ℕ → ℕ → ℕ → K} (hOx : Blk Ox A.length 1 ny ns F) (hOu : Blk Ou A.length A.length ny nu G)
    (hF0 : ∀ d, D[0]? = some d → ∀ i j, i < ny → j < ns → F 0 0 i j = d.e i j)
    (hF : ∀ k d, D[k + 1]? = some d → ∀ i j, i < ny → j < ns →
      F (k + 1) 0 i j = ∑ l ∈ Finset.range ns, d.e i l * S.e (k * ns + l) j)
    (hG : ∀ (k : ℕ) e, E[k]? = some e → ∀ i q, i < ny → q < nu → G k k i q = e.e i q)
    (hG0 : ∀ k m, k < m → m < A.length → ∀ i q, i < ny → q < nu → G k m i q = 0)
    (hG1 : ∀ k m d, D[k + 1]? = some d → m ≤ k → ∀ i q, i < ny → q < nu →
      G (k + 1) m i q = ∑ l ∈ Finset.range ns, d.e i l * U.e (k * ns + l) (m * nu + q)) :
    CondensedOutput Ox Ou A B D E ns nu ny := by
  refine ⟨hOx.rows, by rw [hOx.cols]; ring, hOu.rows, hOu.cols, ?_⟩
  intro x u ht k d e hd he i hi
  have hk : k < A.length := by
    rw [← hD]
    by_contra hc
    rw [List.getElem?_eq_none (by omega)] at hd
    cases hd
  unfold output
  have eE : ∑ j ∈ Finset.range nu, G k k i j * u k j = ∑ j ∈ Finset.range nu, e.e i j * u k j :=
    Finset.sum_congr rfl fun q hq => by rw [hG k e he i q hi (Finset.mem_range.mp hq)]
  have eX : stateTerm Ox ny ns (x 0) k i = ∑ j ∈ Finset.range ns, F k 0 i j * x 0 j := by
    unfold stateTerm
    refine Finset.sum_congr rfl fun j hj => ?_
    have := hOx.entry k 0 i j hk (by omega) hi (Finset.mem_range.mp hj)
    rw [Nat.zero_mul, Nat.zero_add] at this
    rw [this]
  have eU : controlTerm Ou ny nu A.length u k i =
      ∑ m ∈ Finset.range k, (∑ q ∈ Finset.range nu, G k m i q * u m q) + ∑ q ∈ Finset.range nu, G k k i q * u k q := by
    unfold controlTerm
    rw [← Finset.sum_range_succ, ← Finset.sum_subset (Finset.range_subset_range.mpr (show k + 1 ≤ A.length by omega))]
    · refine Finset.sum_congr rfl fun m hm => Finset.sum_congr rfl fun q hq => ?_
      have hm' := Finset.mem_range.mp hm
      rw [hOu.entry k m i q hk (by omega) hi (Finset.mem_range.mp hq)]
    · intro m hm hn
      have hm' := Finset.mem_range.mp hm
      have hn' : ¬ m < k + 1 := fun h => hn (Finset.mem_range.mpr h)
      refine Finset.sum_eq_zero fun q hq => ?_
      rw [hOu.entry k m i q hk hm' hi (Finset.mem_range.mp hq), hG0 k m (by omega) hm' i q hi (Finset.mem_range.mp hq), zero_mul]
  rw [eX, eU, eE, ← add_assoc]
  congr 1
  cases k with
  | zero =>
    rw [Finset.sum_range_zero, add_zero]
    exact Finset.sum_congr rfl fun j hj => by rw [hF0 d hd i j hi (Finset.mem_range.mp hj)]
  | succ k =>
    have hx : ∀ l ∈ Finset.range ns, d.e i l * x (k + 1) l = d.e i l * (∑ j ∈ Finset.range ns, S.e (k * ns + l) j * x 0 j) +
        ∑ m ∈ Finset.range (k + 1), d.e i l * ∑ q ∈ Finset.range nu, U.e (k * ns + l) (m * nu + q) * u m q := by
      intro l hl
      have hl' := Finset.mem_range.mp hl
      rw [← h.states x u ht k (by omega) l hl', mul_add]
      congr 1
      rw [← Finset.mul_sum]
      congr 1
      unfold controlTerm
      rw [← Finset.sum_subset (Finset.range_subset_range.mpr (show k + 1 ≤ A.length by omega))]
      intro m hm hn
      have hm' := Finset.mem_range.mp hm
      have hn' : ¬ m < k + 1 := fun h => hn (Finset.mem_range.mpr h)
      refine Finset.sum_eq_zero fun q hq => ?_
      rw [condensed_causal h hm' (by omega) hl' (Finset.mem_range.mp hq), zero_mul]
    rw [Finset.sum_congr rfl hx, Finset.sum_add_distrib]
    congr 1
    · rw [sum_mul_swap]
      exact Finset.sum_congr rfl fun j hj => by rw [hF k d hd i j hi (Finset.mem_range.mp hj)]
    · symm
      rw [Finset.sum_comm]
      refine Finset.sum_congr rfl fun m hm => ?_
      have hm' := Finset.mem_range.mp hm
      rw [sum_mul_swap]
      refine Finset.sum_congr rfl fun q hq => ?_
      rw [hG1 k m d hd (by omega) i q hi (Finset.mem_range.mp hq)]

omit [Field K] in
/-- A condensed matrix as a block matrix. -/
theorem blkM_of_sizes {M : BlockMat K} {nv nh h w : ℕ} (h1 : M.br = h) (h2 : M.bc = w) (h3 : M.m.rows = nv * h)
    (h4 : M.m.cols = nh * w) : BlkM M nv nh h w (fun i j p q => M.m.e (i * h + p) (j * w + q)) :=
  ⟨h1, h2, h3, h4, fun _ _ _ _ _ _ _ _ => rfl⟩

theorem condenseOutput_ok' (junk : ℕ → ℕ → K) {A B D E : List (Mat K)} {ns nu ny : ℕ} {Ox0 Ou0 S U : BlockMat K}
    (hN : 0 < A.length) (hns : 0 < ns) (hnu : 0 < nu) (hny : 0 < ny)
    (hS1 : S.br = ns) (hS2 : S.bc = ns) (hU1 : U.br = ns) (hU2 : U.bc = nu) (h : Condensed S.m U.m A B ns nu)
    (hX1 : Ox0.br = ny) (hX2 : Ox0.bc = ns) (hO1 : Ou0.br = ny) (hO2 : Ou0.bc = nu)
    (hDl : D.length = A.length) (hEl : E.length = A.length) (hD : AllSize D ny ns) (hE : AllSize E ny nu) :
    ∃ Ox Ou, condenseOutput junk Ox0 Ou0 D E S U = .ok (Ox, Ou) ∧ Ox.br = ny ∧ Ox.bc = ns ∧ Ou.br = ny ∧ Ou.bc = nu ∧
      CondensedOutput Ox.m Ou.m A B D E ns nu ny := by
  have hS : BlkM S A.length 1 ns ns _ := blkM_of_sizes hS1 hS2 h.rowsS (by rw [h.colsS]; ring)
  have hU : BlkM U A.length A.length ns nu _ := blkM_of_sizes hU1 hU2 h.rowsU h.colsU
  obtain ⟨d0, hd0, hd1, hd2⟩ := AllSize.get hD (k := 0) (by omega)
  obtain ⟨e0, he0, he1, he2⟩ := AllSize.get hE (k := 0) (by omega)
  obtain ⟨X1, e1, h1⟩ := BlkM.resize Ox0 junk A.length 1 (by omega) (by omega)
  obtain ⟨O1, e2, h2⟩ := BlkM.setZero Ou0 A.length A.length (by omega) (by omega)
  rw [hX1, hX2] at h1
  rw [hO1, hO2] at h2
  obtain ⟨X2, e3, h3⟩ := h1.set (i0 := 0) (j0 := 0) (by omega) (by omega) (Blk.one' hd1 hd2)
  obtain ⟨O2, e4, h4⟩ := h2.set (i0 := 0) (j0 := 0) (by omega) (by omega) (Blk.one' he1 he2)
  have hloop : ∃ r, forRange (A.length - 1) (X2, O2) (fun (x : BlockMat K × BlockMat K) t => match x with
      | (Ox, Ou) => condenseOutputStep D E S U Ox Ou (t + 1)) = .ok r ∧
      r.1.br = ny ∧ r.1.bc = ns ∧ r.2.br = ny ∧ r.2.bc = nu ∧ CondensedOutput r.1.m r.2.m A B D E ns nu ny := by
    refine forRange_post (P := fun t r => ∃ F G, BlkM r.1 A.length 1 ny ns F ∧ BlkM r.2 A.length A.length ny nu G ∧
      (∀ d, D[0]? = some d → ∀ i j, i < ny → j < ns → F 0 0 i j = d.e i j) ∧
      (∀ k d, k < t → D[k + 1]? = some d → ∀ i j, i < ny → j < ns →
        F (k + 1) 0 i j = ∑ l ∈ Finset.range ns, d.e i l * S.m.e (k * ns + l) j) ∧
      (∀ (k : ℕ) e, k ≤ t → E[k]? = some e → ∀ i q, i < ny → q < nu → G k k i q = e.e i q) ∧
      (∀ k m, k < m → m < A.length → ∀ i q, i < ny → q < nu → G k m i q = 0) ∧
      (∀ k m d, k < t → D[k + 1]? = some d → m ≤ k → ∀ i q, i < ny → q < nu →
        G (k + 1) m i q = ∑ l ∈ Finset.range ns, d.e i l * U.m.e (k * ns + l) (m * nu + q))) ?_ ?_ ?_
    · refine ⟨_, _, h3, h4, ?_, ?_, ?_, ?_, ?_⟩
      · intro d hd i j _ _
        rw [hd0] at hd; cases hd
        rw [if_pos ⟨rfl, rfl⟩]
      · intro k d hk; omega
      · intro k e hk he i q _ _
        have : k = 0 := by omega
        subst k
        rw [he0] at he; cases he
        rw [if_pos ⟨rfl, rfl⟩]
      · intro k m hkm hm i q _ _
        rw [if_neg (by omega)]
      · intro k m d hk; omega
    · rintro t ⟨X, O⟩ ht ⟨F, G, hX, hO, i1, i2, i3, i4, i5⟩
      obtain ⟨d, hd, hd1, hd2⟩ := AllSize.get hD (k := t + 1) (by omega)
      obtain ⟨e, he, he1, he2⟩ := AllSize.get hE (k := t + 1) (by omega)
      obtain ⟨x, f1, g1⟩ := hS.get (i := t) (j := 0) (by omega) (by omega)
      obtain ⟨p, f2, g2⟩ := g1.mulLeft hd1 hd2
      obtain ⟨X', f3, g3⟩ := hX.set (i0 := t + 1) (j0 := 0) (by omega) (by omega) g2
      obtain ⟨u, f4, g4⟩ := hU.row (i := t) (n := t + 1) (by omega) (by omega)
      obtain ⟨q, f5, g5⟩ := g4.mulLeft hd1 hd2
      obtain ⟨O', f6, g6⟩ := hO.setRow (i0 := t + 1) (n := t + 1) (by omega) (by omega) g5
      obtain ⟨O'', f7, g7⟩ := g6.set (i0 := t + 1) (j0 := t + 1) (by omega) (by omega) (Blk.one' he1 he2)
      refine ⟨(X', O''), ?_, _, _, g3, g7, ?_, ?_, ?_, ?_, ?_⟩
      · dsimp only
        unfold condenseOutputStep
        rw [Nat.add_sub_cancel, vecAt_ok hd, ok_bind, f1, ok_bind, f2, ok_bind, f3, ok_bind, f4, ok_bind, f5, ok_bind, f6,
          ok_bind, vecAt_ok he, ok_bind, f7, ok_bind]
        rfl
      · intro d' hd' i j hi hj
        rw [if_neg (by omega)]
        exact i1 d' hd' i j hi hj
      · intro k d' hk hd' i j hi hj
        by_cases c : k = t
        · subst k
          rw [hd] at hd'; cases hd'
          rw [if_pos ⟨rfl, rfl⟩]
          exact Finset.sum_congr rfl fun l _ => by rw [Nat.zero_mul, Nat.zero_add]
        · rw [if_neg (by omega)]
          exact i2 k d' (by omega) hd' i j hi hj
      · intro k e' hk he' i q hi hq
        by_cases c : k = t + 1
        · subst k
          rw [he] at he'; cases he'
          rw [if_pos ⟨rfl, rfl⟩]
        · rw [if_neg (by omega), if_neg (by omega)]
          exact i3 k e' (by omega) he' i q hi hq
      · intro k m hkm hm i q hi hq
        rw [if_neg (by omega), if_neg (by omega)]
        exact i4 k m hkm hm i q hi hq
      · intro k m d' hk hd' hm i q hi hq
        by_cases c : k = t
        · subst k
          rw [hd] at hd'; cases hd'
          rw [if_neg (by omega), if_pos (by omega)]
        · rw [if_neg (by omega), if_neg (by omega)]
          exact i5 k m d' (by omega) hd' hm i q hi hq
    · rintro ⟨X, O⟩ ⟨F, G, hX, hO, i1, i2, i3, i4, i5⟩
      refine ⟨hX.br, hX.bc, hO.br, hO.bc, ?_⟩
      refine output_condensed h hDl hEl hX.blk hO.blk i1 ?_ ?_ i4 ?_
      · intro k d hd
        have hk : k + 1 < D.length := by
          by_contra hc
          rw [List.getElem?_eq_none (by omega)] at hd; cases hd
        exact i2 k d (by omega) hd
      · intro k e he
        have hk : k < E.length := by
          by_contra hc
          rw [List.getElem?_eq_none (by omega)] at he; cases he
        exact i3 k e (by omega) he
      · intro k m d hd
        have hk : k + 1 < D.length := by
          by_contra hc
          rw [List.getElem?_eq_none (by omega)] at hd; cases hd
        exact i5 k m d (by omega) hd
  obtain ⟨⟨X, O⟩, e5, h5⟩ := hloop
  refine ⟨X, O, ?_, h5⟩
  unfold condenseOutput
  dsimp only
  rw [hS.nVert hns, hS.nHor hns, hU.nVert hns, hU.nHor hnu, assertThat_true rfl, ok_bind, assertThat_true ⟨rfl, rfl⟩, ok_bind,
    assertThat_true (by omega), ok_bind, assertThat_true (by omega), ok_bind, e1, ok_bind, vecAt_ok hd0, ok_bind, e3, ok_bind,
    e2, ok_bind, vecAt_ok he0, ok_bind, e4, ok_bind, e5]

theorem condenseOutput_ok (junk : ℕ → ℕ → K) {A B D E : List (Mat K)} {ns nu ny : ℕ} {Ox0 Ou0 S U : BlockMat K}
    (hN : 0 < A.length) (hns : 0 < ns) (hnu : 0 < nu) (hny : 0 < ny)
    (hS1 : S.br = ns) (hS2 : S.bc = ns) (hU1 : U.br = ns) (hU2 : U.bc = nu) (h : Condensed S.m U.m A B ns nu)
    (hX1 : Ox0.br = ny) (hX2 : Ox0.bc = ns) (hO1 : Ou0.br = ny) (hO2 : Ou0.bc = nu)
    (hDl : D.length = A.length) (hEl : E.length = A.length) (hD : AllSize D ny ns) (hE : AllSize E ny nu) :
    ∃ Ox Ou, condenseOutput junk Ox0 Ou0 D E S U = .ok (Ox, Ou) ∧
      CondensedOutput Ox.m Ou.m A B D E ns nu ny := by
  obtain ⟨Ox, Ou, h1, -, -, -, -, h2⟩ :=
    condenseOutput_ok' junk hN hns hnu hny hS1 hS2 hU1 hU2 h hX1 hX2 hO1 hO2 hDl hEl hD hE
  exact ⟨Ox, Ou, h1, h2⟩

theorem condenseOutputDense_ok (junk : ℕ → ℕ → K) {A B : List (Mat K)} {ns nu ny : ℕ} {S U d e : Mat K}
    (hN : 0 < A.length) (hns : 0 < ns) (h : Condensed S U A B ns nu)
    (hd1 : d.rows = ny) (hd2 : d.cols = ns) (he1 : e.rows = ny) (he2 : e.cols = nu) :
    ∃ Ox Ou, condenseOutputDense junk d e S U = .ok (Ox, Ou) ∧
      CondensedOutput Ox Ou A B (List.replicate A.length d) (List.replicate A.length e) ns nu ny := by
  have hS : Blk S A.length 1 ns ns (fun i j p q => S.e (i * ns + p) (j * ns + q)) :=
    ⟨h.rowsS, by rw [h.colsS]; ring, fun _ _ _ _ _ _ _ _ => rfl⟩
  have hU : Blk U A.length A.length ns nu (fun i j p q => U.e (i * ns + p) (j * nu + q)) :=
    ⟨h.rowsU, h.colsU, fun _ _ _ _ _ _ _ _ => rfl⟩
  have hX0 : Blk (⟨A.length * ny, ns, junk⟩ : Mat K) A.length 1 ny ns (fun i j p q => junk (i * ny + p) (j * ns + q)) :=
    ⟨rfl, (Nat.one_mul _).symm, fun _ _ _ _ _ _ _ _ => rfl⟩
  have hO0 : Blk (⟨A.length * ny, A.length * nu, fun _ _ => 0⟩ : Mat K) A.length A.length ny nu (fun _ _ _ _ => 0) :=
    ⟨rfl, rfl, fun _ _ _ _ _ _ _ _ => rfl⟩
  obtain ⟨X2, e3, h3⟩ := hX0.setBlock 0 0 1 1 (by omega) (by omega) (Blk.one' hd1 hd2)
  obtain ⟨O2, e4, h4⟩ := hO0.setBlock 0 0 1 1 (by omega) (by omega) (Blk.one' he1 he2)
  simp only [Nat.zero_mul, Nat.one_mul] at e3 e4
  have hloop : ∃ r, forRange (A.length - 1) (X2, O2) (fun (x : Mat K × Mat K) t => match x with
      | (Ox, Ou) => condenseOutputDenseStep d e S U ns nu ny A.length Ox Ou (t + 1)) = .ok r ∧
      CondensedOutput r.1 r.2 A B (List.replicate A.length d) (List.replicate A.length e) ns nu ny := by
    refine forRange_post (P := fun t r => ∃ F G, Blk r.1 A.length 1 ny ns F ∧ Blk r.2 A.length A.length ny nu G ∧
      (∀ i j, i < ny → j < ns → F 0 0 i j = d.e i j) ∧
      (∀ k, k < t → ∀ i j, i < ny → j < ns →
        F (k + 1) 0 i j = ∑ l ∈ Finset.range ns, d.e i l * S.e (k * ns + l) j) ∧
      (∀ (k : ℕ), k ≤ t → ∀ i q, i < ny → q < nu → G k k i q = e.e i q) ∧
      (∀ k m, k < m → m < A.length → ∀ i q, i < ny → q < nu → G k m i q = 0) ∧
      (∀ k m, k < t → m ≤ k → ∀ i q, i < ny → q < nu →
        G (k + 1) m i q = ∑ l ∈ Finset.range ns, d.e i l * U.e (k * ns + l) (m * nu + q))) ?_ ?_ ?_
    · refine ⟨_, _, h3, h4, ?_, ?_, ?_, ?_, ?_⟩
      · intro i j _ _
        rw [if_pos (by omega)]
      · intro k hk; omega
      · intro k hk i q _ _
        have : k = 0 := by omega
        subst k
        rw [if_pos (by omega)]
      · intro k m hkm hm i q _ _
        rw [if_neg (by omega)]
      · intro k m hk; omega
    · rintro t ⟨X, O⟩ ht ⟨F, G, hX, hO, i1, i2, i3, i4, i5⟩
      obtain ⟨x, f1, g1⟩ := hS.block t 0 1 1 (by omega) (by omega)
      obtain ⟨p, f2, g2⟩ := g1.mulLeft hd1 hd2
      obtain ⟨X', f3, g3⟩ := hX.setBlock (t + 1) 0 1 1 (by omega) (by omega) g2
      obtain ⟨u, f4, g4⟩ := hU.block t 0 1 A.length (by omega) (by omega)
      obtain ⟨q, f5, g5⟩ := g4.mulLeft hd1 hd2
      obtain ⟨O', f6, g6⟩ := hO.setBlock (t + 1) 0 1 A.length (by omega) (by omega) g5
      obtain ⟨O'', f7, g7⟩ := g6.setBlock (t + 1) (t + 1) 1 1 (by omega) (by omega) (Blk.one' he1 he2)
      simp only [Nat.zero_mul, Nat.one_mul] at f1 f3 f4 f6 f7
      refine ⟨(X', O''), ?_, _, _, g3, g7, ?_, ?_, ?_, ?_, ?_⟩
      · dsimp only
        unfold condenseOutputDenseStep
        rw [Nat.add_sub_cancel, f1, ok_bind, f2, ok_bind, f3, ok_bind, h.colsU, f4, ok_bind, f5, ok_bind, f6, ok_bind, f7,
          ok_bind]
        rfl
      · intro i j hi hj
        rw [if_neg (by omega)]
        exact i1 i j hi hj
      · intro k hk i j hi hj
        by_cases c : k = t
        · subst k
          rw [if_pos (by omega)]
          exact Finset.sum_congr rfl fun l _ => by simp
        · rw [if_neg (by omega)]
          exact i2 k (by omega) i j hi hj
      · intro k hk i q hi hq
        by_cases c : k = t + 1
        · subst k
          rw [if_pos (by omega)]
        · rw [if_neg (by omega), if_neg (by omega)]
          exact i3 k (by omega) i q hi hq
      · intro k m hkm hm i q hi hq
        rw [if_neg (by omega)]
        by_cases c : k = t + 1
        · subst k
          rw [if_pos (by omega)]
          refine Finset.sum_eq_zero fun l hl => ?_
          rw [Nat.zero_add, Nat.sub_zero, Nat.add_zero, condensed_causal h hm (by omega) (Finset.mem_range.mp hl) hq, mul_zero]
        · rw [if_neg (by omega)]
          exact i4 k m hkm hm i q hi hq
      · intro k m hk hm i q hi hq
        by_cases c : k = t
        · subst k
          rw [if_neg (by omega), if_pos (by omega)]
          exact Finset.sum_congr rfl fun l _ => by simp
        · rw [if_neg (by omega), if_neg (by omega)]
          exact i5 k m (by omega) hm i q hi hq
    · rintro ⟨X, O⟩ ⟨F, G, hX, hO, i1, i2, i3, i4, i5⟩
      have hr : ∀ (m : Mat K) (k : ℕ) (y : Mat K), (List.replicate A.length m)[k]? = some y → k < A.length ∧ m = y := by
        intro m k y hy
        rw [List.getElem?_replicate] at hy
        by_cases c : k < A.length
        · rw [if_pos c] at hy; exact ⟨c, Option.some.inj hy⟩
        · rw [if_neg c] at hy; cases hy
      refine output_condensed h (List.length_replicate ..) (List.length_replicate ..) hX hO ?_ ?_ ?_ i4 ?_
      · intro d' hd'
        obtain ⟨_, rfl⟩ := hr _ _ _ hd'
        exact i1
      · intro k d' hd'
        obtain ⟨_, rfl⟩ := hr _ _ _ hd'
        exact i2 k (by omega)
      · intro k e' he'
        obtain ⟨_, rfl⟩ := hr _ _ _ he'
        exact i3 k (by omega)
      · intro k m d' hd'
        obtain ⟨_, rfl⟩ := hr _ _ _ hd'
        exact i5 k m (by omega)
  obtain ⟨⟨X, O⟩, e5, h5⟩ := hloop
  refine ⟨X, O, ?_, h5⟩
  unfold condenseOutputDense
  dsimp only
  rw [hd1, hd2, he2, require_true (by omega), ok_bind, h.rowsS, h.rowsU, h.colsS, h.colsU, Nat.mul_div_cancel _ hns,
    assertThat_true rfl, ok_bind, assertThat_true rfl, ok_bind, assertThat_true rfl, ok_bind, ok_bind, e3, ok_bind, e4, ok_bind]
  exact e5

/-! ### Groups of controls -/

/-- What `condenseOutput` does with one group of controls. -/
theorem condenseOutputOne_ok {D E : List (Mat K)} {ns nu ny nt off N : ℕ} {U : BlockMat K} (hN : 0 < N) (hnu : 0 < nu)
    (hny : 0 < ny) (hU1 : U.br = ns) (hU2 : U.bc = nu) (hU3 : U.m.rows = N * ns) (hU4 : U.m.cols = N * nu)
    (hDl : D.length = N) (hEl : E.length = N) (hD : AllSize D ny ns) (hE : AllSize E ny nt) (hoff : off + nu ≤ nt) :
    ∃ O, condenseOutputOne D E ny N (U, off) = .ok O ∧ O.br = ny ∧ O.bc = nu ∧ ∃ G, Blk O.m N N ny nu G ∧
      (∀ e, E[0]? = some e → ∀ m i q, m < N → i < ny → q < nu →
        G 0 m i q = if N = 1 then e.e i (off + q) else 0) ∧
      (∀ k d e, D[k + 1]? = some d → E[k + 1]? = some e → ∀ m i q, m < N → i < ny → q < nu →
        G (k + 1) m i q = if m ≤ k then ∑ l ∈ Finset.range ns, d.e i l * U.m.e (k * ns + l) (m * nu + q)
          else if m = k + 1 then e.e i (off + q) else 0) := by
  have hU : BlkM U N N ns nu _ := blkM_of_sizes hU1 hU2 hU3 hU4
  have hEblk : ∀ (k : ℕ) e, E[k]? = some e → ∃ b, e.block 0 off ny nu = .ok b ∧
      Blk b 1 1 ny nu (fun _ _ i q => e.e i (off + q)) := by
    intro k e he
    have hm : e ∈ E := List.mem_of_getElem? he
    obtain ⟨h1, h2⟩ := hE e hm
    refine ⟨_, if_pos ⟨by omega, by omega⟩, by simp, by simp, ?_⟩
    intro i j p q hi hj _ _
    have : i = 0 := by omega
    have : j = 0 := by omega
    subst i j
    simp
  obtain ⟨e0, he0, _, _⟩ := AllSize.get hE (k := 0) (by omega)
  obtain ⟨b0, c1, c2⟩ := hEblk 0 e0 he0
  obtain ⟨O1, e1, h1⟩ := BlkM.setZero (⟨ny, U.bc, ⟨0, 0, fun _ _ => 0⟩⟩ : BlockMat K) N N hny (by rw [hU2]; exact hnu)
  simp only [hU2] at h1 e1
  obtain ⟨O2, e2, h2⟩ := h1.set (i0 := N - 1) (j0 := N - 1) (by omega) (by omega) c2
  have hinit : condenseOutputInit e0 ny N U off = .ok O2 := by
    unfold condenseOutputInit
    rw [hU2, assertThat_true hnu, ok_bind, e1, ok_bind, c1, ok_bind, e2]
  have hloop : ∃ O, forRange (N - 1) O2 (fun Ou t => do
      let d ← vecAt D (t + 1)
      let e ← vecAt E (t + 1)
      condenseOutputGroup d e ny U off (t + 1) Ou) = .ok O ∧ O.br = ny ∧ O.bc = nu ∧ ∃ G, Blk O.m N N ny nu G ∧
      (∀ e, E[0]? = some e → ∀ m i q, m < N → i < ny → q < nu →
        G 0 m i q = if N = 1 then e.e i (off + q) else 0) ∧
      (∀ k d e, D[k + 1]? = some d → E[k + 1]? = some e → ∀ m i q, m < N → i < ny → q < nu →
        G (k + 1) m i q = if m ≤ k then ∑ l ∈ Finset.range ns, d.e i l * U.m.e (k * ns + l) (m * nu + q)
          else if m = k + 1 then e.e i (off + q) else 0) := by
    refine forRange_post (P := fun t O => ∃ G, BlkM O N N ny nu G ∧
      (∀ e, E[0]? = some e → ∀ m i q, m < N → i < ny → q < nu →
        G 0 m i q = if N = 1 then e.e i (off + q) else 0) ∧
      (∀ k d e, k < t → D[k + 1]? = some d → E[k + 1]? = some e → ∀ m i q, m < N → i < ny → q < nu →
        G (k + 1) m i q = if m ≤ k then ∑ l ∈ Finset.range ns, d.e i l * U.m.e (k * ns + l) (m * nu + q)
          else if m = k + 1 then e.e i (off + q) else 0) ∧
      (∀ k m i q, t < k → k < N → m < N → i < ny → q < nu → ¬ (k = N - 1 ∧ m = N - 1) → G k m i q = 0)) ?_ ?_ ?_
    · refine ⟨_, h2, ?_, ?_, ?_⟩
      · intro e he m i q hm hi hq
        rw [he0] at he; cases he
        by_cases c : N = 1
        · rw [if_pos (by omega), if_pos c]
        · rw [if_neg (by omega), if_neg c]
      · intro k d e hk; omega
      · intro k m i q hk hkN hm hi hq hc
        rw [if_neg hc]
    · rintro t O ht ⟨G, hO, i1, i2, i3⟩
      obtain ⟨d, hd, hd1, hd2⟩ := AllSize.get hD (k := t + 1) (by omega)
      obtain ⟨e, he, _, _⟩ := AllSize.get hE (k := t + 1) (by omega)
      obtain ⟨b, f0, g0⟩ := hEblk _ e he
      obtain ⟨u, f4, g4⟩ := hU.row (i := t) (n := t + 1) (by omega) (by omega)
      obtain ⟨q, f5, g5⟩ := g4.mulLeft hd1 hd2
      obtain ⟨O', f6, g6⟩ := hO.setRow (i0 := t + 1) (n := t + 1) (by omega) (by omega) g5
      obtain ⟨O'', f7, g7⟩ := g6.set (i0 := t + 1) (j0 := t + 1) (by omega) (by omega) g0
      refine ⟨O'', ?_, _, g7, ?_, ?_, ?_⟩
      · rw [vecAt_ok hd, ok_bind, vecAt_ok he, ok_bind]
        unfold condenseOutputGroup
        rw [Nat.add_sub_cancel, f4, ok_bind, f5, ok_bind, f6, ok_bind, hU2, f0, ok_bind, f7]
      · intro e' he' m i q hm hi hq
        rw [if_neg (by omega), if_neg (by omega)]
        exact i1 e' he' m i q hm hi hq
      · intro k d' e' hk hd' he' m i q hm hi hq
        by_cases c : k = t
        · subst k
          rw [hd] at hd'; cases hd'
          rw [he] at he'; cases he'
          by_cases c1 : m = t + 1
          · rw [if_pos ⟨rfl, c1⟩, if_neg (by omega), if_pos c1]
          · rw [if_neg (by omega)]
            by_cases c2 : m < t + 1
            · rw [if_pos ⟨rfl, c2⟩, if_pos (by omega)]
            · rw [if_neg (by omega), if_neg (by omega), if_neg c1]
              exact i3 (t + 1) m i q (by omega) (by omega) hm hi hq (by omega)
        · rw [if_neg (by omega), if_neg (by omega)]
          exact i2 k d' e' (by omega) hd' he' m i q hm hi hq
      · intro k m i q hk hkN hm hi hq hc
        rw [if_neg (by omega), if_neg (by omega)]
        exact i3 k m i q (by omega) hkN hm hi hq hc
    · rintro O ⟨G, hO, i1, i2, _⟩
      refine ⟨hO.br, hO.bc, G, hO.blk, i1, ?_⟩
      intro k d e hd he
      have hk : k + 1 < D.length := by
        by_contra hc
        rw [List.getElem?_eq_none (by omega)] at hd; cases hd
      exact i2 k d e (by omega) hd he
  obtain ⟨O, e3, h3⟩ := hloop
  refine ⟨O, ?_, h3⟩
  unfold condenseOutputOne
  rw [vecAt_ok he0, ok_bind]
  dsimp only
  rw [hinit, ok_bind, e3]

/-- `mapM` over a list on which the function succeeds. -/
theorem mapM_forall2 {α β : Type} {f : α → Res β} {P : α → β → Prop} {l : List α} (h : ∀ a ∈ l, ∃ b, f a = .ok b ∧ P a b) :
    ∃ r, l.mapM f = .ok r ∧ List.Forall₂ P l r := by
  induction l with
  | nil => exact ⟨[], rfl, List.Forall₂.nil⟩
  | cons a l ih =>
    obtain ⟨b, e1, h1⟩ := h a (by simp)
    obtain ⟨r, e2, h2⟩ := ih (fun a ha => h a (by simp [ha]))
    refine ⟨b :: r, ?_, List.Forall₂.cons h1 h2⟩
    rw [List.mapM_cons, e1, ok_bind, e2, ok_bind]
    rfl

omit [Field K] in
theorem controlOffsets_length (o : ℕ) (l : List (BlockMat K)) : (controlOffsets o l).length = l.length := by
  induction l generalizing o with
  | nil => rfl
  | cons a l ih => simp [controlOffsets, ih]

omit [Field K] in
theorem controlOffsets_get (o : ℕ) (l : List (BlockMat K)) (g : ℕ) (hg : g < l.length) :
    (controlOffsets o l)[g]? = some (o + ((l.take g).map BlockMat.bc).sum) := by
  induction l generalizing o g with
  | nil => simp at hg
  | cons a l ih =>
    cases g with
    | zero => simp [controlOffsets]
    | succ g =>
      simp only [controlOffsets, List.getElem?_cons_succ]
      rw [ih (o + a.bc) g (by simpa using hg)]
      simp [Nat.add_assoc]

end Humoto
