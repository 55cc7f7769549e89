import Verif.Lemmas.Condense2
import Mathlib.Tactic.NormNum

/-!
# C19, C20, C21: condensing
-/

namespace Humoto

open Spec

variable {K : Type} [Field K]

/-! ### C19 -/

/-- C19 (dense matrices): `condense` returns the matrices which map the initial state and the controls to the states of every
trajectory, for every horizon; whatever the uninitialised memory contains. -/
theorem C19_dense (junk : ℕ → ℕ → K) {A B : List (Mat K)} {ns nu : ℕ} (hN : 0 < A.length) (hAB : A.length = B.length)
    (hA : AllSize A ns ns) (hB : AllSize B ns nu) :
    ∃ S U, condenseDense junk A B = .ok (S, U) ∧ Condensed S U A B ns nu :=
  condenseDense_ok junk hN hAB hA hB

/-- C19 (block matrices). -/
theorem C19_block (junk : ℕ → ℕ → K) {A B : List (Mat K)} {ns nu : ℕ} {S0 U0 : BlockMat K} (hN : 0 < A.length)
    (hAB : A.length = B.length) (hA : AllSize A ns ns) (hB : AllSize B ns nu) (hns : 0 < ns) (hnu : 0 < nu)
    (hS1 : S0.br = ns) (hS2 : S0.bc = ns) (hU1 : U0.br = ns) (hU2 : U0.bc = nu) :
    ∃ S U, condense junk S0 U0 A B = .ok (S, U) ∧ Condensed S.m U.m A B ns nu := by
  obtain ⟨S, U, h, _, _, _, _, hc⟩ := condense_ok junk hN hAB hA hB hns hnu hS1 hS2 hU1 hU2
  exact ⟨S, U, h, hc⟩

/-- C19: the dense and the block variants return the same matrices. -/
theorem C19_agree (junk junk' : ℕ → ℕ → K) {A B : List (Mat K)} {ns nu : ℕ} {S0 U0 S U : BlockMat K} {S' U' : Mat K}
    (hA : AllSize A ns ns) (hB : AllSize B ns nu) (hns : 0 < ns) (hnu : 0 < nu)
    (hS1 : S0.br = ns) (hS2 : S0.bc = ns) (hU1 : U0.br = ns) (hU2 : U0.bc = nu)
    (hb : condense junk S0 U0 A B = .ok (S, U)) (hd : condenseDense junk' A B = .ok (S', U')) :
    S.m.Equiv S' ∧ U.m.Equiv U' := by
  have hAB : A.length = B.length := by
    by_contra hc
    unfold condense at hb
    rw [assertThat_false hc, error_bind] at hb
    cases hb
  have hN : 0 < A.length := by
    by_contra hc
    unfold condense at hb
    rw [assertThat_true hAB, ok_bind, assertThat_false hc, error_bind] at hb
    cases hb
  obtain ⟨S1, U1, h1, c1⟩ := C19_block junk hN hAB hA hB hns hnu hS1 hS2 hU1 hU2
  obtain ⟨S2, U2, h2, c2⟩ := C19_dense junk' hN hAB hA hB
  rw [hb] at h1; cases h1
  rw [hd] at h2; cases h2
  exact condensed_unique c1 c2

/-- C19: mismatching or empty lists are rejected by both variants. -/
theorem C19_reject (junk : ℕ → ℕ → K) (A B : List (Mat K)) (S0 U0 : BlockMat K) (h : A.length ≠ B.length ∨ A.length = 0) :
    condenseDense junk A B = .error .thrown ∧ condense junk S0 U0 A B = .error .thrown := by
  unfold condenseDense condense
  by_cases hAB : A.length = B.length
  · have h0 : ¬ A.length > 0 := by omega
    rw [assertThat_true hAB, ok_bind, ok_bind, assertThat_false h0]
    exact ⟨rfl, rfl⟩
  · rw [assertThat_false hAB]
    exact ⟨rfl, rfl⟩

/-- The matrices are determined by the property. -/
theorem C19_unique {S S' U U' : Mat K} {A B : List (Mat K)} {ns nu : ℕ} (h : Condensed S U A B ns nu)
    (h' : Condensed S' U' A B ns nu) : S.Equiv S' ∧ U.Equiv U' := condensed_unique h h'

/-- A time varying system with two states, one control and three steps, as used in the examples. -/
def exampleA : List (Mat ℚ) := [Mat.ofRows 2 [[1, 1], [0, 1]], Mat.ofRows 2 [[1, 2], [0, 1]], Mat.ofRows 2 [[1, 3], [1, 1]]]
/-- See `exampleA`. -/
def exampleB : List (Mat ℚ) := [Mat.ofRows 1 [[0], [1]], Mat.ofRows 1 [[1], [2]], Mat.ofRows 1 [[3], [1]]]

theorem exampleA_size : AllSize exampleA 2 2 := by
  intro M hM
  simp only [exampleA, List.mem_cons, List.not_mem_nil, or_false] at hM
  rcases hM with rfl | rfl | rfl <;> exact ⟨rfl, rfl⟩

theorem exampleB_size : AllSize exampleB 2 1 := by
  intro M hM
  simp only [exampleB, List.mem_cons, List.not_mem_nil, or_false] at hM
  rcases hM with rfl | rfl | rfl <;> exact ⟨rfl, rfl⟩

example : ∃ S U, condenseDense (fun _ _ => 77) exampleA exampleB = .ok (S, U) ∧ Condensed S U exampleA exampleB 2 1 :=
  C19_dense _ (by decide) rfl exampleA_size exampleB_size

example : ∃ S U, condense (fun _ _ => 77) ⟨2, 2, ⟨0, 0, fun _ _ => 0⟩⟩ ⟨2, 1, ⟨0, 0, fun _ _ => 0⟩⟩ exampleA exampleB = .ok (S, U) ∧
    Condensed S.m U.m exampleA exampleB 2 1 :=
  C19_block _ (by decide) rfl exampleA_size exampleB_size (by decide) (by decide) rfl rfl rfl rfl

/-! ### C20 -/

/-- C20 (block matrices): the condensed output matrices give `D(k) x(k) + E(k) u(k)` on every trajectory. -/
theorem C20_block (junk : ℕ → ℕ → K) {A B D E : List (Mat K)} {ns nu ny : ℕ} {Ox0 Ou0 S U : BlockMat K}
    (hN : 0 < A.length) (hns : 0 < ns) (hnu : 0 < nu) (hny : 0 < ny)
    (hS1 : S.br = ns) (hS2 : S.bc = ns) (hU1 : U.br = ns) (hU2 : U.bc = nu) (h : Condensed S.m U.m A B ns nu)
    (hX1 : Ox0.br = ny) (hX2 : Ox0.bc = ns) (hO1 : Ou0.br = ny) (hO2 : Ou0.bc = nu)
    (hDl : D.length = A.length) (hEl : E.length = A.length) (hD : AllSize D ny ns) (hE : AllSize E ny nu) :
    ∃ Ox Ou, condenseOutput junk Ox0 Ou0 D E S U = .ok (Ox, Ou) ∧ CondensedOutput Ox.m Ou.m A B D E ns nu ny :=
  condenseOutput_ok junk hN hns hnu hny hS1 hS2 hU1 hU2 h hX1 hX2 hO1 hO2 hDl hEl hD hE

/-- C20 (dense matrices, constant `D` and `E`). -/
theorem C20_dense (junk : ℕ → ℕ → K) {A B : List (Mat K)} {ns nu ny : ℕ} {S U d e : Mat K}
    (hN : 0 < A.length) (hns : 0 < ns) (h : Condensed S U A B ns nu)
    (hd1 : d.rows = ny) (hd2 : d.cols = ns) (he1 : e.rows = ny) (he2 : e.cols = nu) :
    ∃ Ox Ou, condenseOutputDense junk d e S U = .ok (Ox, Ou) ∧
      CondensedOutput Ox Ou A B (List.replicate A.length d) (List.replicate A.length e) ns nu ny :=
  condenseOutputDense_ok junk hN hns h hd1 hd2 he1 he2

/-- C20: condensing followed by condensing of the output, in one statement without intermediate matrices. -/
theorem C20_pipeline (junk junk' : ℕ → ℕ → K) {A B D E : List (Mat K)} {ns nu ny : ℕ} {S0 U0 Ox0 Ou0 : BlockMat K}
    (hN : 0 < A.length) (hns : 0 < ns) (hnu : 0 < nu) (hny : 0 < ny) (hAB : A.length = B.length)
    (hA : AllSize A ns ns) (hB : AllSize B ns nu)
    (hS1 : S0.br = ns) (hS2 : S0.bc = ns) (hU1 : U0.br = ns) (hU2 : U0.bc = nu)
    (hX1 : Ox0.br = ny) (hX2 : Ox0.bc = ns) (hO1 : Ou0.br = ny) (hO2 : Ou0.bc = nu)
    (hDl : D.length = A.length) (hEl : E.length = A.length) (hD : AllSize D ny ns) (hE : AllSize E ny nu) :
    ∃ Ox Ou, (condense junk S0 U0 A B >>= fun r => condenseOutput junk' Ox0 Ou0 D E r.1 r.2) = .ok (Ox, Ou) ∧
      CondensedOutput Ox.m Ou.m A B D E ns nu ny := by
  obtain ⟨S, U, e1, s1, s2, u1, u2, hc⟩ := condense_ok junk hN hAB hA hB hns hnu hS1 hS2 hU1 hU2
  obtain ⟨Ox, Ou, e2, h2⟩ := C20_block junk' hN hns hnu hny s1 s2 u1 u2 hc hX1 hX2 hO1 hO2 hDl hEl hD hE
  exact ⟨Ox, Ou, by rw [e1, ok_bind]; exact e2, h2⟩

example : ∃ Ox Ou, (condense (fun _ _ => 77) ⟨2, 2, ⟨0, 0, fun _ _ => 0⟩⟩ ⟨2, 1, ⟨0, 0, fun _ _ => 0⟩⟩ exampleA exampleB >>=
      fun r => condenseOutput (fun _ _ => 55) ⟨1, 2, ⟨0, 0, fun _ _ => 0⟩⟩ ⟨1, 1, ⟨0, 0, fun _ _ => 0⟩⟩
        [Mat.ofRows 2 [[1, 1]], Mat.ofRows 2 [[1, 2]], Mat.ofRows 2 [[0, 3]]]
        [Mat.ofRows 1 [[4]], Mat.ofRows 1 [[5]], Mat.ofRows 1 [[6]]] r.1 r.2) = .ok (Ox, Ou) ∧
      CondensedOutput Ox.m Ou.m exampleA exampleB [Mat.ofRows 2 [[1, 1]], Mat.ofRows 2 [[1, 2]], Mat.ofRows 2 [[0, 3]]]
        [Mat.ofRows 1 [[4]], Mat.ofRows 1 [[5]], Mat.ofRows 1 [[6]]] 2 1 1 :=
  C20_pipeline _ _ (by decide) (by decide) (by decide) (by decide) rfl exampleA_size exampleB_size rfl rfl rfl rfl rfl rfl rfl rfl
    rfl rfl (by
      intro M hM
      simp only [List.mem_cons, List.not_mem_nil, or_false] at hM
      rcases hM with rfl | rfl | rfl <;> exact ⟨rfl, rfl⟩) (by
      intro M hM
      simp only [List.mem_cons, List.not_mem_nil, or_false] at hM
      rcases hM with rfl | rfl | rfl <;> exact ⟨rfl, rfl⟩)

example : ∃ Ox Ou, (condenseDense (fun _ _ => 77) exampleA exampleB >>= fun r =>
      condenseOutputDense (fun _ _ => 55) (Mat.ofRows 2 [[1, 1]]) (Mat.ofRows 1 [[4]]) r.1 r.2) = .ok (Ox, Ou) ∧
      CondensedOutput Ox Ou exampleA exampleB (List.replicate 3 (Mat.ofRows 2 [[1, 1]]))
        (List.replicate 3 (Mat.ofRows 1 [[4]])) 2 1 1 := by
  obtain ⟨S, U, e1, hc⟩ := C19_dense (fun _ _ => 77) (A := exampleA) (B := exampleB) (by decide) rfl exampleA_size exampleB_size
  obtain ⟨Ox, Ou, e2, h2⟩ := C20_dense (fun _ _ => 55) (by decide) (by decide) hc (d := Mat.ofRows 2 [[1, 1]])
    (e := Mat.ofRows 1 [[4]]) (ny := 1) rfl rfl rfl rfl
  exact ⟨Ox, Ou, by rw [e1, ok_bind]; exact e2, h2⟩

namespace Spec

/-- The contribution of one group of controls to the outputs: the outputs are `D(k) x(k) + E(k) u(k)`, the group contributes to
`x(k)` by the matrix `U` and to `u(k)` by the columns of `E(k)` from `off` on. `rows k` selects the steps of interest. -/
def GroupOutput (O U : Mat K) (D E : List (Mat K)) (ns nu ny off N : ℕ) (rows : ℕ → Prop) : Prop :=
  O.rows = N * ny ∧ O.cols = N * nu ∧
  ∀ (k : ℕ) d e, rows k → D[k]? = some d → E[k]? = some e → ∀ (u : ℕ → ℕ → K) i, i < ny →
    controlTerm O ny nu N u k i =
      (match k with
      | 0 => 0
      | k + 1 => ∑ l ∈ Finset.range ns, d.e i l * controlTerm U ns nu N u k l) +
      ∑ q ∈ Finset.range nu, e.e i (off + q) * u k q

/-- Controls at the step `m` do not influence the states up to the step `m`. -/
def Causal (U : Mat K) (ns nu N : ℕ) : Prop :=
  ∀ k m i q, k < m → m < N → i < ns → q < nu → U.e (k * ns + i) (m * nu + q) = 0

end Spec

/-- Which steps `condenseOutput` with several groups of controls gets right: all but the first one. With a single step there is no
difference. In the step 0 of a longer horizon the controls do not contribute at all, although `E(0) u(0)` is due. -/
theorem C20_groups_partial {D E : List (Mat K)} {ns nu ny nt off N : ℕ} {U : BlockMat K} (hN : 0 < N) (hnu : 0 < nu)
    (hny : 0 < ny) (hU1 : U.br = ns) (hU2 : U.bc = nu) (hU3 : U.m.rows = N * ns) (hU4 : U.m.cols = N * nu)
    (hDl : D.length = N) (hEl : E.length = N) (hD : AllSize D ny ns) (hE : AllSize E ny nt) (hoff : off + nu ≤ nt)
    (hc : Causal U.m ns nu N) :
    ∃ O, condenseOutputOne D E ny N (U, off) = .ok O ∧
      GroupOutput O.m U.m D E ns nu ny off N (fun k => 0 < k ∨ N = 1) ∧
      (1 < N → ∀ (u : ℕ → ℕ → K) i, i < ny → controlTerm O.m ny nu N u 0 i = 0) := by
  obtain ⟨O, e1, _, _, G, hG, h0, h1⟩ := condenseOutputOne_ok hN hnu hny hU1 hU2 hU3 hU4 hDl hEl hD hE hoff
  obtain ⟨e0, he0, _, _⟩ := AllSize.get hE (k := 0) (by omega)
  have hterm : ∀ k, k < N → ∀ (u : ℕ → ℕ → K) i, i < ny → controlTerm O.m ny nu N u k i =
      ∑ m ∈ Finset.range N, ∑ q ∈ Finset.range nu, G k m i q * u m q := by
    intro k hk u i hi
    unfold controlTerm
    refine Finset.sum_congr rfl fun m hm => Finset.sum_congr rfl fun q hq => ?_
    rw [hG.entry k m i q hk (Finset.mem_range.mp hm) hi (Finset.mem_range.mp hq)]
  refine ⟨O, e1, ⟨hG.rows, hG.cols, ?_⟩, ?_⟩
  · intro k d e hrow hd he u i hi
    have hk : k < N := by
      rw [← hDl]
      by_contra hcc
      rw [List.getElem?_eq_none (by omega)] at hd; cases hd
    rw [hterm k hk u i hi]
    cases k with
    | zero =>
      have hN1 : N = 1 := by rcases hrow with h | h; · omega
                             · exact h
      subst hN1
      simp only [zero_add]
      rw [Finset.sum_range_one]
      refine Finset.sum_congr rfl fun q hq => ?_
      rw [h0 e he 0 i q (by omega) hi (Finset.mem_range.mp hq), if_pos rfl]
    | succ k =>
      simp only
      have e2 : ∀ m ∈ Finset.range N, ∑ q ∈ Finset.range nu, G (k + 1) m i q * u m q =
          (∑ l ∈ Finset.range ns, d.e i l * ∑ q ∈ Finset.range nu, U.m.e (k * ns + l) (m * nu + q) * u m q) +
            if m = k + 1 then ∑ q ∈ Finset.range nu, e.e i (off + q) * u (k + 1) q else 0 := by
        intro m hm
        have hm' := Finset.mem_range.mp hm
        rw [sum_mul_swap]
        by_cases c1 : m ≤ k
        · rw [if_neg (by omega), add_zero]
          refine Finset.sum_congr rfl fun q hq => ?_
          rw [h1 k d e hd he m i q hm' hi (Finset.mem_range.mp hq), if_pos c1]
        · have ez : ∑ q ∈ Finset.range nu,
              (∑ l ∈ Finset.range ns, d.e i l * U.m.e (k * ns + l) (m * nu + q)) * u m q = 0 := by
            refine Finset.sum_eq_zero fun q hq => ?_
            rw [Finset.sum_eq_zero fun l hl => ?_, zero_mul]
            rw [hc k m l q (by omega) hm' (Finset.mem_range.mp hl) (Finset.mem_range.mp hq), mul_zero]
          rw [ez, zero_add]
          by_cases c2 : m = k + 1
          · rw [if_pos c2]
            refine Finset.sum_congr rfl fun q hq => ?_
            rw [h1 k d e hd he m i q hm' hi (Finset.mem_range.mp hq), if_neg c1, if_pos c2, c2]
          · rw [if_neg c2]
            refine Finset.sum_eq_zero fun q hq => ?_
            rw [h1 k d e hd he m i q hm' hi (Finset.mem_range.mp hq), if_neg c1, if_neg c2, zero_mul]
      rw [Finset.sum_congr rfl e2, Finset.sum_add_distrib]
      congr 1
      · rw [Finset.sum_comm]
        refine Finset.sum_congr rfl fun l _ => ?_
        rw [← Finset.mul_sum]
        rfl
      · rw [Finset.sum_ite_eq' (Finset.range N) (k + 1), if_pos (Finset.mem_range.mpr hk)]
  · intro hN1 u i hi
    rw [hterm 0 hN u i hi]
    refine Finset.sum_eq_zero fun m hm => Finset.sum_eq_zero fun q hq => ?_
    rw [h0 e0 he0 m i q (Finset.mem_range.mp hm) hi (Finset.mem_range.mp hq), if_neg (by omega), zero_mul]

/-- The whole call with several groups of controls: all groups are processed as described by `C20_groups_partial`, each with its own
columns of `E`, and the part which belongs to the initial state is right in all steps. -/
theorem C20_groups_call_partial (junk : ℕ → ℕ → K) {A B D E : List (Mat K)} {ns nu1 ny nt : ℕ} {Ox0 S U1 : BlockMat K}
    {Us : List (BlockMat K)} (hN : 0 < A.length) (hns : 0 < ns) (hny : 0 < ny)
    (hS1 : S.br = ns) (hS2 : S.bc = ns) (hS : Condensed S.m U1.m A B ns nu1)
    (hU : ∀ U ∈ Us, 0 < U.bc ∧ U.br = ns ∧ U.m.rows = A.length * ns ∧ U.m.cols = A.length * U.bc ∧
      Causal U.m ns U.bc A.length)
    (hnt : (Us.map BlockMat.bc).sum = nt)
    (hX1 : Ox0.br = ny) (hX2 : Ox0.bc = ns)
    (hDl : D.length = A.length) (hEl : E.length = A.length) (hD : AllSize D ny ns) (hE : AllSize E ny nt) :
    ∃ Ox Os, condenseOutputGroups junk ny Ox0 D E S Us = .ok (Ox, Os) ∧
      (∀ x u, Trajectory A B ns nu1 x u → (∀ k j, u k j = 0) → ∀ (k : ℕ) d, D[k]? = some d → ∀ i, i < ny →
        stateTerm Ox.m ny ns (x 0) k i = ∑ j ∈ Finset.range ns, d.e i j * x k j) ∧
      Os.length = Us.length ∧
      ∀ (g : ℕ) U O, Us[g]? = some U → Os[g]? = some O →
        GroupOutput O.m U.m D E ns U.bc ny ((Us.take g).map BlockMat.bc).sum A.length (fun k => 0 < k ∨ A.length = 1) ∧
        (1 < A.length → ∀ (u : ℕ → ℕ → K) i, i < ny → controlTerm O.m ny U.bc A.length u 0 i = 0) := by
  have hSb : BlkM S A.length 1 ns ns _ := blkM_of_sizes hS1 hS2 hS.rowsS (by rw [hS.colsS]; ring)
  obtain ⟨d0, hd0, hd1, hd2⟩ := AllSize.get hD (k := 0) (by omega)
  obtain ⟨X1, e1, h1⟩ := BlkM.resize Ox0 junk A.length 1 (by omega) (by omega)
  rw [hX1, hX2] at h1
  obtain ⟨X2, e2, h2⟩ := h1.set (i0 := 0) (j0 := 0) (by omega) (by omega) (Blk.one' hd1 hd2)
  obtain ⟨Os, e3, h3⟩ := mapM_forall2 (l := Us.zip (controlOffsets 0 Us)) (f := condenseOutputOne D E ny A.length)
    (P := fun p O => GroupOutput O.m p.1.m D E ns p.1.bc ny p.2 A.length (fun k => 0 < k ∨ A.length = 1) ∧
        (1 < A.length → ∀ (u : ℕ → ℕ → K) i, i < ny → controlTerm O.m ny p.1.bc A.length u 0 i = 0)) (by
      rintro ⟨U, off⟩ hp
      obtain ⟨g, hg⟩ := List.getElem?_of_mem hp
      rw [List.getElem?_zip_eq_some] at hg
      obtain ⟨hg1, hg2⟩ := hg
      have hgl : g < Us.length := by
        by_contra hc
        rw [List.getElem?_eq_none (by omega)] at hg1; cases hg1
      rw [controlOffsets_get 0 Us g hgl] at hg2
      have hoff : off = ((Us.take g).map BlockMat.bc).sum := by
        have := Option.some.inj hg2
        omega
      obtain ⟨u0, u1, u2, u3, u4⟩ := hU U (List.mem_of_getElem? hg1)
      refine C20_groups_partial hN u0 hny u1 rfl u2 u3 hDl hEl hD hE ?_ u4
      rw [hoff, ← hnt]
      have hsplit : Us = Us.take g ++ U :: Us.drop (g + 1) := by
        have hU' : Us[g] = U := by
          rw [List.getElem?_eq_getElem hgl] at hg1; exact Option.some.inj hg1
        rw [← hU', List.cons_getElem_drop_succ, List.take_append_drop]
      conv_rhs => rw [hsplit]
      simp only [List.map_append, List.map_cons, List.sum_append, List.sum_cons]
      omega)
  have hloop : ∃ X, forRange (A.length - 1) X2 (fun Ox t => do
      let d ← vecAt D (t + 1)
      let x ← S.blk t 0
      let p ← d.mul x
      Ox.setBlk (t + 1) 0 p) = .ok X ∧ ∃ F, BlkM X A.length 1 ny ns F ∧
      (∀ d, D[0]? = some d → ∀ i j, i < ny → j < ns → F 0 0 i j = d.e i j) ∧
      (∀ k d, D[k + 1]? = some d → ∀ i j, i < ny → j < ns →
        F (k + 1) 0 i j = ∑ l ∈ Finset.range ns, d.e i l * S.m.e (k * ns + l) j) := by
    refine forRange_post (P := fun t X => ∃ F, BlkM X A.length 1 ny ns F ∧
      (∀ d, D[0]? = some d → ∀ i j, i < ny → j < ns → F 0 0 i j = d.e i j) ∧
      (∀ k d, k < t → D[k + 1]? = some d → ∀ i j, i < ny → j < ns →
        F (k + 1) 0 i j = ∑ l ∈ Finset.range ns, d.e i l * S.m.e (k * ns + l) j)) ?_ ?_ ?_
    · refine ⟨_, h2, ?_, fun k d hk => by omega⟩
      intro d hd i j _ _
      rw [hd0] at hd; cases hd
      rw [if_pos ⟨rfl, rfl⟩]
    · rintro t X ht ⟨F, hX, i1, i2⟩
      obtain ⟨d, hd, hd1, hd2⟩ := AllSize.get hD (k := t + 1) (by omega)
      obtain ⟨x, f1, g1⟩ := hSb.get (i := t) (j := 0) (by omega) (by omega)
      obtain ⟨p, f2, g2⟩ := g1.mulLeft hd1 hd2
      obtain ⟨X', f3, g3⟩ := hX.set (i0 := t + 1) (j0 := 0) (by omega) (by omega) g2
      refine ⟨X', by rw [vecAt_ok hd, ok_bind, f1, ok_bind, f2, ok_bind, f3], _, g3, ?_, ?_⟩
      · intro d' hd' i j hi hj
        rw [if_neg (by omega)]
        exact i1 d' hd' i j hi hj
      · intro k d' hk hd' i j hi hj
        by_cases c : k = t
        · subst k
          rw [hd] at hd'; cases hd'
          rw [if_pos ⟨rfl, rfl⟩]
          exact Finset.sum_congr rfl fun l _ => by rw [Nat.zero_mul, Nat.zero_add]
        · rw [if_neg (by omega)]
          exact i2 k d' (by omega) hd' i j hi hj
    · rintro X ⟨F, hX, i1, i2⟩
      refine ⟨F, hX, i1, fun k d hd => ?_⟩
      have hk : k + 1 < D.length := by
        by_contra hc
        rw [List.getElem?_eq_none (by omega)] at hd; cases hd
      exact i2 k d (by omega) hd
  obtain ⟨X, e4, F, hX, f1, f2⟩ := hloop
  refine ⟨X, Os, ?_, ?_, ?_, ?_⟩
  · unfold condenseOutputGroups
    dsimp only
    rw [hSb.nVert hns, hSb.nHor hns, assertThat_true rfl, ok_bind, assertThat_true (by omega), ok_bind,
      assertThat_true (by omega), ok_bind, e1, ok_bind, vecAt_ok hd0, ok_bind, e2, ok_bind, e3, ok_bind, e4, ok_bind]
    rfl
  · intro x u ht hu k d hd i hi
    have hk : k < A.length := by
      rw [← hDl]
      by_contra hcc
      rw [List.getElem?_eq_none (by omega)] at hd; cases hd
    have eX : stateTerm X.m ny ns (x 0) k i = ∑ j ∈ Finset.range ns, F k 0 i j * x 0 j := by
      unfold stateTerm
      refine Finset.sum_congr rfl fun j hj => ?_
      have := hX.blk.entry k 0 i j hk (by omega) hi (Finset.mem_range.mp hj)
      rw [Nat.zero_mul, Nat.zero_add] at this
      rw [this]
    rw [eX]
    cases k with
    | zero => exact Finset.sum_congr rfl fun j hj => by rw [f1 d hd i j hi (Finset.mem_range.mp hj)]
    | succ k =>
      have hx : ∀ l ∈ Finset.range ns, d.e i l * x (k + 1) l = d.e i l * (∑ j ∈ Finset.range ns, S.m.e (k * ns + l) j * x 0 j) := by
        intro l hl
        rw [← hS.states x u ht k (by omega) l (Finset.mem_range.mp hl)]
        have : u = fun _ _ => 0 := funext fun k => funext fun j => hu k j
        rw [this, controlTerm_zero, add_zero]
        rfl
      rw [Finset.sum_congr rfl hx, sum_mul_swap]
      exact Finset.sum_congr rfl fun j hj => by rw [f2 k d hd i j hi (Finset.mem_range.mp hj)]
  · rw [← h3.length_eq, List.length_zip, controlOffsets_length]; simp
  · intro g U O hU' hO'
    have hgl : g < Us.length := by
      by_contra hc
      rw [List.getElem?_eq_none (by omega)] at hU'; cases hU'
    have hz : (Us.zip (controlOffsets 0 Us))[g]? = some (U, 0 + ((Us.take g).map BlockMat.bc).sum) :=
      List.getElem?_zip_eq_some.mpr ⟨hU', controlOffsets_get 0 Us g hgl⟩
    have := (List.forall₂_iff_get.mp h3).2
    have hgz : g < (Us.zip (controlOffsets 0 Us)).length := by
      rw [List.length_zip, controlOffsets_length]; simpa using hgl
    have hgO : g < Os.length := by rw [← h3.length_eq]; exact hgz
    have hp := this g hgz hgO
    rw [List.getElem?_eq_getElem hgz] at hz
    rw [List.getElem?_eq_getElem hgO] at hO'
    simp only [List.get_eq_getElem, Option.some.inj hz, Option.some.inj hO', Nat.zero_add] at hp
    exact hp

/-- The claim C20 fails for several groups of controls: with `N = 2`, `E(0) = E(1) = 1` and `u(0) = 1` the contribution of the
controls to the first output is `0` instead of `E(0) u(0) = 1`. -/
theorem C20_groups_refuted :
    ∃ (D E : List (Mat ℚ)) (U O : BlockMat ℚ), AllSize D 1 1 ∧ AllSize E 1 1 ∧ D.length = 2 ∧ E.length = 2 ∧
      U.br = 1 ∧ U.bc = 1 ∧ U.m.rows = 2 ∧ U.m.cols = 2 ∧ Causal U.m 1 1 2 ∧
      condenseOutputOne D E 1 2 (U, 0) = .ok O ∧
      ¬ GroupOutput O.m U.m D E 1 1 1 0 2 (fun _ => True) := by
  let I : Mat ℚ := Mat.ofRows 1 [[1]]
  let U : BlockMat ℚ := ⟨1, 1, Mat.ofRows 2 [[1, 0], [1, 1]]⟩
  have hI : AllSize [I, I] 1 1 := by
    intro M hM
    simp only [List.mem_cons, List.not_mem_nil, or_false] at hM
    rcases hM with rfl | rfl <;> exact ⟨rfl, rfl⟩
  have hc : Causal U.m 1 1 2 := by
    intro k m i q h1 h2 h3 h4
    have : k = 0 := by omega
    have : m = 1 := by omega
    have : i = 0 := by omega
    have : q = 0 := by omega
    subst k m i q
    norm_num [U, Mat.ofRows]
  obtain ⟨O, e1, _, h0⟩ := C20_groups_partial (D := [I, I]) (E := [I, I]) (ns := 1) (nu := 1) (ny := 1) (nt := 1) (off := 0)
    (N := 2) (U := U) (by decide) (by decide) (by decide) rfl rfl rfl rfl rfl rfl hI hI (by decide) hc
  refine ⟨[I, I], [I, I], U, O, hI, hI, rfl, rfl, rfl, rfl, rfl, rfl, hc, e1, ?_⟩
  intro hg
  have h1 := hg.2.2 0 I I trivial rfl rfl (fun _ _ => 1) 0 (by decide)
  rw [h0 (by decide) (fun _ _ => 1) 0 (by decide)] at h1
  norm_num [I, Mat.ofRows] at h1

/-- Two groups of controls, two steps, one state. -/
example : ∃ (S : BlockMat ℚ) (Ox : BlockMat ℚ) (Os : List (BlockMat ℚ)),
    condenseOutputGroups (fun _ _ => 55) 1 ⟨1, 1, ⟨0, 0, fun _ _ => 0⟩⟩ [Mat.ofRows 1 [[1]], Mat.ofRows 1 [[2]]]
      [Mat.ofRows 2 [[1, 2]], Mat.ofRows 2 [[3, 4]]] S
      [⟨1, 1, Mat.ofRows 2 [[1, 0], [1, 1]]⟩, ⟨1, 1, Mat.ofRows 2 [[5, 0], [6, 7]]⟩] = .ok (Ox, Os) ∧ Os.length = 2 := by
  have hsz : ∀ (a b : ℚ), AllSize [Mat.ofRows 1 [[a]], Mat.ofRows 1 [[b]]] 1 1 := by
    intro a b M hM
    simp only [List.mem_cons, List.not_mem_nil, or_false] at hM
    rcases hM with rfl | rfl <;> exact ⟨rfl, rfl⟩
  have hcausal : ∀ a b c : ℚ, Causal (Mat.ofRows 2 [[a, 0], [b, c]]) 1 1 2 := by
    intro a b c k m i q h1 h2 h3 h4
    have : k = 0 := by omega
    have : m = 1 := by omega
    have : i = 0 := by omega
    have : q = 0 := by omega
    subst k m i q
    norm_num [Mat.ofRows]
  obtain ⟨S, U, _, s1, s2, _, _, hc⟩ := condense_ok (fun _ _ => (77 : ℚ)) (S0 := ⟨1, 1, ⟨0, 0, fun _ _ => 0⟩⟩)
    (U0 := ⟨1, 1, ⟨0, 0, fun _ _ => 0⟩⟩) (A := [Mat.ofRows 1 [[2]], Mat.ofRows 1 [[3]]])
    (B := [Mat.ofRows 1 [[4]], Mat.ofRows 1 [[5]]]) (by decide) rfl (hsz 2 3) (hsz 4 5) (by decide) (by decide) rfl rfl rfl rfl
  obtain ⟨Ox, Os, h1, _, h2, _⟩ := C20_groups_call_partial (fun _ _ => 55) (Ox0 := ⟨1, 1, ⟨0, 0, fun _ _ => 0⟩⟩) (ny := 1) (nt := 2)
    (Us := [⟨1, 1, Mat.ofRows 2 [[1, 0], [1, 1]]⟩, ⟨1, 1, Mat.ofRows 2 [[5, 0], [6, 7]]⟩])
    (D := [Mat.ofRows 1 [[1]], Mat.ofRows 1 [[2]]]) (E := [Mat.ofRows 2 [[1, 2]], Mat.ofRows 2 [[3, 4]]]) (by decide) (by decide)
    (by decide) s1 s2 hc (by
      intro U hU
      simp only [List.mem_cons, List.not_mem_nil, or_false] at hU
      rcases hU with rfl | rfl
      · exact ⟨by decide, rfl, rfl, rfl, hcausal _ _ _⟩
      · exact ⟨by decide, rfl, rfl, rfl, hcausal _ _ _⟩) rfl rfl rfl rfl rfl (hsz 1 2) (by
      intro M hM
      simp only [List.mem_cons, List.not_mem_nil, or_false] at hM
      rcases hM with rfl | rfl <;> exact ⟨rfl, rfl⟩)
  exact ⟨S, Ox, Os, h1, h2⟩

/-! ### C21 -/

/-- C21: the matrices of `condenseTimeInvariant` are those of `condense` for constant lists, and satisfy the state recursion. -/
theorem C21_timeInvariant (junk junk' : ℕ → ℕ → K) {N : ℕ} {a b : Mat K} {ns nu : ℕ} (hN : 0 < N) (ha1 : a.rows = ns)
    (ha2 : a.cols = ns) (hb1 : b.rows = ns) (hb2 : b.cols = nu) :
    ∃ S U S' U', condenseTimeInvariant junk N a b = .ok (S, U) ∧
      condenseDense junk' (List.replicate N a) (List.replicate N b) = .ok (S', U') ∧
      S.Equiv S' ∧ U.Equiv U' ∧ Condensed S U (List.replicate N a) (List.replicate N b) ns nu := by
  obtain ⟨S, U, e1, h1⟩ := condenseTimeInvariant_ok junk hN ha1 ha2 hb1 hb2
  obtain ⟨S', U', e2, h2⟩ := C19_dense junk' (A := List.replicate N a) (B := List.replicate N b) (ns := ns) (nu := nu)
    (by simpa using hN) (by simp)
    (fun M hM => by rw [List.eq_of_mem_replicate hM]; exact ⟨ha1, ha2⟩)
    (fun M hM => by rw [List.eq_of_mem_replicate hM]; exact ⟨hb1, hb2⟩)
  obtain ⟨h3, h4⟩ := condensed_unique h1 h2
  exact ⟨S, U, S', U', e1, e2, h3, h4, h1⟩

/-- C21: with an empty horizon the call writes outside of the matrix (unless the state is empty). -/
theorem C21_empty (junk : ℕ → ℕ → K) (a b : Mat K) (ha : 0 < a.rows) : condenseTimeInvariant junk 0 a b = .error .ub := by
  unfold condenseTimeInvariant
  have : (⟨a.rows * 0, a.cols, junk⟩ : Mat K).setBlock 0 0 a.rows a.cols a = .error .ub := by
    refine if_neg ?_
    simp only [Nat.mul_zero]
    omega
  dsimp only
  rw [this]
  rfl

example : ∃ S U S' U', condenseTimeInvariant (fun _ _ => 77) 4 (Mat.ofRows 2 [[1, 1], [0, 1]] : Mat ℚ) (Mat.ofRows 1 [[0], [1]]) = .ok (S, U) ∧
      condenseDense (fun _ _ => 55) (List.replicate 4 (Mat.ofRows 2 [[1, 1], [0, 1]] : Mat ℚ))
        (List.replicate 4 (Mat.ofRows 1 [[0], [1]])) = .ok (S', U') ∧
      S.Equiv S' ∧ U.Equiv U' ∧ Condensed S U (List.replicate 4 (Mat.ofRows 2 [[1, 1], [0, 1]] : Mat ℚ))
        (List.replicate 4 (Mat.ofRows 1 [[0], [1]])) 2 1 :=
  C21_timeInvariant _ _ (by decide) rfl rfl rfl rfl

end Humoto
