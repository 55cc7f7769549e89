import Verif.Lemmas.PepperMpc
import Verif.Lemmas.WpgPreview
import Verif.Props.PointMass
import Verif.Spec.WpgMpc

/-!
# Lemmas on the control problem of the walking pattern generator
-/

namespace Humoto.Wpg

open Spec Spec.Wpg
open Pepper (ofMatrix2 kron_row kron_ok kronVec_ok kronVec axis ctrl)

/-! ### Rotation matrices -/

/-- Entries of a block diagonal matrix with given blocks. -/
noncomputable def diagL (l : List (Matrix (Fin 2) (Fin 2) ℝ)) (i j p q : ℕ) : ℝ :=
  if i = j then (match l[i]? with | some M => (ofMatrix2 M 0).e p q | none => 0) else 0

theorem diagL_set {l : List (Matrix (Fin 2) (Fin 2) ℝ)} {n : ℕ} (hl : l.length < n) {M : BlockMat ℝ}
    (hM : BlkM M n n 2 2 (diagL l)) (A : Matrix (Fin 2) (Fin 2) ℝ) :
    ∃ M', M.setBlk l.length l.length (ofMatrix2 A 0) = .ok M' ∧ BlkM M' n n 2 2 (diagL (l ++ [A])) := by
  obtain ⟨M', e, hM'⟩ := hM.set hl hl (Blk.one' (B := ofMatrix2 A 0) rfl rfl)
  refine ⟨M', e, hM'.br, hM'.bc, hM'.blk.congr ?_⟩
  intro i j p q hi hj hp hq
  by_cases hij : i = j
  · subst hij
    unfold diagL
    by_cases hin : i = l.length
    · subst hin
      simp
    · rw [if_neg (by omega), if_pos rfl, if_pos rfl]
      by_cases hlt : i < l.length
      · rw [List.getElem?_append_left hlt]
      · rw [List.getElem?_eq_none (by omega), List.getElem?_eq_none (by simp; omega)]
  · rw [if_neg (by omega)]
    unfold diagL
    rw [if_neg hij, if_neg hij]

theorem diagL_zero (n : ℕ) : ∃ M, BlockMat.setZero (⟨2, 2, Pepper.Mpc.noMat⟩ : BlockMat ℝ) n n = .ok M ∧
    BlkM M n n 2 2 (diagL []) := by
  obtain ⟨M, e, hM⟩ := BlkM.setZero (⟨2, 2, Pepper.Mpc.noMat⟩ : BlockMat ℝ) n n (by decide) (by decide)
  refine ⟨M, e, hM.br, hM.bc, hM.blk.congr ?_⟩
  intro i j p q _ _ _ _
  unfold diagL
  simp

theorem setBlk_out {M : BlockMat ℝ} {n h w : ℕ} {F : ℕ → ℕ → ℕ → ℕ → ℝ} (hM : BlkM M n n h w F) (hh : 0 < h) {i : ℕ} (hi : n ≤ i)
    (B : Mat ℝ) : M.setBlk i i B = .error .ub := by
  unfold BlockMat.setBlk Mat.setBlock
  rw [if_neg]
  · rfl
  · rw [hM.br, hM.bc, hM.blk.rows]
    rintro ⟨h1, -⟩
    have := Nat.mul_le_mul_right h hi
    omega

/-- The states whose orientations are used for the steps. -/
def supportsOf (ws : List WalkState) : List WalkState := ws.dropLast.filter fun s => s.stance.type ≠ .tds

theorem nth_ok {α : Type} {l : List α} {i : ℕ} {x : α} (h : l[i]? = some x) : nth l i = .ok x := by
  unfold nth; rw [h]

theorem dropLast_get {α : Type} {l : List α} {i : ℕ} (h : i < l.length - 1) : l.dropLast[i]? = l[i]? := by
  rw [List.getElem?_eq_getElem (by simpa using h), List.getElem?_eq_getElem (by omega), List.getElem_dropLast]

/-- The rotations of the first `i` states which are written. -/
def written (ws : List WalkState) (i : ℕ) : List (Matrix (Fin 2) (Fin 2) ℝ) :=
  ((ws.dropLast.take i).filter fun s => s.stance.type ≠ .tds).map (·.rotation)

theorem written_succ {ws : List WalkState} {i : ℕ} {s : WalkState} (hi : i < ws.length - 1) (hs : ws[i]? = some s) :
    written ws (i + 1) = if s.stance.type ≠ .tds then written ws i ++ [s.rotation] else written ws i := by
  unfold written
  rw [List.take_add_one, dropLast_get hi, hs]
  by_cases ht : s.stance.type ≠ .tds
  · simp [ht]
  · simp only [ne_eq, not_not] at ht
    simp [ht]

theorem written_all (ws : List WalkState) : written ws (ws.length - 1) = (supportsOf ws).map (·.rotation) := by
  unfold written supportsOf
  rw [List.take_of_length_le (by simp)]

theorem written_length_le (ws : List WalkState) (i : ℕ) : (written ws i).length ≤ (supportsOf ws).length := by
  unfold written supportsOf
  rw [List.length_map]
  exact ((List.take_sublist _ _).filter _).length_le

theorem formR_ok {H : Horizon} (h0 : H.walk_states ≠ []) (h : (supportsOf H.walk_states).length ≤ H.variable_steps.length) :
    ∃ R, formR H = .ok R ∧ BlkM R H.variable_steps.length H.variable_steps.length 2 2
      (diagL ((supportsOf H.walk_states).map (·.rotation))) := by
  obtain ⟨M, e, hM⟩ := diagL_zero H.variable_steps.length
  unfold formR Horizon.getNumberOfVariableSteps
  rw [e, ok_bind, require_true h0, ok_bind]
  obtain ⟨y, hy, hy1, hy2⟩ := forRange_inv (fun i (y : BlockMat ℝ × ℕ) => y.2 = (written H.walk_states i).length ∧
      BlkM y.1 H.variable_steps.length H.variable_steps.length 2 2 (diagL (written H.walk_states i)))
    (n := H.walk_states.length - 1) (s := (M, 0)) (body := fun y i => do
      let s ← nth H.walk_states i
      if s.stance.type ≠ .tds then do
        let R ← y.1.setBlk y.2 y.2 (ofMatrix2 s.rotation 0)
        pure (R, y.2 + 1)
      else pure y) ⟨rfl, hM⟩ (by
    rintro i ⟨R, n⟩ hi ⟨g1, g2⟩
    have hs : H.walk_states[i]? = some H.walk_states[i] := List.getElem?_eq_getElem (by omega)
    generalize H.walk_states[i] = s at hs
    rw [nth_ok hs, ok_bind, written_succ hi hs]
    by_cases ht : s.stance.type ≠ .tds
    · rw [if_pos ht, if_pos ht]
      simp only at g1 g2 ⊢
      subst g1
      have hl : (written H.walk_states i).length < H.variable_steps.length := by
        have := written_length_le H.walk_states (i + 1)
        rw [written_succ hi hs, if_pos ht, List.length_append] at this
        simp at this
        omega
      obtain ⟨R', e', hR'⟩ := diagL_set hl g2 s.rotation
      rw [e', ok_bind]
      exact ⟨_, rfl, by simp, hR'⟩
    · rw [if_neg ht, if_neg ht]
      exact ⟨_, rfl, g1, g2⟩)
  rw [hy, ok_bind]
  rw [written_all] at hy2
  exact ⟨_, rfl, hy2⟩

theorem formR_ub {H : Horizon} (h0 : H.walk_states ≠ []) (h : H.variable_steps.length < (supportsOf H.walk_states).length) :
    formR H = .error .ub := by
  obtain ⟨M, e, hM⟩ := diagL_zero H.variable_steps.length
  unfold formR Horizon.getNumberOfVariableSteps
  rw [e, ok_bind, require_true h0, ok_bind]
  obtain hy | hy := forRange_or (P := fun i (y : BlockMat ℝ × ℕ) => y.2 = (written H.walk_states i).length ∧
      (written H.walk_states i).length ≤ H.variable_steps.length ∧
      BlkM y.1 H.variable_steps.length H.variable_steps.length 2 2 (diagL (written H.walk_states i)))
    (n := H.walk_states.length - 1) (s := (M, 0)) (body := fun y i => do
      let s ← nth H.walk_states i
      if s.stance.type ≠ .tds then do
        let R ← y.1.setBlk y.2 y.2 (ofMatrix2 s.rotation 0)
        pure (R, y.2 + 1)
      else pure y) (Bad := fun _ => True) (e := .ub) ⟨rfl, Nat.zero_le _, hM⟩ (by
    rintro i ⟨R, n⟩ hi ⟨g1, g2, g3⟩
    have hs : H.walk_states[i]? = some H.walk_states[i] := List.getElem?_eq_getElem (by omega)
    generalize H.walk_states[i] = s at hs
    rw [nth_ok hs, ok_bind, written_succ hi hs]
    by_cases ht : s.stance.type ≠ .tds
    · rw [if_pos ht, if_pos ht]
      simp only at g1 g2 g3 ⊢
      subst g1
      by_cases hl : (written H.walk_states i).length < H.variable_steps.length
      · obtain ⟨R', e', hR'⟩ := diagL_set hl g3 s.rotation
        rw [e', ok_bind]
        exact .inl ⟨_, rfl, by simp, by simp; omega, hR'⟩
      · rw [setBlk_out g3 (by decide) (by omega)]
        exact .inr ⟨rfl, trivial⟩
    · rw [if_neg ht, if_neg ht]
      exact .inl ⟨_, rfl, g1, g2, g3⟩)
  · obtain ⟨y, hy, -, hle, -⟩ := hy
    rw [written_all, List.length_map] at hle
    omega
  · rw [hy.1]
    rfl

end Humoto.Wpg
