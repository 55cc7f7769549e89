import Verif.Lemmas.Logger
import Mathlib.Data.Prod.Lex
import Mathlib.Order.WellFounded

/-!
# Termination of the processing thread of the logger
-/

set_option linter.unusedSimpArgs false

namespace Humoto.Log

variable {μ : Type}

theorem client_const {s s' : State μ} {a : Actor} {l : Label μ} {i : ℕ} (h : Step s a l s') (ha : a ≠ .client i)
    (hi : s.clients i ≠ .idle) : s'.clients i = s.clients i := by
  cases h with
  | worker h =>
    unfold workerStep at h
    split at h <;> (try split at h) <;> simp only [Option.some.injEq, reduceCtorEq] at h <;> subst h <;> rfl
  | client h =>
    rename_i j
    have hj : i ≠ j := by rintro rfl; exact ha rfl
    unfold clientStep at h
    split at h <;> (try split at h) <;> simp only [Option.some.injEq, reduceCtorEq, Prod.mk.injEq] at h <;>
      obtain ⟨rfl, rfl⟩ := h <;> simp [State.setClient, hj]
  | owner h =>
    unfold ownerStep at h
    split at h <;> (try split at h) <;> simp only [Option.some.injEq, reduceCtorEq, Prod.mk.injEq] at h <;>
      obtain ⟨rfl, rfl⟩ := h <;> rfl
  | call j m hj hm =>
    have : i ≠ j := by rintro rfl; exact hi hj
    simp [State.setClient, this]
  | shutdown p hp => rfl
  | spill n => rfl

/-- The client steps do not change the rest. -/
theorem clientStep_const {s s' : State μ} {i : ℕ} {l : Label μ} (h : clientStep s i = some (l, s')) :
    s'.owner = s.owner ∧ s'.worker = s.worker ∧ s'.interrupted = s.interrupted := by
  unfold clientStep at h
  split at h <;> (try split at h) <;> simp only [Option.some.injEq, reduceCtorEq, Prod.mk.injEq] at h <;>
    obtain ⟨rfl, rfl⟩ := h <;> exact ⟨rfl, rfl, rfl⟩

theorem workerStep_const {s s' : State μ} (h : workerStep s = some s') :
    s'.owner = s.owner ∧ s'.interrupted = s.interrupted := by
  unfold workerStep at h
  split at h <;> (try split at h) <;> simp only [Option.some.injEq, reduceCtorEq] at h <;> subst h <;> exact ⟨rfl, rfl⟩

theorem owner_const {s s' : State μ} {a : Actor} {l : Label μ} (h : Step s a l s') (ha : a ≠ .owner)
    (hi : s.owner ≠ .idle) : s'.owner = s.owner ∧ s'.interrupted = s.interrupted := by
  cases h with
  | worker h => exact workerStep_const h
  | client h => exact ⟨(clientStep_const h).1, (clientStep_const h).2.2⟩
  | owner h => exact absurd rfl ha
  | call j m hj hm => exact ⟨rfl, rfl⟩
  | shutdown p hp => exact absurd hp hi
  | spill n => exact ⟨rfl, rfl⟩

theorem worker_const {s s' : State μ} {a : Actor} {l : Label μ} (h : Step s a l s') (ha : a ≠ .owner)
    (hw : a ≠ .worker) : s'.worker = s.worker := by
  cases h with
  | worker h => exact absurd rfl hw
  | client h => exact (clientStep_const h).2.1
  | owner h => exact absurd rfl ha
  | call j m hj hm => rfl
  | shutdown p hp => rfl
  | spill n => rfl

/-- Distance to the end of the thread after it is asked to stop. -/
def rank : Worker μ → ℕ ×ₗ ℕ
  | .none => toLex (0, 0)
  | .check => toLex (2, 0)
  | .lockSize b => if b then toLex (1, 1) else toLex (4, 1)
  | .size b => if b then toLex (1, 0) else toLex (4, 0)
  | .unlockSize b k => toLex (if b then 0 else 3, 5 * k + 4)
  | .sleep => toLex (3, 2)
  | .lockPop b k => toLex (if b then 0 else 3, 5 * k + 3)
  | .front b k => toLex (if b then 0 else 3, 5 * k + 2)
  | .pop b k _ => toLex (if b then 0 else 3, 5 * k + 1)
  | .unlockPop b k _ => toLex (if b then 0 else 3, 5 * k)
  | .write b k _ => toLex (if b then 0 else 3, 5 * k - 1)
  | .flush b => toLex (if b then 0 else 3, 3)
  | .decide b => toLex (if b then 0 else 3, 2)
  | .done => toLex (0, 0)
  | .crashed => toLex (0, 0)

theorem rank_loopHead (b : Bool) (k : ℕ) :
    rank (loopHead b k : Worker μ) = toLex (if b then 0 else 3, 5 * k + 3) := by
  unfold loopHead; split
  · rename_i h; subst h; rfl
  · rfl

theorem rank_step {t : List (Label μ)} {s s' : State μ} (h : workerStep s = some s') (hf : Flow t s)
    (hi : s.interrupted = true) : rank s'.worker < rank s.worker := by
  have hpos := hf.positive
  unfold workerStep at h
  split at h <;> rename_i hp <;> (try split at h) <;> simp only [Option.some.injEq, reduceCtorEq] at h <;> subst h <;>
    simp only [hp, hi, positive] at hpos ⊢
  case h_5 =>
    rename_i b k
    unfold afterSize
    split
    · rename_i hk; subst hk
      cases b <;> simp [rank, Prod.Lex.toLex_lt_toLex]
    · rw [rank_loopHead]; simp [rank, Prod.Lex.toLex_lt_toLex]
  case h_11 =>
    rename_i b k m
    rw [rank_loopHead]
    simp only [rank, Prod.Lex.toLex_lt_toLex]
    right; exact ⟨trivial, by omega⟩
  case h_13 =>
    rename_i b
    cases b <;> simp [rank, afterDecide, Prod.Lex.toLex_lt_toLex]
  all_goals
    first
    | (simp only [rank, Prod.Lex.toLex_lt_toLex]; simp only [if_true]; decide)
    | (simp only [rank]; split <;> simp only [Prod.Lex.toLex_lt_toLex] <;> simp <;> done)
    | (simp [rank, Prod.Lex.toLex_lt_toLex]; done)
    | (simp only [rank]; split <;> simp only [Prod.Lex.toLex_lt_toLex] <;> simp <;> omega)

/-! ## Infinite executions -/

variable {σ : ℕ → State μ} {act : ℕ → Actor} {lab : ℕ → Label μ}

theorem run_execution (h : Spec.Execution σ act lab) (n : ℕ) : Run ((List.range n).map lab) (σ n) := by
  induction n with
  | zero => rw [h.start]; exact .start
  | succ n ih =>
    rw [List.range_succ, List.map_append]
    exact .step ih (h.step n)

theorem inv_execution (h : Spec.Execution σ act lab) (n : ℕ) : Inv ((List.range n).map lab) (σ n) :=
  inv_run (run_execution h n)

/-- Something that holds until a thread makes a step and enables this step leads to the step. -/
theorem leads {P : State μ → Prop} {x : Actor} {n : ℕ} (hst : ∀ m, n ≤ m → P (σ m) → act m ≠ x → P (σ (m + 1)))
    (hfair : (∀ m, n ≤ m → P (σ m)) → ∃ m, n ≤ m ∧ act m = x) (hn : P (σ n)) :
    ∃ m, n ≤ m ∧ P (σ m) ∧ act m = x := by
  by_contra hc
  have hall : ∀ k, P (σ (n + k)) := by
    intro k
    induction k with
    | zero => exact hn
    | succ k ih => exact hst (n + k) (by omega) ih (fun hx => hc ⟨n + k, by omega, ih, hx⟩)
  have hall' : ∀ m, n ≤ m → P (σ m) := by
    intro m hm
    obtain ⟨k, rfl⟩ := Nat.exists_eq_add_of_le hm
    exact hall k
  obtain ⟨m, hm, hx⟩ := hfair hall'
  exact hc ⟨m, hm, hall' m hm, hx⟩

/-- The mutex is released by a producer. -/
theorem lock_released (h : Spec.Execution σ act lab) (hf : Spec.Fair σ act) {n i : ℕ}
    (hl : (σ n).lock = some (.client i)) : ∃ m, n ≤ m ∧ (σ m).lock = none := by
  have hin := ((inv_execution h n).mutex.client i).1 hl
  have key : ∀ n m, (σ n).clients i = .unlock m → ∃ k, n ≤ k ∧ (σ k).lock = none := by
    intro n m hu
    obtain ⟨k, hk, hP, hx⟩ := leads (σ := σ) (act := act) (P := fun s => s.clients i = .unlock m) (x := .client i) (n := n)
      (fun k _ hP hx => by rw [client_const (h.step k) hx (by rw [hP]; simp)]; exact hP)
      (fun hall => hf.client i n fun k hk => by simp [clientStep, hall k hk]) hu
    refine ⟨k + 1, by omega, ?_⟩
    have hs := h.step k
    rw [hx] at hs
    cases hs with
    | client hs =>
      simp only [clientStep, hP, Option.some.injEq, Prod.mk.injEq] at hs
      rw [← hs.2]; rfl
  cases hc : (σ n).clients i with
  | idle => rw [hc] at hin; exact hin.elim
  | lock m => rw [hc] at hin; exact hin.elim
  | unlock m => exact key n m hc
  | push m =>
    obtain ⟨k, hk, hP, hx⟩ := leads (σ := σ) (act := act) (P := fun s => s.clients i = .push m) (x := .client i) (n := n)
      (fun k _ hP hx => by rw [client_const (h.step k) hx (by rw [hP]; simp)]; exact hP)
      (fun hall => hf.client i n fun k hk => by simp [clientStep, hall k hk]) hc
    have hu : (σ (k + 1)).clients i = .unlock m := by
      have hs := h.step k
      rw [hx] at hs
      cases hs with
      | client hs =>
        simp only [clientStep, hP, Option.some.injEq, Prod.mk.injEq] at hs
        rw [← hs.2]; simp [State.setClient]
    obtain ⟨k', hk', hl'⟩ := key _ _ hu
    exact ⟨k', by omega, hl'⟩

/-- The thread makes a finite number of steps after it is asked to stop. -/
theorem finitely_many (h : Spec.Execution σ act lab) {n : ℕ} (hi : ∀ m, n ≤ m → (σ m).interrupted = true)
    (ho : ∀ m, n ≤ m → act m ≠ .owner) : ∃ K, n ≤ K ∧ ∀ m, K ≤ m → act m ≠ .worker := by
  have key : ∀ r : ℕ ×ₗ ℕ, ∀ k, n ≤ k → rank (σ k).worker = r → ∃ K, k ≤ K ∧ ∀ m, K ≤ m → act m ≠ .worker := by
    intro r
    induction r using WellFoundedLT.induction with
    | ind r ih =>
      intro k hk hr
      by_cases hex : ∃ m, k ≤ m ∧ act m = .worker
      · classical
        have hfirst := Nat.find_spec hex
        have hbefore : ∀ j, k ≤ j → j ≤ Nat.find hex → (σ j).worker = (σ k).worker := by
          intro j hj
          induction j, hj using Nat.le_induction with
          | base => intro _; rfl
          | succ j hj ihj =>
            intro hle
            have hnw : act j ≠ .worker := fun hw => Nat.find_min hex (m := j) (by omega) ⟨hj, hw⟩
            rw [worker_const (h.step j) (ho j (by omega)) hnw]
            exact ihj (by omega)
        set m := Nat.find hex with hm
        have hs := h.step m
        rw [hfirst.2] at hs
        have hw : workerStep (σ m) = some (σ (m + 1)) := by
          generalize lab m = l at hs
          cases hs; assumption
        have hlt := rank_step hw (inv_execution h m).flow (hi m (by omega))
        rw [hbefore m hfirst.1 (le_refl _), hr] at hlt
        obtain ⟨K, hK, hall⟩ := ih _ hlt (m + 1) (by omega) rfl
        exact ⟨K, by omega, hall⟩
      · exact ⟨k, le_refl _, fun m hm hw => hex ⟨m, hm, hw⟩⟩
  exact key _ n (le_refl _) rfl

/-- Once the owner waits for the thread the thread ends. -/
theorem join_returns (h : Spec.Execution σ act lab) (hf : Spec.Fair σ act) {n : ℕ} {p : Purpose}
    (hj : (σ n).owner = .join p) : ∃ m, n ≤ m ∧ lab m = .stopped := by
  by_contra hc
  have hstopped : ∀ m, n ≤ m → (σ m).owner = .join p → act m ≠ .owner := by
    intro m hm ho hx
    have hs := h.step m
    rw [hx] at hs
    apply hc
    refine ⟨m, hm, ?_⟩
    cases hs with
    | owner hs =>
      simp only [ownerStep, ho] at hs
      split at hs
      · simp only [Option.some.injEq, Prod.mk.injEq] at hs; exact hs.1.symm
      · simp at hs
  have hown : ∀ m, n ≤ m → (σ m).owner = .join p := by
    intro m hm
    induction m, hm using Nat.le_induction with
    | base => exact hj
    | succ m hm ih => rw [(owner_const (h.step m) (hstopped m hm ih) (by rw [ih]; simp)).1]; exact ih
  have hact : ∀ m, n ≤ m → act m ≠ .owner := fun m hm => hstopped m hm (hown m hm)
  have hint : ∀ m, n ≤ m → (σ m).interrupted = true := fun m hm =>
    (inv_execution h m).owned.joining (by rw [hown m hm]; trivial)
  obtain ⟨K, hK, hquiet⟩ := finitely_many h hint hact
  have hconst : ∀ m, K ≤ m → (σ m).worker = (σ K).worker := by
    intro m hm
    induction m, hm using Nat.le_induction with
    | base => rfl
    | succ m hm ih => rw [worker_const (h.step m) (hact m (by omega)) (hquiet m hm)]; exact ih
  have hnone : (σ K).worker ≠ .none := by
    intro hw
    have := ((inv_execution h K).owned.none.1 hw).2
    rw [hown K hK] at this
    exact this trivial
  have hcrash : (σ K).worker ≠ .crashed := (inv_execution h K).flow.safe
  have hdone : (σ K).worker ≠ .done := by
    intro hw
    obtain ⟨m, hm, hx⟩ := hf.owner K fun m hm => by
      simp [ownerStep, hown m (by omega), hconst m hm, hw]
    exact hact m (by omega) hx
  have hfree : ∀ k, K ≤ k → ¬ insideW (σ K).worker → ∃ m, k ≤ m ∧ (σ m).lock = none := by
    intro k hk hout
    cases hl : (σ k).lock with
    | none => exact ⟨k, le_refl _, hl⟩
    | some x =>
      cases x with
      | worker =>
        have := (inv_execution h k).mutex.worker.1 hl
        rw [hconst k hk] at this
        exact absurd this hout
      | client i => exact lock_released h hf hl
  have hen : ∀ k, ∃ m, k ≤ m ∧ workerStep (σ m) ≠ none := by
    intro k
    cases hw : (σ K).worker with
    | none => exact absurd hw hnone
    | crashed => exact absurd hw hcrash
    | done => exact absurd hw hdone
    | lockSize b =>
      obtain ⟨m, hm, hl⟩ := hfree (max k K) (le_max_right _ _) (by rw [hw]; simp [insideW])
      refine ⟨m, le_trans (le_max_left _ _) hm, ?_⟩
      simp [workerStep, hconst m (le_trans (le_max_right _ _) hm), hw, hl]
    | lockPop b j =>
      obtain ⟨m, hm, hl⟩ := hfree (max k K) (le_max_right _ _) (by rw [hw]; simp [insideW])
      refine ⟨m, le_trans (le_max_left _ _) hm, ?_⟩
      simp [workerStep, hconst m (le_trans (le_max_right _ _) hm), hw, hl]
    | front b j =>
      refine ⟨max k K, le_max_left _ _, ?_⟩
      simp only [workerStep, hconst (max k K) (le_max_right _ _), hw]
      split <;> simp
    | pop b j m =>
      refine ⟨max k K, le_max_left _ _, ?_⟩
      simp only [workerStep, hconst (max k K) (le_max_right _ _), hw]
      split <;> simp
    | _ =>
      refine ⟨max k K, le_max_left _ _, ?_⟩
      simp [workerStep, hconst (max k K) (le_max_right _ _), hw]
  obtain ⟨m, hm, hx⟩ := hf.worker hen K
  exact hquiet m hm hx

end Humoto.Log
