import Verif.Lemmas.PepperMpc
import Verif.Props.PepperHorizon
import Verif.Props.PepperModel
import Verif.Props.Solution

/-!
# C59, C71, C72: matrices and results of the control problem of Pepper
-/

set_option linter.unusedSectionVars false

namespace Humoto.Pepper

open Spec

variable {K : Type} [Field K] [LinearOrder K] [IsStrictOrderedRing K]

/-! ## Simulation -/

/-- The jerk of the axis `k`. -/
def stepJerk (T : K) (x u : Vec K) (k : ℕ) : K :=
  if k < 2 then 2 / (T * T) * (u.e k - x.e (3 * k + 1) - T * x.e (3 * k + 2)) else u.e k

/-- The state after a step. -/
def stepVec (T Ts : K) (x u : Vec K) : Vec K := ⟨12, fun i =>
  if i % 3 = 0 then positionAt (x.e (3 * (i / 3))) (x.e (3 * (i / 3) + 1)) (x.e (3 * (i / 3) + 2)) (stepJerk T x u (i / 3)) Ts
  else if i % 3 = 1 then velocityAt (x.e (3 * (i / 3) + 1)) (x.e (3 * (i / 3) + 2)) (stepJerk T x u (i / 3)) Ts
  else accelerationAt (x.e (3 * (i / 3) + 2)) (stepJerk T x u (i / 3)) Ts⟩

theorem stepVec_e (T Ts : K) (x u : Vec K) (k : ℕ) :
    (stepVec T Ts x u).e (3 * k) = positionAt (x.e (3 * k)) (x.e (3 * k + 1)) (x.e (3 * k + 2)) (stepJerk T x u k) Ts ∧
    (stepVec T Ts x u).e (3 * k + 1) = velocityAt (x.e (3 * k + 1)) (x.e (3 * k + 2)) (stepJerk T x u k) Ts ∧
    (stepVec T Ts x u).e (3 * k + 2) = accelerationAt (x.e (3 * k + 2)) (stepJerk T x u k) Ts := by
  have h0 : 3 * k % 3 = 0 ∧ 3 * k / 3 = k := by omega
  have h1 : (3 * k + 1) % 3 = 1 ∧ (3 * k + 1) / 3 = k := by omega
  have h2 : (3 * k + 2) % 3 = 2 ∧ (3 * k + 2) / 3 = k := by omega
  refine ⟨?_, ?_, ?_⟩
  · simp only [stepVec, h0.1, h0.2, if_true]
  · simp [stepVec, h1.1, h1.2]
  · simp [stepVec, h2.1, h2.2]

theorem velocityAt_stepJerk {T : K} (hT : T ≠ 0) (v a w : K) : velocityAt v a (2 / (T * T) * (w - v - T * a)) T = w := by
  unfold velocityAt
  field_simp
  ring

theorem stepJerk_unique {T : K} (hT : T ≠ 0) {v a w j : K} (h : velocityAt v a j T = w) : j = 2 / (T * T) * (w - v - T * a) := by
  rw [← h]
  unfold velocityAt
  field_simp
  ring

theorem stepVec_step {T : K} (hT : T ≠ 0) (Ts : K) {x u : Vec K} (hx : x.n = 12) (hu : u.n = 4) :
    PepperStep T Ts x u (stepVec T Ts x u) := by
  refine ⟨hx, hu, rfl, ?_, ?_⟩
  · intro k hk
    obtain ⟨e0, e1, e2⟩ := stepVec_e T Ts x u k
    refine ⟨stepJerk T x u k, ?_, e0, e1, e2⟩
    unfold stepJerk
    rw [if_pos hk, velocityAt_stepJerk hT]
  · intro k hk _
    obtain ⟨e0, e1, e2⟩ := stepVec_e T Ts x u k
    have : stepJerk T x u k = u.e k := by unfold stepJerk; rw [if_neg (by omega)]
    rw [this] at e0 e1 e2
    exact ⟨e0, e1, e2⟩

theorem PepperStep.eq {T Ts : K} (hT : T ≠ 0) {x u y : Vec K} (h : PepperStep T Ts x u y) {k : ℕ} (hk : k < 4) :
    y.e (3 * k) = positionAt (x.e (3 * k)) (x.e (3 * k + 1)) (x.e (3 * k + 2)) (stepJerk T x u k) Ts ∧
    y.e (3 * k + 1) = velocityAt (x.e (3 * k + 1)) (x.e (3 * k + 2)) (stepJerk T x u k) Ts ∧
    y.e (3 * k + 2) = accelerationAt (x.e (3 * k + 2)) (stepJerk T x u k) Ts := by
  obtain ⟨-, -, -, h1, h2⟩ := h
  by_cases hk2 : k < 2
  · obtain ⟨j, hj, hm⟩ := h1 k hk2
    have : stepJerk T x u k = j := by unfold stepJerk; rw [if_pos hk2, stepJerk_unique hT hj]
    rw [this]
    exact hm
  · have : stepJerk T x u k = u.e k := by unfold stepJerk; rw [if_neg hk2]
    rw [this]
    exact h2 k (by omega) hk

/-- The states, one after another. -/
def simulation (intervals : List (Interval K)) (x0 : Vec K) (x : ℕ → K) : ℕ → Vec K
  | 0 => x0
  | k + 1 =>
    match intervals[k]? with
    | some iv => stepVec iv.T iv.T (simulation intervals x0 x k) (controlAt intervals.length x k)
    | none => ⟨12, fun _ => 0⟩

theorem simulation_n (intervals : List (Interval K)) {x0 : Vec K} (h0 : x0.n = 12) (x : ℕ → K) (k : ℕ) :
    (simulation intervals x0 x k).n = 12 := by
  cases k with
  | zero => exact h0
  | succ k =>
    unfold simulation
    split <;> rfl

/-- For every solution there is a motion which it produces. -/
theorem simulation_simulates {intervals : List (Interval K)} (hT : ∀ iv ∈ intervals, iv.T ≠ 0) {x0 : Vec K} (h0 : x0.n = 12)
    (x : ℕ → K) : Simulates intervals x0 x (simulation intervals x0 x) := by
  refine ⟨rfl, ?_⟩
  intro k iv hiv
  rw [show simulation intervals x0 x (k + 1) =
    stepVec iv.T iv.T (simulation intervals x0 x k) (controlAt intervals.length x k) by rw [simulation, hiv]]
  exact stepVec_step (hT iv (List.mem_of_getElem? hiv)) _ (simulation_n _ h0 x k) rfl

/-- Only one. -/
theorem simulates_unique {intervals : List (Interval K)} (hT : ∀ iv ∈ intervals, iv.T ≠ 0) {x0 : Vec K} {x : ℕ → K}
    {X Y : ℕ → Vec K} (hX : Simulates intervals x0 x X) (hY : Simulates intervals x0 x Y) (k : ℕ) (hk : k ≤ intervals.length) :
    ∀ i < 12, (X k).e i = (Y k).e i := by
  induction k with
  | zero => intro i _; rw [hX.1, hY.1]
  | succ k ih =>
    have hiv : intervals[k]? = some intervals[k] := List.getElem?_eq_getElem hk
    have hT' := hT intervals[k] (List.getElem_mem hk)
    generalize intervals[k] = iv at hiv hT'
    have ih := ih (by omega)
    intro i hi
    obtain ⟨b, p, hb, hp, rfl⟩ := exists_blk (h := 3) (n := 4) hi
    obtain ⟨x0, x1, x2⟩ := PepperStep.eq hT' (hX.2 k iv hiv) hb
    obtain ⟨y0, y1, y2⟩ := PepperStep.eq hT' (hY.2 k iv hiv) hb
    have hj : stepJerk iv.T (X k) (controlAt intervals.length x k) b = stepJerk iv.T (Y k) (controlAt intervals.length x k) b := by
      unfold stepJerk
      rw [ih (3 * b + 1) (by omega), ih (3 * b + 2) (by omega)]
    rw [mul_comm b 3]
    have hp' : p = 0 ∨ p = 1 ∨ p = 2 := by omega
    rcases hp' with rfl | rfl | rfl
    · rw [add_zero, x0, y0, hj, ih (3 * b) (by omega), ih (3 * b + 1) (by omega), ih (3 * b + 2) (by omega)]
    · rw [x1, y1, hj, ih (3 * b + 1) (by omega), ih (3 * b + 2) (by omega)]
    · rw [x2, y2, hj, ih (3 * b + 2) (by omega)]

/-! ## C72 -/

theorem updateMatrices_thrown (junk : ℕ → ℕ → ℕ → ℕ → K) {intervals : List (Interval K)} {oldS : Mat K} (model : Model K)
    (hN : 0 < intervals.length)
    (h : ¬ (oldS.rows % (6 * intervals.length) = 0 ∧ oldS.cols % (2 * intervals.length) = 0)) :
    updateMatrices junk intervals.length intervals oldS model = .error .thrown := by
  obtain ⟨R, eR, -⟩ := formRotationMatrices_ok intervals
  obtain ⟨y, ey, hy⟩ := systems_ok intervals
  have lAs := hy.As.1
  have lAd := hy.Ad.1
  obtain ⟨Uxs, Uus, e1, a1, a2, a3, a4, hs⟩ := condense_ok (junk 0 0) (A := y.As) (B := y.Bs) (ns := 3) (nu := 1)
    (S0 := ⟨3, 3, ⟨0, 0, fun _ _ => 0⟩⟩) (U0 := ⟨3, 1, ⟨0, 0, fun _ _ => 0⟩⟩) (by omega) (by rw [hy.As.1, hy.Bs.1])
    (hy.As.allSize rfl (fun _ => rfl) (fun _ => rfl)) (hy.Bs.allSize rfl (fun _ => rfl) (fun _ => rfl)) (by omega) (by omega)
    rfl rfl rfl rfl
  obtain ⟨Uxd, Uud, e2, -⟩ := condense_ok (junk 0 1) (A := y.Ad) (B := y.Bd) (ns := 3) (nu := 1)
    (S0 := ⟨3, 3, ⟨0, 0, fun _ _ => 0⟩⟩) (U0 := ⟨3, 1, ⟨0, 0, fun _ _ => 0⟩⟩) (by omega) (by rw [hy.Ad.1, hy.Bd.1])
    (hy.Ad.allSize rfl (fun _ => rfl) (fun _ => rfl)) (hy.Bd.allSize rfl (fun _ => rfl) (fun _ => rfl)) (by omega) (by omega)
    rfl rfl rfl rfl
  obtain ⟨Ox, Ou, e3, -⟩ := condenseOutput_ok' (junk 0 2) (A := y.As) (B := y.Bs) (D := y.Djs) (E := y.Ejs)
    (ns := 3) (nu := 1) (ny := 1) (Ox0 := ⟨1, 3, ⟨0, 0, fun _ _ => 0⟩⟩) (Ou0 := ⟨1, 1, ⟨0, 0, fun _ _ => 0⟩⟩) (by omega)
    (by omega) (by omega) (by omega) a1 a2 a3 a4 hs rfl rfl rfl rfl (by rw [hy.Djs.1, lAs]) (by rw [hy.Ejs.1, lAs])
    (hy.Djs.allSize rfl (fun _ => rfl) (fun _ => rfl)) (hy.Ejs.allSize rfl (fun _ => rfl) (fun _ => rfl))
  have hv : (solutionStructure intervals.length).nvars = 4 * intervals.length := by
    show 0 + intervals.length * 2 + intervals.length * 2 = _
    ring
  unfold updateMatrices
  simp only [numStates, hv]
  rw [eR, ok_bind, ey, ok_bind, e1, ok_bind]
  simp only
  rw [e2, ok_bind]
  simp only
  rw [e3, ok_bind]
  simp only
  rw [updateS_thrown (junk 0 3) Uus Uud hN h]
  rfl

/-- The matrix of states has the size for a horizon with `N` intervals; zero before the first successful update. -/
def SizedFor (c : Mpc K) (N : ℕ) : Prop := c.matrices.S.rows = 12 * N ∧ c.matrices.S.cols = 4 * N

theorem sizedFor_make (p : MPCParameters) : SizedFor (Mpc.make p : Mpc K) 0 := ⟨rfl, rfl⟩

theorem dvd_iff {N M : ℕ} (hN : 0 < N) : (12 * M % (6 * N) = 0 ∧ 4 * M % (2 * N) = 0) ↔ N ∣ 2 * M := by
  rw [← Nat.dvd_iff_mod_eq_zero, ← Nat.dvd_iff_mod_eq_zero]
  constructor
  · rintro ⟨h, -⟩
    have : 6 * N ∣ 6 * (2 * M) := by rw [show 6 * (2 * M) = 12 * M by ring]; exact h
    exact Nat.dvd_of_mul_dvd_mul_left (by omega) this
  · intro h
    constructor
    · rw [show 12 * M = 6 * (2 * M) by ring]; exact Nat.mul_dvd_mul_left 6 h
    · rw [show 4 * M = 2 * (2 * M) by ring]; exact Nat.mul_dvd_mul_left 2 h

/-- The matrices are those of the motion predicted for the current horizon and the state `x0`. -/
def Consistent (c : Mpc K) (x0 : Vec K) : Prop :=
  c.matrices.solution = solutionStructure c.intervals.length ∧ MpcMatrices c.intervals x0 c.matrices

theorem updateWith_ok (junk : ℕ → ℕ → ℕ → ℕ → K) {form : List (Interval K) → Res (Bool × List (Interval K))} {model : Model K}
    {c : Mpc K} {M : ℕ} (hc : SizedFor c M) {ivs : List (Interval K)} (hf : form c.intervals = .ok (true, ivs))
    (hN : 0 < ivs.length) (hl : ivs.length = c.parameters.preview_horizon_length) (hT : ∀ iv ∈ ivs, iv.T ≠ 0)
    (h : ivs.length ∣ 2 * M) :
    ∃ m, c.updateWith junk form model =
        .ok ({ c with solution_is_parsed := false, intervals := ivs, matrices := m }, .ok) ∧
      m.solution = solutionStructure ivs.length ∧ MpcMatrices ivs model.getMPCState m := by
  have h' := (dvd_iff hN).mpr h
  rw [← hc.1, ← hc.2] at h'
  obtain ⟨m, hm, hs, hM⟩ := updateMatrices_ok junk model hN hT h'.1 h'.2
  refine ⟨m, ?_, hs, hM⟩
  unfold Mpc.updateWith
  simp only
  rw [hf, ok_bind, if_pos rfl, ← hl, hm]
  rfl

/-- **C72.** An update whose horizon has been formed: it succeeds exactly when the number of intervals divides twice the number
of intervals of the preceding successful update. -/
theorem C72_criterion (junk : ℕ → ℕ → ℕ → ℕ → K) {form : List (Interval K) → Res (Bool × List (Interval K))} {model : Model K}
    {c : Mpc K} {M : ℕ} (hc : SizedFor c M) {ivs : List (Interval K)} (hf : form c.intervals = .ok (true, ivs))
    (hN : 0 < ivs.length) (hl : ivs.length = c.parameters.preview_horizon_length) (hT : ∀ iv ∈ ivs, iv.T ≠ 0) :
    (ivs.length ∣ 2 * M → ∃ c', c.updateWith junk form model = .ok (c', .ok) ∧ SizedFor c' ivs.length) ∧
    (¬ ivs.length ∣ 2 * M → c.updateWith junk form model = .error .thrown) := by
  constructor
  · intro h
    obtain ⟨m, e, -, hM⟩ := updateWith_ok junk hc hf hN hl hT h
    exact ⟨_, e, hM.rowsS, hM.colsS⟩
  · intro h
    have h' : ¬ (c.matrices.S.rows % (6 * ivs.length) = 0 ∧ c.matrices.S.cols % (2 * ivs.length) = 0) := by
      rw [hc.1, hc.2]
      exact fun h' => h ((dvd_iff hN).mp h')
    unfold Mpc.updateWith
    simp only
    rw [hf, ok_bind, if_pos rfl, ← hl, updateMatrices_thrown junk model hN h']
    rfl

theorem horizon_times {tr : Trig K} {p : MPCParameters} {model : Model K} {q : List (MotionParameters K)}
    {ivs : List (Interval K)} (h : HorizonFor tr p model q ivs) (hT : 0 < p.sampling_time_ms) : ∀ iv ∈ ivs, iv.T ≠ 0 := by
  intro iv hiv
  obtain ⟨i, hi⟩ := List.getElem?_of_mem hiv
  obtain ⟨m, theta, -, -, h3⟩ := h.2 i iv hi
  rw [h3.duration]
  have : (p.sampling_time_ms : K) ≠ 0 := by exact_mod_cast hT.ne'
  exact div_ne_zero this (by norm_num)

/-- What an update does, for any way of forming the horizon which works. -/
theorem updateWith_cases (junk : ℕ → ℕ → ℕ → ℕ → K) {tr : Trig K} {q : List (MotionParameters K)} {model : Model K} {c : Mpc K}
    {form : List (Interval K) → Res (Bool × List (Interval K))} {b : Bool} {ivs : List (Interval K)}
    (h1 : form c.intervals = .ok (b, ivs)) (h3 : b → HorizonFor tr c.parameters model q ivs)
    (hT : 0 < c.parameters.sampling_time_ms) (hN : 0 < c.parameters.preview_horizon_length)
    (hc : SizedFor c 0 ∨ SizedFor c c.parameters.preview_horizon_length) :
    ∃ c' st, c.updateWith junk form model = .ok (c', st) ∧ (st = .ok ↔ b) ∧ c'.parameters = c.parameters ∧
      (SizedFor c' 0 ∨ SizedFor c' c.parameters.preview_horizon_length) ∧
      (st = .ok → HorizonFor tr c.parameters model q c'.intervals ∧ Consistent c' model.getMPCState) := by
  cases b with
  | false =>
    refine ⟨{ c with solution_is_parsed := false, intervals := ivs }, .stopped, ?_, ?_, rfl, hc, ?_⟩
    · unfold Mpc.updateWith
      simp only
      rw [h1, ok_bind]
      rfl
    · simp
    · intro h; cases h
  | true =>
    have hH := h3 rfl
    have hl := hH.1
    obtain ⟨M, hs, hd⟩ : ∃ M, SizedFor c M ∧ ivs.length ∣ 2 * M := by
      rcases hc with h | h
      · exact ⟨0, h, Nat.dvd_zero _⟩
      · exact ⟨_, h, hl ▸ Nat.dvd_mul_left _ _⟩
    obtain ⟨m, e, hs', hM⟩ := updateWith_ok junk (model := model) hs h1 (by omega) hl (horizon_times hH hT) hd
    exact ⟨_, .ok, e, by simp, rfl, Or.inr (hl ▸ ⟨hM.rowsS, hM.colsS⟩), fun _ => ⟨hH, hs', hM⟩⟩

/-! ## C71 -/

/-- **C71.** After a successful update with a motion the matrices describe the motion which a solution produces from the state of
the model. -/
theorem C71_update (junk : ℕ → ℕ → ℕ → ℕ → K) (tr : Trig K) (dflt : Interval K) {m : MotionParameters K} (hm : ProperMotion m)
    (model : Model K) {c : Mpc K} (hT : 0 < c.parameters.sampling_time_ms) (hN : 0 < c.parameters.preview_horizon_length)
    (hNT : c.parameters.preview_horizon_length * c.parameters.sampling_time_ms < 2 ^ 63)
    (hc : SizedFor c 0 ∨ SizedFor c c.parameters.preview_horizon_length) :
    ∃ c' st, c.update junk tr dflt m model = .ok (c', st) ∧
      (st = .ok ↔ LastsUntil [m] (c.parameters.preview_horizon_length * c.parameters.sampling_time_ms)) ∧
      c'.parameters = c.parameters ∧ (SizedFor c' 0 ∨ SizedFor c' c.parameters.preview_horizon_length) ∧
      (st = .ok → HorizonFor tr c.parameters model [m] c'.intervals ∧ Consistent c' model.getMPCState) := by
  obtain ⟨b, ivs, h1, h2, h3, -⟩ := C57_single tr dflt c.intervals c.parameters model hm hT hNT
  obtain ⟨c', st, g1, g2, g3, g4, g5⟩ := updateWith_cases junk (q := [m]) (model := model)
    (form := fun old => formSingle tr dflt old c.parameters model m) h1 h3 hT hN hc
  exact ⟨c', st, g1, g2.trans h2, g3, g4, g5⟩

/-- **C71.** The same for a queue of motions. -/
theorem C71_queue (junk : ℕ → ℕ → ℕ → ℕ → K) (tr : Trig K) (dflt : Interval K) {q : List (MotionParameters K)}
    (hq : ∀ m ∈ q, ProperMotion m) (model : Model K) {c : Mpc K} (hT : 0 < c.parameters.sampling_time_ms)
    (hT' : c.parameters.sampling_time_ms < 2 ^ 63) (hN : 0 < c.parameters.preview_horizon_length)
    (hc : SizedFor c 0 ∨ SizedFor c c.parameters.preview_horizon_length) :
    ∃ c' st, c.updateQueue junk tr dflt q model = .ok (c', st) ∧
      (st = .ok ↔ LastsUntil q (c.parameters.preview_horizon_length * c.parameters.sampling_time_ms)) ∧
      c'.parameters = c.parameters ∧ (SizedFor c' 0 ∨ SizedFor c' c.parameters.preview_horizon_length) ∧
      (st = .ok → HorizonFor tr c.parameters model q c'.intervals ∧ Consistent c' model.getMPCState) := by
  obtain ⟨b, ivs, h1, h2, h3⟩ := C57_queue tr dflt c.intervals c.parameters model hq hT hT' hN
  obtain ⟨c', st, g1, g2, g3, g4, g5⟩ := updateWith_cases junk (q := q) (model := model)
    (form := fun old => formQueue tr dflt old c.parameters model q) h1 h3 hT hN hc
  exact ⟨c', st, g1, g2.trans h2, g3, g4, g5⟩

/-- A solution with the structure of the problem. -/
structure SolutionFor (N : ℕ) (sol : Solution K) : Prop where
  structure_ : sol.structure_ = solutionStructure N
  size : sol.x.length = 4 * N

/-- Entries of a solution. -/
def entries (sol : Solution K) : ℕ → K := fun i => sol.x.getD i 0

theorem location_base (N : ℕ) : (solutionStructure N).location baseVelId = ⟨0, N * 2⟩ := rfl

theorem location_body (N : ℕ) : (solutionStructure N).location bodyJerkId = ⟨0 + N * 2, N * 2⟩ := rfl

theorem nvars_solutionStructure (N : ℕ) : (solutionStructure N).nvars = 4 * N := by
  show 0 + N * 2 + N * 2 = _
  ring

theorem getData_ok {sol : Solution K} {off len : ℕ} (h : off + len ≤ sol.x.length) :
    ∃ v, sol.getData ⟨off, len⟩ = .ok v ∧ v.length = len ∧ ∀ i < len, v.getD i 0 = sol.x.getD (off + i) 0 := by
  refine ⟨(sol.x.drop off).take len, ?_, ?_, ?_⟩
  · unfold Solution.getData
    rw [assertThat_true ((Location.checkLength_iff _ _).2 h)]
    rfl
  · simp; omega
  · intro i hi
    simp [List.getD_eq_getElem?_getD, hi]

theorem mulAdd_ok {A : Mat K} {x b : Vec K} (h1 : A.cols = x.n) (h2 : A.rows = b.n) :
    ∃ y, Mpc.mulAdd A x b = .ok y ∧ y.n = A.rows ∧ ∀ r v, AffineRow A b x.e r v → y.e r = v := by
  refine ⟨⟨A.rows, fun i => ∑ k ∈ Finset.range A.cols, A.e i k * x.e k + b.e i⟩, ?_, rfl, fun r v h => h⟩
  unfold Mpc.mulAdd Mat.mulVec
  rw [if_pos h1]
  show Vec.add _ _ = _
  unfold Vec.add
  rw [if_pos h2]

/-- **C71.** The results of a solution are those of the motion which it produces. -/
theorem C71_profiles {c : Mpc K} {x0 : Vec K} (hc : Consistent c x0) {sol : Solution K}
    (hs : SolutionFor c.intervals.length sol) {X : ℕ → Vec K} (hX : Simulates c.intervals x0 (entries sol) X) :
    ∃ c', c.parseSolution sol = .ok c' ∧ Profiles c.intervals (entries sol) X c' ∧ c'.intervals = c.intervals ∧
      c'.parameters = c.parameters ∧ c'.matrices = c.matrices ∧ c'.solution_is_parsed = true := by
  obtain ⟨hst, hM⟩ := hc
  have hn : (Vec.ofList sol.x).n = 4 * c.intervals.length := hs.size
  obtain ⟨y1, e1, n1, r1⟩ := mulAdd_ok (A := c.matrices.S) (x := Vec.ofList sol.x) (b := c.matrices.s)
    (hM.colsS.trans hn.symm) (hM.rowsS.trans hM.sizes.symm)
  obtain ⟨y2, e2, n2, r2⟩ := mulAdd_ok (A := c.matrices.Ap) (x := Vec.ofList sol.x) (b := c.matrices.sp)
    (hM.colsAp.trans hn.symm) (hM.rowsAp.trans hM.sizesp.symm)
  have hhead : Kron.segment (Vec.ofList sol.x) 0 (c.matrices.solution.nvars / 2) =
      .ok ⟨c.matrices.solution.nvars / 2, fun i => (Vec.ofList sol.x).e (0 + i)⟩ := by
    unfold Kron.segment
    rw [if_pos]
    rw [hst, nvars_solutionStructure, hn]
    omega
  have hnv : c.matrices.solution.nvars / 2 = 2 * c.intervals.length := by
    rw [hst, nvars_solutionStructure]
    omega
  obtain ⟨y3, e3, n3, r3⟩ := mulAdd_ok (A := c.matrices.Ajs) (b := c.matrices.sjs)
    (x := ⟨c.matrices.solution.nvars / 2, fun i => (Vec.ofList sol.x).e (0 + i)⟩) (hM.colsAjs.trans hnv.symm)
    (hM.rowsAjs.trans hM.sizesjs.symm)
  have h4 : sol.getPart baseVelId = sol.getData ⟨0, c.intervals.length * 2⟩ := by
    unfold Solution.getPart
    rw [hs.structure_, location_base]
  have h5 : sol.getPart bodyJerkId = sol.getData ⟨0 + c.intervals.length * 2, c.intervals.length * 2⟩ := by
    unfold Solution.getPart
    rw [hs.structure_, location_body]
  obtain ⟨v4, e4, n4, r4⟩ := getData_ok (sol := sol) (off := 0) (len := c.intervals.length * 2) (by rw [hs.size]; omega)
  obtain ⟨v5, e5, n5, r5⟩ := getData_ok (sol := sol) (off := 0 + c.intervals.length * 2) (len := c.intervals.length * 2)
    (by rw [hs.size]; omega)
  refine ⟨{ c with
    cstate_profile := y1
    cop_profile := y2
    base_jerk_profile := y3
    base_controls := Vec.ofList v4
    body_controls := Vec.ofList v5
    solution_is_parsed := true }, ?_, ?_, rfl, rfl, rfl, rfl⟩
  · unfold Mpc.parseSolution
    simp only
    rw [e1, ok_bind, e2, ok_bind, hhead, ok_bind, e3, ok_bind, h4, e4, ok_bind, h5, e5, ok_bind]
    rfl
  · refine ⟨⟨n1.trans hM.rowsS, n2.trans hM.rowsAp, n3.trans hM.rowsAjs, ?_, ?_⟩, ?_, ?_, ?_, ?_, ?_⟩
    · show v4.length = _
      omega
    · show v5.length = _
      omega
    · intro k hk i hi
      obtain ⟨g1, g2⟩ := hM.states _ _ hX k hk i hi
      exact ⟨r1 _ _ g1, r1 _ _ g2⟩
    · intro k iv hiv hmass a ha
      exact r2 _ _ (hM.cop _ _ hX k iv hiv hmass a ha)
    · intro k iv hiv a ha
      obtain ⟨j, g1, g2⟩ := hM.jerk _ _ hX k iv hiv a ha
      have g1 : AffineRow c.matrices.Ajs c.matrices.sjs (fun i => (Vec.ofList sol.x).e (0 + i)) (2 * k + a) j := by
        simp only [zero_add]
        exact g1
      show velocityAt _ _ (y3.e (2 * k + a)) _ = _
      rw [r3 _ _ g1]
      exact g2
    · intro i hi
      show v4.getD i 0 = _
      rw [r4 i (by omega), zero_add]
      rfl
    · intro i hi
      show v5.getD i 0 = _
      rw [r5 i (by omega), zero_add, mul_comm]
      rfl

/-- **C71.** For every solution there is exactly one such motion, up to entries which do not exist. -/
theorem C71_motion {intervals : List (Interval K)} (hT : ∀ iv ∈ intervals, iv.T ≠ 0) {x0 : Vec K} (h0 : x0.n = 12)
    (x : ℕ → K) : ∃ X, Simulates intervals x0 x X ∧
      ∀ Y, Simulates intervals x0 x Y → ∀ k ≤ intervals.length, ∀ i < 12, (Y k).e i = (X k).e i :=
  ⟨_, simulation_simulates hT h0 x, fun _ hY k hk =>
    simulates_unique hT hY (simulation_simulates hT h0 x) k hk⟩

/-! ## C59 -/

theorem PepperStep.congr {T Ts : K} {x x' u u' y y' : Vec K} (h : PepperStep T Ts x u y) (nx : x'.n = 12) (nu : u'.n = 4)
    (ny : y'.n = 12) (ex : ∀ i < 12, x'.e i = x.e i) (eu : ∀ i < 4, u'.e i = u.e i) (ey : ∀ i < 12, y'.e i = y.e i) :
    PepperStep T Ts x' u' y' := by
  obtain ⟨-, -, -, h1, h2⟩ := h
  refine ⟨nx, nu, ny, ?_, ?_⟩
  · intro k hk
    rw [ex _ (by omega), ex _ (by omega), ex _ (by omega), ey _ (by omega), ey _ (by omega), ey _ (by omega), eu _ (by omega)]
    exact h1 k hk
  · intro k hk hk'
    rw [ex _ (by omega), ex _ (by omega), ex _ (by omega), ey _ (by omega), ey _ (by omega), ey _ (by omega), eu _ (by omega)]
    exact h2 k hk hk'

theorem segment_ok {v : Vec K} {off len : ℕ} (h : off + len ≤ v.n) :
    Kron.segment v off len = .ok ⟨len, fun i => v.e (off + i)⟩ := by
  unfold Kron.segment
  rw [if_pos h]

/-- The state which is used as the initial state of an interval is the predicted one. -/
theorem precedingState_ok {c : Mpc K} {model : Model K} {x : ℕ → K} {X : ℕ → Vec K} (hP : Profiles c.intervals x X c)
    (hX : X 0 = model.getMPCState) (hl : c.parameters.preview_horizon_length = c.intervals.length) {i : ℕ}
    (hi : i < c.intervals.length) :
    ∃ y, c.precedingState model i = .ok y ∧ y.n = 12 ∧ ∀ j < 12, y.e j = (X i).e j := by
  unfold Mpc.precedingState
  cases i with
  | zero => exact ⟨_, rfl, rfl, fun j _ => by rw [hX]⟩
  | succ i =>
    have e1 : (i + 1 - 1) * numStates / 2 = 6 * i := by simp only [numStates, Nat.add_sub_cancel]; omega
    have e2 : c.parameters.preview_horizon_length * numStates / 2 + (i + 1 - 1) * numStates / 2 =
        6 * c.intervals.length + 6 * i := by rw [hl]; simp only [numStates, Nat.add_sub_cancel]; omega
    have e3 : numStates / 2 = 6 := rfl
    rw [if_neg (by omega), e2, e1, e3]
    have hn := hP.sizes.1
    rw [segment_ok (by omega), ok_bind, segment_ok (by omega), ok_bind]
    refine ⟨_, rfl, rfl, ?_⟩
    intro j hj
    show (if j < 6 then _ else _) = _
    by_cases h : j < 6
    · rw [if_pos h]
      exact (hP.states i (by omega) j h).1
    · rw [if_neg h]
      have := (hP.states i (by omega) (j - 6) (by omega)).2
      rw [show 6 + (j - 6) = j by omega] at this
      exact this

/-- What `getModelState` computes: the state at the time `offset` after the start of the interval `i`, with the controls of the
first interval. -/
theorem modelStateAt_ok {c : Mpc K} {model : Model K} {x : ℕ → K} {X : ℕ → Vec K} (hP : Profiles c.intervals x X c)
    (hX : Simulates c.intervals model.getMPCState x X) (hl : c.parameters.preview_horizon_length = c.intervals.length)
    {i : ℕ} {iv : Interval K} (hi : c.intervals[i]? = some iv) (hT : iv.T ≠ 0) {prev : K}
    (hp : StartsWith model c.intervals i prev) (offset : K) :
    ∃ s, c.modelStateAt model i offset = .ok s ∧
      StateWithin iv prev offset (X i) (controlAt c.intervals.length x 0) s := by
  have hi' : i < c.intervals.length := (List.getElem?_eq_some_iff.mp hi).1
  obtain ⟨y, e1, ny, ey⟩ := precedingState_ok hP hX.1 hl hi'
  have e2 : c.previousTheta model i = .ok prev := by
    unfold Mpc.previousTheta
    cases i with
    | zero => rw [if_pos rfl, show prev = model.state.base_state.rpy 2 from hp]; rfl
    | succ i =>
      obtain ⟨p, h1, h2⟩ := hp
      rw [if_neg (by omega), show i + 1 - 1 = i by omega, vecAt_ok h1, h2]
      rfl
  obtain ⟨-, -, -, nb, nd⟩ := hP.sizes
  obtain ⟨z, ez, hz⟩ := evaluate_ok (Ts := offset) hT (x := y) (v := ⟨2, fun j => c.base_controls.e (0 + j)⟩)
    (j := ⟨2, fun j => c.body_controls.e (0 + j)⟩) ny rfl rfl
  unfold Mpc.modelStateAt
  simp only
  rw [vecAt_ok hi, ok_bind, e2, ok_bind, e1, ok_bind, segment_ok (by omega), ok_bind, segment_ok (by omega), ok_bind,
    segment_ok (by omega), ok_bind, segment_ok (by omega), ok_bind]
  unfold Model.getNextStateFrom
  rw [ez, ok_bind]
  refine ⟨_, rfl, ?_, rfl, rfl, ?_⟩
  · refine PepperStep.congr hz ?_ rfl rfl ?_ ?_ ?_
    · cases i with
      | zero => rw [hX.1]; rfl
      | succ k =>
        have hk : c.intervals[k]? = some c.intervals[k] := List.getElem?_eq_getElem (by omega)
        exact (hX.2 k _ hk).2.2.1
    · intro j hj
      rw [ey j hj]
    · intro j hj
      have hj' : j = 0 ∨ j = 1 ∨ j = 2 ∨ j = 3 := by omega
      rcases hj' with rfl | rfl | rfl | rfl
      · exact (hP.base 0 (by omega)).symm
      · exact (hP.base 1 (by omega)).symm
      · exact (hP.body 0 (by omega)).symm
      · exact (hP.body 1 (by omega)).symm
    · intro j hj
      interval_cases j <;> rfl
  · funext j
    fin_cases j <;> rfl

/-- A different control gives a different state. -/
theorem step_control_unique {T Ts : K} (hT : T ≠ 0) (hTs : Ts ≠ 0) {x u u' y : Vec K} (h : PepperStep T Ts x u y)
    (h' : PepperStep T Ts x u' y) : ∀ k < 4, u.e k = u'.e k := by
  intro k hk
  have h1 := (PepperStep.eq hT h hk).2.2
  have h2 := (PepperStep.eq hT h' hk).2.2
  rw [h1] at h2
  unfold accelerationAt at h2
  have h3 : stepJerk T x u k = stepJerk T x u' k := by
    have h4 : (stepJerk T x u k - stepJerk T x u' k) * Ts = 0 := by linear_combination h2
    rcases mul_eq_zero.mp h4 with h5 | h5
    · exact sub_eq_zero.mp h5
    · exact absurd h5 hTs
  unfold stepJerk at h3
  by_cases hk2 : k < 2
  · rw [if_pos hk2, if_pos hk2] at h3
    have hne : (2 / (T * T) : K) ≠ 0 := div_ne_zero two_ne_zero (mul_ne_zero hT hT)
    have := mul_left_cancel₀ hne h3
    linear_combination this
  · rw [if_neg hk2, if_neg hk2] at h3
    exact h3

/-- **C59**, part: the state queried at a time within the first interval, or within an interval whose controls are equal to those of
the first one, is the predicted state. Missing: intervals with other controls, for which it is wrong, see `C59_refuted`. -/
theorem C59_state_partial {c : Mpc K} {model : Model K} {x : ℕ → K} {X : ℕ → Vec K} (hpar : c.solution_is_parsed = true)
    (hP : Profiles c.intervals x X c) (hX : Simulates c.intervals model.getMPCState x X)
    (hl : c.parameters.preview_horizon_length = c.intervals.length) {ms i rest : ℕ}
    (hc : Contains (c.intervals.map fun iv => iv.T_ms) ms i rest) {iv : Interval K} (hi : c.intervals[i]? = some iv)
    (hT : iv.T ≠ 0) {prev : K} (hp : StartsWith model c.intervals i prev)
    (hu : controlAt c.intervals.length x i = controlAt c.intervals.length x 0) :
    ∃ s, c.getModelStateMs model ms = .ok s ∧
      StateWithin iv prev (rest / 1000) (X i) (controlAt c.intervals.length x i) s := by
  obtain ⟨s, e, hs⟩ := modelStateAt_ok hP hX hl hi hT hp ((rest : K) / 1000)
  refine ⟨s, ?_, by rw [hu]; exact hs⟩
  unfold Mpc.getModelStateMs
  rw [assertThat_true hpar, ok_bind, ((C58_milliseconds c.intervals ms).1 i rest).mpr hc, ok_bind]
  exact e

/-- **C59** is violated whenever the controls of an interval are different from those of the first one: the state within this
interval is not the predicted one. -/
theorem C59_wrong_state {c : Mpc K} {model : Model K} {x : ℕ → K} {X : ℕ → Vec K} (hpar : c.solution_is_parsed = true)
    (hP : Profiles c.intervals x X c) (hX : Simulates c.intervals model.getMPCState x X)
    (hl : c.parameters.preview_horizon_length = c.intervals.length) {ms i rest : ℕ}
    (hc : Contains (c.intervals.map fun iv => iv.T_ms) ms i rest) {iv : Interval K} (hi : c.intervals[i]? = some iv)
    (hT : iv.T ≠ 0) {prev : K} (hp : StartsWith model c.intervals i prev) (hr : rest ≠ 0) {k : ℕ} (hk : k < 4)
    (hu : (controlAt c.intervals.length x i).e k ≠ (controlAt c.intervals.length x 0).e k) :
    ∃ s, c.getModelStateMs model ms = .ok s ∧
      ¬ StateWithin iv prev (rest / 1000) (X i) (controlAt c.intervals.length x i) s := by
  obtain ⟨s, e, hs⟩ := modelStateAt_ok hP hX hl hi hT hp ((rest : K) / 1000)
  refine ⟨s, ?_, ?_⟩
  · unfold Mpc.getModelStateMs
    rw [assertThat_true hpar, ok_bind, ((C58_milliseconds c.intervals ms).1 i rest).mpr hc, ok_bind]
    exact e
  · intro h
    have hr' : ((rest : K) / 1000) ≠ 0 := div_ne_zero (by exact_mod_cast hr) (by norm_num)
    exact hu (step_control_unique hT hr' h.motion hs.motion k hk)

/-- **C59**, the same for time in seconds. -/
theorem C59_seconds_partial {c : Mpc K} {model : Model K} {x : ℕ → K} {X : ℕ → Vec K} (hpar : c.solution_is_parsed = true)
    (hP : Profiles c.intervals x X c) (hX : Simulates c.intervals model.getMPCState x X)
    (hl : c.parameters.preview_horizon_length = c.intervals.length) (hd : ∀ iv ∈ c.intervals, 0 < iv.T) {t rest : K} (ht : 0 ≤ t)
    {i : ℕ} (hc : Contains (c.intervals.map fun iv => iv.T) t i rest) {iv : Interval K} (hi : c.intervals[i]? = some iv)
    {prev : K} (hp : StartsWith model c.intervals i prev) :
    ∃ s, c.getModelState model t = .ok s ∧
      (controlAt c.intervals.length x i = controlAt c.intervals.length x 0 →
        StateWithin iv prev rest (X i) (controlAt c.intervals.length x i) s) ∧
      (rest ≠ 0 → (∃ k < 4, (controlAt c.intervals.length x i).e k ≠ (controlAt c.intervals.length x 0).e k) →
        ¬ StateWithin iv prev rest (X i) (controlAt c.intervals.length x i) s) := by
  have hT : iv.T ≠ 0 := (hd iv (List.mem_of_getElem? hi)).ne'
  obtain ⟨s, e, hs⟩ := modelStateAt_ok hP hX hl hi hT hp rest
  refine ⟨s, ?_, fun hu => by rw [hu]; exact hs, ?_⟩
  · unfold Mpc.getModelState
    rw [assertThat_true hpar, ok_bind,
      ((C58_seconds_partial c.intervals t (fun iv h => (hd iv h).le) ht).1 i rest).mpr hc, ok_bind]
    exact e
  · rintro hr ⟨k, hk, hu⟩ h
    exact hu (step_control_unique hT hr h.motion hs.motion k hk)

/-- A solution for two intervals: the base accelerates. -/
def exampleSolution : Solution ℚ := ⟨solutionStructure 2, [1, 0, 2, 0, 0, 0, 0, 0], .ok⟩

theorem exampleSolution_for : SolutionFor 2 exampleSolution := ⟨rfl, rfl⟩

/-- A problem with two intervals of 100 ms is updated and a solution is parsed. -/
theorem example_parsed (junk : ℕ → ℕ → ℕ → ℕ → ℚ) (tr : Trig ℚ) (dflt : Interval ℚ) :
    ∃ c1 c2 X, (Mpc.make ⟨2, 100, 100⟩ : Mpc ℚ).updateQueue junk tr dflt exampleQueue exampleModel = .ok (c1, .ok) ∧
      c1.parseSolution exampleSolution = .ok c2 ∧ HorizonFor tr ⟨2, 100, 100⟩ exampleModel exampleQueue c2.intervals ∧
      Simulates c2.intervals exampleModel.getMPCState (entries exampleSolution) X ∧
      Profiles c2.intervals (entries exampleSolution) X c2 ∧ c2.solution_is_parsed = true ∧
      c2.parameters = ⟨2, 100, 100⟩ := by
  obtain ⟨c1, st, h1, h2, h3, -, h5⟩ := C71_queue junk tr dflt exampleQueue_proper exampleModel
    (c := Mpc.make ⟨2, 100, 100⟩) (show 0 < 100 by norm_num) (show 100 < 2 ^ 63 by norm_num) (show 0 < 2 by norm_num)
    (Or.inl (sizedFor_make _))
  have hst : st = .ok := h2.mpr (Or.inl ⟨⟨0, ![3, 4], 0, -1, .maintainPosition⟩, by simp [exampleQueue], rfl⟩)
  subst hst
  obtain ⟨hH, hc⟩ := h5 rfl
  have hl : c1.intervals.length = 2 := hH.1
  have hs : SolutionFor c1.intervals.length exampleSolution := by rw [hl]; exact exampleSolution_for
  have hX := simulation_simulates (horizon_times hH (show 0 < 100 by norm_num)) (x0 := exampleModel.getMPCState) rfl
    (entries exampleSolution)
  obtain ⟨c2, e, hP, i1, i2, -, i4⟩ := C71_profiles hc hs hX
  refine ⟨c1, c2, simulation c1.intervals exampleModel.getMPCState (entries exampleSolution), h1, e, ?_, ?_, ?_, i4, i2.trans h3⟩
  · rw [i1]; exact hH
  · rw [i1]; exact hX
  · rw [i1]; exact hP

/-- **C59** is violated: in the middle of the second interval the state is not the predicted one. -/
theorem C59_refuted (junk : ℕ → ℕ → ℕ → ℕ → ℚ) (tr : Trig ℚ) (dflt : Interval ℚ) :
    ∃ c1 c2 X iv prev s, (Mpc.make ⟨2, 100, 100⟩ : Mpc ℚ).updateQueue junk tr dflt exampleQueue exampleModel = .ok (c1, .ok) ∧
      c1.parseSolution exampleSolution = .ok c2 ∧
      Simulates c2.intervals exampleModel.getMPCState (entries exampleSolution) X ∧
      Contains (c2.intervals.map fun iv => iv.T_ms) 150 1 50 ∧ c2.intervals[1]? = some iv ∧
      StartsWith exampleModel c2.intervals 1 prev ∧ c2.getModelStateMs exampleModel 150 = .ok s ∧
      ¬ StateWithin iv prev (50 / 1000) (X 1) (controlAt 2 (entries exampleSolution) 1) s := by
  obtain ⟨c1, c2, X, h1, h2, hH, hX, hP, hpar, hprm⟩ := example_parsed junk tr dflt
  have hl : c2.intervals.length = 2 := hH.1
  obtain ⟨a, b, hab⟩ := List.length_eq_two.mp hl
  have ha : c2.intervals[0]? = some a := by rw [hab]; rfl
  have hb : c2.intervals[1]? = some b := by rw [hab]; rfl
  obtain ⟨_, _, _, _, ga⟩ := hH.2 0 a ha
  obtain ⟨_, _, _, _, gb⟩ := hH.2 1 b hb
  have hC : Contains (c2.intervals.map fun iv => iv.T_ms) 150 1 50 := by
    rw [← (C58_milliseconds c2.intervals 150).1 1 50, hab]
    simp [intervalByOffsetMs, ga.duration_ms, gb.duration_ms]
  have hT : b.T ≠ 0 := horizon_times hH (show 0 < 100 by norm_num) b (List.mem_of_getElem? hb)
  have hp : StartsWith exampleModel c2.intervals 1 a.theta := ⟨a, ha, rfl⟩
  obtain ⟨s, e, hs⟩ := C59_wrong_state hpar hP hX (by rw [hprm, hl]) hC hb hT hp (by norm_num) (k := 0) (by norm_num)
    (by rw [hl]; show (2 : ℚ) ≠ 1; norm_num)
  rw [hl] at hs
  exact ⟨c1, c2, X, b, a.theta, s, h1, h2, hX, hC, hb, hp, e, by exact_mod_cast hs⟩

/-- The partial theorem applies in the first interval. -/
example (junk : ℕ → ℕ → ℕ → ℕ → ℚ) (tr : Trig ℚ) (dflt : Interval ℚ) :
    ∃ (c : Mpc ℚ) (X : ℕ → Vec ℚ) (iv : Interval ℚ) (s : ModelState ℚ), c.getModelStateMs exampleModel 50 = .ok s ∧
      StateWithin iv 0 (50 / 1000) (X 0) (controlAt 2 (entries exampleSolution) 0) s := by
  obtain ⟨c1, c2, X, h1, h2, hH, hX, hP, hpar, hprm⟩ := example_parsed junk tr dflt
  have hl : c2.intervals.length = 2 := hH.1
  obtain ⟨a, b, hab⟩ := List.length_eq_two.mp hl
  have ha : c2.intervals[0]? = some a := by rw [hab]; rfl
  obtain ⟨_, _, _, _, ga⟩ := hH.2 0 a ha
  have hC : Contains (c2.intervals.map fun iv => iv.T_ms) 50 0 50 := by
    rw [← (C58_milliseconds c2.intervals 50).1 0 50, hab]
    simp [intervalByOffsetMs, ga.duration_ms]
  have hT : a.T ≠ 0 := horizon_times hH (show 0 < 100 by norm_num) a (List.mem_of_getElem? ha)
  obtain ⟨s, e, hs⟩ := C59_state_partial (prev := 0) hpar hP hX (by rw [hprm, hl]) hC ha hT rfl rfl
  rw [hl] at hs
  exact ⟨c2, X, a, s, e, by exact_mod_cast hs⟩

/-! ## C54 -/

/-- Calls which change the problem. Calls of `updateAndShift` change it in the same way as those of `update`. -/
inductive Call (K : Type)
  | update (m : MotionParameters K) (model : Model K)
  | updateQueue (q : List (MotionParameters K)) (model : Model K)
  | parse (sol : Solution K)
  | setParameters (p : MPCParameters)

/-- What they are for the protocol. -/
def Call.kind : Call K → CallKind
  | .update _ _ => .update
  | .updateQueue _ _ => .update
  | .parse _ => .parse
  | .setParameters _ => .other

/-- Effect of a call. -/
def Call.perform (junk : ℕ → ℕ → ℕ → ℕ → K) (tr : Trig K) (dflt : Interval K) (c : Mpc K) : Call K → Res (Mpc K)
  | .update m model => do
    let r ← c.update junk tr dflt m model
    pure r.1
  | .updateQueue q model => do
    let r ← c.updateQueue junk tr dflt q model
    pure r.1
  | .parse sol => c.parseSolution sol
  | .setParameters p => pure (c.setParameters p)

/-- Effect of calls which do not fail. -/
inductive History (junk : ℕ → ℕ → ℕ → ℕ → K) (tr : Trig K) (dflt : Interval K) (p : MPCParameters) : List (Call K) → Mpc K → Prop
  | start : History junk tr dflt p [] (Mpc.make p)
  | call {calls : List (Call K)} {c c' : Mpc K} (h : History junk tr dflt p calls c) (a : Call K)
      (e : a.perform junk tr dflt c = .ok c') : History junk tr dflt p (calls ++ [a]) c'

theorem updateWith_flag {junk : ℕ → ℕ → ℕ → ℕ → K} {form : List (Interval K) → Res (Bool × List (Interval K))} {model : Model K}
    {c c' : Mpc K} {st : Status} (h : c.updateWith junk form model = .ok (c', st)) :
    c'.solution_is_parsed = false ∧ c'.parameters = c.parameters := by
  unfold Mpc.updateWith at h
  simp only at h
  rcases hf : form c.intervals with _ | ⟨b, ivs⟩
  · rw [hf] at h; cases h
  · rw [hf, ok_bind] at h
    cases b with
    | false =>
      cases h
      exact ⟨rfl, rfl⟩
    | true =>
      simp only [if_true] at h
      rcases hm : updateMatrices junk c.parameters.preview_horizon_length ivs c.matrices.S model with _ | m
      · rw [hm] at h; cases h
      · rw [hm, ok_bind] at h
        cases h
        exact ⟨rfl, rfl⟩

theorem parseSolution_flag {c c' : Mpc K} {sol : Solution K} (h : c.parseSolution sol = .ok c') :
    c'.solution_is_parsed = true ∧ c'.parameters = c.parameters ∧ c'.matrices = c.matrices := by
  unfold Mpc.parseSolution at h
  simp only at h
  rcases e1 : Mpc.mulAdd c.matrices.S (Vec.ofList sol.x) c.matrices.s with _ | y1
  · rw [e1] at h; cases h
  rw [e1, ok_bind] at h
  rcases e2 : Mpc.mulAdd c.matrices.Ap (Vec.ofList sol.x) c.matrices.sp with _ | y2
  · rw [e2] at h; cases h
  rw [e2, ok_bind] at h
  rcases e3 : Kron.segment (Vec.ofList sol.x) 0 (c.matrices.solution.nvars / 2) with _ | y3
  · rw [e3] at h; cases h
  rw [e3, ok_bind] at h
  rcases e4 : Mpc.mulAdd c.matrices.Ajs y3 c.matrices.sjs with _ | y4
  · rw [e4] at h; cases h
  rw [e4, ok_bind] at h
  rcases e5 : sol.getPart baseVelId with _ | y5
  · rw [e5] at h; cases h
  rw [e5, ok_bind] at h
  rcases e6 : sol.getPart bodyJerkId with _ | y6
  · rw [e6] at h; cases h
  rw [e6, ok_bind] at h
  cases h
  exact ⟨rfl, rfl, rfl⟩

theorem parsedAfter_snoc (calls : List CallKind) (a : CallKind) :
    ParsedAfter (calls ++ [a]) ↔ a = .parse ∨ (a = .other ∧ ParsedAfter calls) := by
  constructor
  · rintro ⟨before, after, h1, h2⟩
    rcases List.eq_nil_or_concat after with rfl | ⟨after', b, rfl⟩
    · have := List.append_inj_right' h1 rfl
      left
      injection this
    · rw [List.concat_eq_append] at h1 h2
      rw [show before ++ CallKind.parse :: (after' ++ [b]) = (before ++ .parse :: after') ++ [b] by simp] at h1
      have e1 := List.append_inj_left' h1 rfl
      have e2 := List.append_inj_right' h1 rfl
      injection e2 with e2
      subst e2
      have hb : a ≠ .update := fun h => h2 (by simp [h])
      have ha : .update ∉ after' := fun h => h2 (by simp [h])
      cases a with
      | update => exact absurd rfl hb
      | parse => exact Or.inl rfl
      | other => exact Or.inr ⟨rfl, before, after', e1, ha⟩
  · rintro (rfl | ⟨rfl, before, after, h1, h2⟩)
    · exact ⟨calls, [], rfl, by simp⟩
    · exact ⟨before, after ++ [.other], by rw [h1]; simp, by simp [h2]⟩

theorem history_flag {junk : ℕ → ℕ → ℕ → ℕ → K} {tr : Trig K} {dflt : Interval K} {p : MPCParameters} {calls : List (Call K)}
    {c : Mpc K} (h : History junk tr dflt p calls c) : c.solution_is_parsed = true ↔ ParsedAfter (calls.map Call.kind) := by
  induction h with
  | start =>
    constructor
    · intro h; cases h
    · rintro ⟨before, after, h, -⟩
      simp at h
  | @call calls c c' h a e ih =>
    rw [List.map_append, List.map_singleton, parsedAfter_snoc]
    cases a with
    | update m model =>
      simp only [Call.perform] at e
      rcases hu : c.update junk tr dflt m model with _ | ⟨c1, st⟩
      · rw [hu] at e; cases e
      · rw [hu, ok_bind] at e
        cases e
        rw [(updateWith_flag hu).1]
        simp [Call.kind]
    | updateQueue q model =>
      simp only [Call.perform] at e
      rcases hu : c.updateQueue junk tr dflt q model with _ | ⟨c1, st⟩
      · rw [hu] at e; cases e
      · rw [hu, ok_bind] at e
        cases e
        rw [(updateWith_flag hu).1]
        simp [Call.kind]
    | parse sol =>
      rw [(parseSolution_flag e).1]
      simp [Call.kind]
    | setParameters p =>
      unfold Call.perform at e
      cases e
      simp only [Call.kind, reduceCtorEq, false_or, true_and]
      exact ih

/-- **C54**, Pepper. After any history: if no solution has been parsed since the last update then all queries throw; otherwise the
query which parses a solution itself throws. -/
theorem C54_pepper {junk : ℕ → ℕ → ℕ → ℕ → K} {tr : Trig K} {dflt : Interval K} {p : MPCParameters} {calls : List (Call K)}
    {c : Mpc K} (h : History junk tr dflt p calls c) :
    (¬ ParsedAfter (calls.map Call.kind) → ∀ model, c.getNextModelState model = .error .thrown ∧
      (∀ ms, c.getModelStateMs model ms = .error .thrown) ∧ ∀ t, c.getModelState model t = .error .thrown) ∧
    (ParsedAfter (calls.map Call.kind) → ∀ sol model, c.parseAndGetNextModelState sol model = .error .thrown) := by
  rw [← history_flag h]
  constructor
  · intro hf model
    refine ⟨?_, fun ms => ?_, fun t => ?_⟩
    · unfold Mpc.getNextModelState
      rw [assertThat_false hf]
      rfl
    · unfold Mpc.getModelStateMs
      rw [assertThat_false hf]
      rfl
    · unfold Mpc.getModelState
      rw [assertThat_false hf]
      rfl
  · intro hf sol model
    unfold Mpc.parseAndGetNextModelState
    rw [assertThat_false (by rw [hf]; simp)]
    rfl

/-- **C54**, Pepper. After an update a solution of the problem can be parsed, and then the next state can be queried: it is the state
at the end of the first interval, which has the commanded velocity. Both ways to parse and query agree. -/
theorem C54_pepper_next {c : Mpc K} {model : Model K} (hpar : c.solution_is_parsed = false)
    (hc : Consistent c model.getMPCState) {sol : Solution K} (hs : SolutionFor c.intervals.length sol) {iv : Interval K}
    (hi : c.intervals[0]? = some iv) (hT : ∀ iv ∈ c.intervals, iv.T ≠ 0) :
    ∃ c' s, c.parseSolution sol = .ok c' ∧ c'.getNextModelState model = .ok s ∧
      c.parseAndGetNextModelState sol model = .ok (c', s) ∧
      NextState model.state s iv.T iv.T (fun i => entries sol i) (fun i => entries sol (2 * c.intervals.length + i))
        iv.base_height iv.body_height iv.theta := by
  have hX := simulation_simulates hT (x0 := model.getMPCState) rfl (entries sol)
  obtain ⟨c', e, hP, i1, i2, -, i4⟩ := C71_profiles hc hs hX
  have hN : 0 < c.intervals.length := (List.getElem?_eq_some_iff.mp hi).1
  obtain ⟨-, -, -, nb, nd⟩ := hP.sizes
  obtain ⟨s, es, hs⟩ := C68_nextState model .default (T := iv.T) (Ts := iv.T) (hT iv (List.mem_of_getElem? hi))
    ⟨2, fun j => c'.base_controls.e (0 + j)⟩ ⟨2, fun j => c'.body_controls.e (0 + j)⟩ rfl rfl iv.base_height iv.body_height
    iv.theta
  have e2 : c'.initializeNextModelState model = .ok s := by
    unfold Mpc.initializeNextModelState
    rw [i1, vecAt_ok hi, ok_bind, segment_ok (by omega), ok_bind, segment_ok (by omega), ok_bind]
    exact es
  refine ⟨c', s, e, ?_, ?_, ?_⟩
  · unfold Mpc.getNextModelState
    rw [assertThat_true i4, ok_bind]
    exact e2
  · unfold Mpc.parseAndGetNextModelState
    rw [assertThat_true hpar, ok_bind, e, ok_bind, e2]
    rfl
  · have h1 : (fun i : Fin 2 => c'.base_controls.e (0 + (i : ℕ))) = fun i : Fin 2 => entries sol i := by
      funext i
      rw [zero_add]
      exact hP.base i (by omega)
    have h2 : (fun i : Fin 2 => c'.body_controls.e (0 + (i : ℕ))) =
        fun i : Fin 2 => entries sol (2 * c.intervals.length + i) := by
      funext i
      rw [zero_add]
      exact hP.body i (by omega)
    rw [← h1, ← h2]
    exact hs

/-- Update, parse, query. -/
example (junk : ℕ → ℕ → ℕ → ℕ → ℚ) (tr : Trig ℚ) (dflt : Interval ℚ) : ∃ c,
    History junk tr dflt ⟨2, 100, 100⟩ [.updateQueue exampleQueue exampleModel, .parse exampleSolution] c := by
  obtain ⟨c1, c2, X, h1, h2, -⟩ := example_parsed junk tr dflt
  exact ⟨c2, .call (calls := [.updateQueue exampleQueue exampleModel])
    (.call .start (.updateQueue exampleQueue exampleModel) (by simp only [Call.perform]; rw [h1]; rfl)) (.parse exampleSolution) h2⟩

/-! ## C72, histories -/

/-- Meaningful calls for a horizon with `N` intervals: durations of motions are representable, and parameters do not change the
number of intervals. -/
def Call.Proper (N : ℕ) : Call K → Prop
  | .update m _ => ProperMotion m
  | .updateQueue q _ => ∀ m ∈ q, ProperMotion m
  | .parse _ => True
  | .setParameters p => p.preview_horizon_length = N ∧ 0 < p.sampling_time_ms ∧ N * p.sampling_time_ms < 2 ^ 63

theorem history_sized {junk : ℕ → ℕ → ℕ → ℕ → K} {tr : Trig K} {dflt : Interval K} {p : MPCParameters} {calls : List (Call K)}
    {c : Mpc K} (h : History junk tr dflt p calls c) {N : ℕ} (hN : 0 < N) (hp : Call.Proper (K := K) N (.setParameters p))
    (hcalls : ∀ a ∈ calls, Call.Proper N a) :
    (SizedFor c 0 ∨ SizedFor c N) ∧ Call.Proper (K := K) N (.setParameters c.parameters) := by
  induction h with
  | start => exact ⟨Or.inl (sizedFor_make p), hp⟩
  | @call calls c c' h a e ih =>
    obtain ⟨hs, h1, h2, h3⟩ := ih (fun a ha => hcalls a (by simp [ha]))
    have ha := hcalls a (by simp)
    cases a with
    | update m model =>
      obtain ⟨c1, st, g1, -, g3, g4, -⟩ := C71_update junk tr dflt (m := m) ha model (c := c) h2 (by omega) (by rw [h1]; exact h3)
        (by rw [h1]; exact hs)
      simp only [Call.perform] at e
      rw [g1, ok_bind] at e
      cases e
      exact ⟨by rw [h1] at g4; exact g4, by rw [g3]; exact ⟨h1, h2, h3⟩⟩
    | updateQueue q model =>
      have hT' : c.parameters.sampling_time_ms < 2 ^ 63 := lt_of_le_of_lt (Nat.le_mul_of_pos_left _ hN) h3
      obtain ⟨c1, st, g1, -, g3, g4, -⟩ := C71_queue junk tr dflt (q := q) ha model (c := c) h2 hT' (by omega)
        (by rw [h1]; exact hs)
      simp only [Call.perform] at e
      rw [g1, ok_bind] at e
      cases e
      exact ⟨by rw [h1] at g4; exact g4, by rw [g3]; exact ⟨h1, h2, h3⟩⟩
    | parse sol =>
      obtain ⟨-, g1, g2⟩ := parseSolution_flag e
      refine ⟨?_, by rw [g1]; exact ⟨h1, h2, h3⟩⟩
      unfold SizedFor
      rw [g2]
      exact hs
    | setParameters p =>
      cases e
      exact ⟨hs, ha⟩

/-- **C72**, part: after any history in which the number of intervals does not change, a further update does not fail: it is refused
exactly when motions are too short, and otherwise the matrices are those of the new horizon and the new state. What is missing is
a change of the number of intervals, see `C72_refuted`. -/
theorem C72_history_partial {junk : ℕ → ℕ → ℕ → ℕ → K} {tr : Trig K} {dflt : Interval K} {p : MPCParameters}
    {calls : List (Call K)} {c : Mpc K} (h : History junk tr dflt p calls c) {N : ℕ} (hN : 0 < N)
    (hp : Call.Proper (K := K) N (.setParameters p)) (hcalls : ∀ a ∈ calls, Call.Proper N a) {q : List (MotionParameters K)}
    (hq : ∀ m ∈ q, ProperMotion m) (model : Model K) :
    ∃ c' st, c.updateQueue junk tr dflt q model = .ok (c', st) ∧
      (st = .ok ↔ LastsUntil q (N * c.parameters.sampling_time_ms)) ∧
      (st = .ok → HorizonFor tr c.parameters model q c'.intervals ∧ Consistent c' model.getMPCState) := by
  obtain ⟨hs, h1, h2, h3⟩ := history_sized h hN hp hcalls
  have hT' : c.parameters.sampling_time_ms < 2 ^ 63 := lt_of_le_of_lt (Nat.le_mul_of_pos_left _ hN) h3
  obtain ⟨c1, st, g1, g2, -, -, g5⟩ := C71_queue junk tr dflt hq model (c := c) h2 hT' (by omega) (by rw [h1]; exact hs)
  rw [h1] at g2
  exact ⟨c1, st, g1, g2, g5⟩

/-- The history of the preceding example is such a history. -/
example : Call.Proper (K := ℚ) 2 (.setParameters ⟨2, 100, 100⟩) ∧
    ∀ a ∈ ([.updateQueue exampleQueue exampleModel, .parse exampleSolution] : List (Call ℚ)), Call.Proper 2 a := by
  refine ⟨⟨rfl, by norm_num, by norm_num⟩, ?_⟩
  intro a ha
  simp only [List.mem_cons, List.not_mem_nil, or_false] at ha
  rcases ha with rfl | rfl
  · exact exampleQueue_proper
  · trivial

/-- **C72** is violated: after an update with two intervals the number of intervals is changed to three, and the next update throws
although the motions last long enough. -/
theorem C72_refuted (junk : ℕ → ℕ → ℕ → ℕ → ℚ) (tr : Trig ℚ) (dflt : Interval ℚ) : ∃ c,
    History junk tr dflt ⟨2, 100, 100⟩ [.updateQueue exampleQueue exampleModel, .setParameters ⟨3, 100, 100⟩] c ∧
    LastsUntil exampleQueue (3 * 100) ∧
    c.updateQueue junk tr dflt exampleQueue exampleModel = .error .thrown := by
  obtain ⟨c1, c2, X, h1, -⟩ := example_parsed junk tr dflt
  have hl : LastsUntil exampleQueue (3 * 100) := Or.inl ⟨⟨0, ![3, 4], 0, -1, .maintainPosition⟩, by simp [exampleQueue], rfl⟩
  obtain ⟨c1', st, g1, -, g3, -, g5⟩ := C71_queue junk tr dflt exampleQueue_proper exampleModel
    (c := Mpc.make ⟨2, 100, 100⟩) (show 0 < 100 by norm_num) (show 100 < 2 ^ 63 by norm_num) (show 0 < 2 by norm_num)
    (Or.inl (sizedFor_make _))
  rw [h1] at g1
  cases g1
  obtain ⟨hH, -, hM⟩ := g5 rfl
  have h2 : c1.intervals.length = 2 := hH.1
  have hsz : SizedFor (c1.setParameters ⟨3, 100, 100⟩) 2 := ⟨by rw [← h2]; exact hM.rowsS, by rw [← h2]; exact hM.colsS⟩
  obtain ⟨b, ivs, f1, f2, f3⟩ := C57_queue tr dflt c1.intervals ⟨3, 100, 100⟩ exampleModel exampleQueue_proper
    (show 0 < 100 by norm_num) (show 100 < 2 ^ 63 by norm_num) (show 0 < 3 by norm_num)
  have hb : b = true := f2.mpr (by exact_mod_cast hl)
  subst hb
  have hH3 := f3 rfl
  have h3 : ivs.length = 3 := hH3.1
  refine ⟨c1.setParameters ⟨3, 100, 100⟩, ?_, hl, ?_⟩
  · exact .call (calls := [.updateQueue exampleQueue exampleModel])
      (.call .start (.updateQueue exampleQueue exampleModel) (by simp only [Call.perform]; rw [h1]; rfl))
      (.setParameters ⟨3, 100, 100⟩) rfl
  · exact (C72_criterion junk (c := c1.setParameters ⟨3, 100, 100⟩) hsz
      (form := fun old => formQueue tr dflt old ⟨3, 100, 100⟩ exampleModel exampleQueue) f1 (by omega) h3
      (horizon_times hH3 (show 0 < 100 by norm_num))).2 (by rw [h3]; decide)

/-! ## C73 -/

/-- The guess `g` is the part of the solution `old` from the second interval on, followed by zeros; both of them have `n` entries, two
for each interval. -/
def Shifted (old g : ℕ → K) (n : ℕ) : Prop := ∀ i < n, g i = if i + 2 < n then old (i + 2) else 0

theorem guessPart_ok {g old : Solution K} {id : String} {off len : ℕ} (hl : 2 ≤ len)
    (h1 : old.structure_.location id = ⟨off, len⟩) (h2 : g.structure_.location id = ⟨off, len⟩)
    (h3 : off + len ≤ old.x.length) (h4 : off + len ≤ g.x.length) :
    ∃ g', guessPart g old id = .ok g' ∧ g'.structure_ = g.structure_ ∧ g'.status = g.status ∧ g'.x.length = g.x.length ∧
      ∀ i, entries g' i = if off ≤ i ∧ i + 2 < off + len then entries old (i + 2) else entries g i := by
  have hm : minusTwo len = len - 2 := by unfold minusTwo; rw [if_pos hl]
  obtain ⟨v, e, nv, hv⟩ := getData_ok (sol := old) (off := off + 2) (len := len - 2) (by omega)
  have hfit : off + v.length ≤ g.x.length := by omega
  unfold guessPart
  simp only
  rw [h1, h2, hm, e, ok_bind, assertThat_true ((Location.checkLength_iff _ _).2 (by show off + (len - 2) ≤ _; omega)), ok_bind,
    require_true nv, ok_bind]
  unfold Solution.setData
  rw [assertThat_true ((Location.checkLength_iff _ _).2 (by show off + (len - 2) ≤ _; omega)), ok_bind]
  have ec := copyInto_ok (buf := g.x) (src := v) hfit
  rw [ec, ok_bind]
  refine ⟨_, rfl, rfl, rfl, copyInto_length ec, ?_⟩
  intro i
  have hg := copyInto_get ec i
  show List.getD _ i 0 = _
  rw [List.getD_eq_getElem?_getD, hg]
  by_cases h : off ≤ i ∧ i + 2 < off + len
  · rw [if_pos h, if_pos (by omega), ← List.getD_eq_getElem?_getD, hv _ (by omega)]
    show old.x.getD _ 0 = old.x.getD _ 0
    congr 1
    omega
  · rw [if_neg h, if_neg (by omega), ← List.getD_eq_getElem?_getD]
    rfl

/-- **C73.** The guess made from a solution for the same number of intervals. -/
theorem C73_guess {c : Mpc K} {N : ℕ} (hN : 0 < N) (hc : c.matrices.solution = solutionStructure N) (guess : Solution K)
    {old : Solution K} (ho : SolutionFor N old) :
    ∃ g, c.guessSolution guess old = .ok g ∧ SolutionFor N g ∧ Shifted (entries old) (entries g) (2 * N) ∧
      Shifted (fun i => entries old (2 * N + i)) (fun i => entries g (2 * N + i)) (2 * N) := by
  have hz : ∀ i, entries (guess.initializeValue (solutionStructure N) (0 : K)) i = 0 := by
    intro i
    show List.getD (List.replicate _ _) i 0 = 0
    simp [List.getD_eq_getElem?_getD, List.getElem?_replicate]
    split <;> rfl
  have hlen : (guess.initializeValue (solutionStructure N) (0 : K)).x.length = 4 * N := by
    show (List.replicate _ _).length = _
    rw [List.length_replicate, nvars_solutionStructure]
  obtain ⟨g1, e1, s1, -, l1, h1⟩ := guessPart_ok (g := guess.initializeValue (solutionStructure N) (0 : K)) (old := old)
    (id := baseVelId) (off := 0) (len := N * 2) (by omega) (by rw [ho.structure_]; rfl) rfl (by rw [ho.size]; omega)
    (by rw [hlen]; omega)
  obtain ⟨g2, e2, s2, -, l2, h2⟩ := guessPart_ok (g := g1) (old := old)
    (id := bodyJerkId) (off := 0 + N * 2) (len := N * 2) (by omega) (by rw [ho.structure_]; rfl) (by rw [s1]; rfl)
    (by rw [ho.size]; omega) (by rw [l1, hlen]; omega)
  refine ⟨g2, ?_, ⟨s2.trans s1, (l2.trans l1).trans hlen⟩, ?_, ?_⟩
  · unfold Mpc.guessSolution
    simp only
    rw [hc, if_pos, e1, ok_bind, e2]
    rw [ho.structure_, nvars_solutionStructure]
    exact ⟨rfl, by omega⟩
  · intro i hi
    rw [h2 i, if_neg (by omega), h1 i, hz]
    by_cases h : i + 2 < 2 * N
    · rw [if_pos h, if_pos (by omega)]
    · rw [if_neg h, if_neg (by omega)]
  · intro i hi
    show entries g2 _ = _
    rw [h2, h1, hz]
    by_cases h : i + 2 < 2 * N
    · rw [if_pos h, if_pos (by omega)]
      rfl
    · rw [if_neg h, if_neg (by omega), if_neg (by omega)]

/-- **C73.** Without an old solution the guess is zero. -/
theorem C73_first {c : Mpc K} {N : ℕ} (hc : c.matrices.solution = solutionStructure N) (guess : Solution K) {old : Solution K}
    (ho : old.structure_ = .empty) :
    ∃ g, c.guessSolution guess old = .ok g ∧ SolutionFor N g ∧ ∀ i, entries g i = 0 := by
  refine ⟨guess.initializeValue (solutionStructure N) 0, ?_, ⟨rfl, ?_⟩, ?_⟩
  · unfold Mpc.guessSolution
    simp only
    rw [hc, if_neg (by rw [ho]; simp [SolutionStructure.empty])]
    rfl
  · show (List.replicate _ _).length = _
    rw [List.length_replicate, nvars_solutionStructure]
  · intro i
    show List.getD (List.replicate _ _) i 0 = 0
    simp [List.getD_eq_getElem?_getD, List.getElem?_replicate]
    split <;> rfl

/-- **C73** needs the same number of intervals: otherwise vectors of different sizes are assigned, which is not checked. -/
theorem C73_lengths_refuted {c : Mpc K} {N M : ℕ} (hN : 0 < N) (hM : 0 < M) (hNM : N ≠ M)
    (hc : c.matrices.solution = solutionStructure N) (guess : Solution K) {old : Solution K} (ho : SolutionFor M old) :
    c.guessSolution guess old = .error .ub := by
  have hlen : (guess.initializeValue (solutionStructure N) (0 : K)).x.length = 4 * N := by
    show (List.replicate _ _).length = _
    rw [List.length_replicate, nvars_solutionStructure]
  have hm : ∀ n, 0 < n → minusTwo (n * 2) = n * 2 - 2 := by intro n hn; unfold minusTwo; rw [if_pos (by omega)]
  have h1 : (guess.initializeValue (solutionStructure N) (0 : K)).structure_.location baseVelId = ⟨0, N * 2⟩ := rfl
  obtain ⟨v, e, nv, -⟩ := getData_ok (sol := old) (off := 0 + 2) (len := M * 2 - 2) (by rw [ho.size]; omega)
  unfold Mpc.guessSolution
  simp only
  rw [hc, if_pos (by rw [ho.structure_, nvars_solutionStructure]; exact ⟨rfl, by omega⟩)]
  unfold guessPart
  simp only
  rw [h1, ho.structure_, location_base, hm M hM, hm N hN, e, ok_bind,
    assertThat_true ((Location.checkLength_iff _ _).2 (by show 0 + (N * 2 - 2) ≤ _; omega)), ok_bind,
    require_false (by omega)]
  rfl

/-- The first interval is dropped, the controls of the last one are zero. -/
example : ∃ g, (Mpc.guessSolution (K := ℚ) { Mpc.make ⟨2, 100, 100⟩ with
      matrices := { (Mpc.make (K := ℚ) ⟨2, 100, 100⟩).matrices with solution := solutionStructure 2 } }
    exampleSolution exampleSolution) = .ok g ∧ g.x = [2, 0, 0, 0, 0, 0, 0, 0] := ⟨_, rfl, rfl⟩

end Humoto.Pepper
