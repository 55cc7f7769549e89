import Verif.Lemmas.PepperModel
import Mathlib.Data.Rat.Defs
import Mathlib.Tactic.NormNum
import Mathlib.Tactic.Linarith
import Mathlib.Tactic.NormNum.OfScientific

/-!
# C60, C61, C68, C69, C70: model of Pepper
-/

namespace Humoto.Pepper

open Spec

set_option linter.unusedSectionVars false

/-! ## C61 -/

theorem squareInDisc (r : ℝ) : SquareInDisc r (boundsOf (getEncircledSquareSide r / 2)) := by
  have hs : Real.sqrt 2 ^ 2 = 2 := Real.sq_sqrt (by norm_num)
  have hp : 0 < Real.sqrt 2 := Real.sqrt_pos.mpr (by norm_num)
  have hb : (getEncircledSquareSide r / 2) ^ 2 = r ^ 2 / 2 := by
    unfold getEncircledSquareSide
    field_simp
    rw [hs]
  set b := getEncircledSquareSide r / 2 with hbd
  have h00 : boundsOf b 0 0 = -b := rfl
  have h01 : boundsOf b 0 1 = b := rfl
  have h10 : boundsOf b 1 0 = -b := rfl
  have h11 : boundsOf b 1 1 = b := rfl
  refine ⟨?_, ?_, by rw [h00, h01, h10, h11], ?_, ?_⟩
  · intro v hv
    have h0 := hv 0
    have h1 := hv 1
    rw [h00, h01] at h0
    rw [h10, h11] at h1
    have k0 : v 0 ^ 2 ≤ b ^ 2 := sq_le_sq' h0.1 h0.2
    have k1 : v 1 ^ 2 ≤ b ^ 2 := sq_le_sq' h1.1 h1.2
    linarith
  · intro v h0 h1
    rw [h00, h01] at h0
    rw [h10, h11] at h1
    have k0 : v 0 ^ 2 = b ^ 2 := by rcases h0 with h | h <;> rw [h] <;> ring
    have k1 : v 1 ^ 2 = b ^ 2 := by rcases h1 with h | h <;> rw [h] <;> ring
    rw [k0, k1, hb]
    ring
  · intro i
    fin_cases i <;> rfl
  · intro hr i
    have : 0 ≤ b := by
      rw [hbd]
      unfold getEncircledSquareSide
      positivity
    fin_cases i
    · show -b ≤ b
      linarith
    · show -b ≤ b
      linarith

/-- **C61.** All bounds which are computed from radii are squares in the respective discs, whose corners are on the border. The
bounds on the position of the body are not changed. -/
theorem C61_bounds (p : RobotParameters ℝ) :
    SquareInDisc p.base_radius p.finalize.cop_bounds ∧
    SquareInDisc p.max_nominal_base_velocity p.finalize.nominal_base_velocity_bounds ∧
    SquareInDisc p.max_nominal_base_acceleration p.finalize.nominal_base_acceleration_bounds ∧
    SquareInDisc p.max_base_velocity p.finalize.base_velocity_bounds ∧
    SquareInDisc p.max_base_acceleration p.finalize.base_acceleration_bounds ∧
    p.finalize.body_bounds = p.body_bounds :=
  ⟨squareInDisc _, squareInDisc _, squareInDisc _, squareInDisc _, squareInDisc _, rfl⟩

/-- The zero velocity is in the bounds of a robot with the maximal velocity 1, the maximal velocity along an axis is not. -/
example (p : RobotParameters ℝ) (h : p.max_base_velocity = 1) :
    WithinBounds p.finalize.base_velocity_bounds 0 ∧ ¬ WithinBounds p.finalize.base_velocity_bounds ![1, 1] := by
  obtain ⟨-, -, -, hs, -⟩ := C61_bounds p
  constructor
  · intro i
    have h1 := hs.centred i
    have h2 := hs.ordered (by rw [h]; norm_num) i
    show _ ≤ (0 : ℝ) ∧ (0 : ℝ) ≤ _
    constructor <;> linarith
  · intro hw
    have := hs.inside _ hw
    rw [h] at this
    norm_num at this

variable {K : Type} [Field K] [LinearOrder K] [IsStrictOrderedRing K]

/-! ## C60 -/

/-- **C60.** The centre of pressure, for both axes. -/
theorem C60_cop (junk : ℕ → K) (s : ModelState K) (hm : s.base_mass + s.body_mass ≠ 0) :
    ∃ y, Model.getCoP junk s = .ok y ∧ y.n = 2 ∧ y.e 0 = centreOfPressure s 0 ∧ y.e 1 = centreOfPressure s 1 := by
  obtain ⟨a, ha, han, hae⟩ := kron2_ok junk (D := getDps3 (s.base_state.position 2) s.base_mass s.body_mass) rfl rfl
    (x := Model.getMPCBaseState s) rfl
  obtain ⟨b, hb, hbn, hbe⟩ := kron2_ok junk (D := getDpd3 (s.body_state.position 2) s.base_mass s.body_mass) rfl rfl
    (x := Model.getMPCBodyState s) rfl
  unfold Model.getCoP
  rw [ha, ok_bind, hb, ok_bind]
  refine ⟨⟨2, fun i => a.e i + b.e i⟩, ?_, rfl, ?_, ?_⟩
  · unfold Vec.add
    rw [if_pos (by rw [han, hbn]), han]
  · show a.e 0 + b.e 0 = _
    rw [hae 0 (by omega), hbe 0 (by omega)]
    simp only [Model.getMPCBaseState, Model.getMPCBodyState, convertBaseStateRBtoMPC, convertBodyStateRBtoMPC, Vec.ofList,
      getDps3, getDpd3, Mat.ofRows, gravity, centreOfPressure, List.getD_cons_zero, List.getD_cons_succ, Nat.mul_zero,
      Nat.zero_add]
    field_simp
    ring
  · show a.e 1 + b.e 1 = _
    rw [hae 1 (by omega), hbe 1 (by omega)]
    simp only [Model.getMPCBaseState, Model.getMPCBodyState, convertBaseStateRBtoMPC, convertBodyStateRBtoMPC, Vec.ofList,
      getDps3, getDpd3, Mat.ofRows, gravity, centreOfPressure, List.getD_cons_zero, List.getD_cons_succ, Nat.mul_one,
      Nat.reduceAdd]
    field_simp
    ring

/-- Two masses at rest: the centre of pressure is below the centre of mass. -/
example : centreOfPressure (⟨⟨![1, 0, 1], 0, 0, 0, 0, 0⟩, ⟨![4, 0, 1], 0, 0⟩, 2, 1⟩ : ModelState ℚ) 0 = 1 := by
  norm_num [centreOfPressure]

example : ∃ y, Model.getCoP (fun _ => 77) (ModelState.default : ModelState ℚ) = .ok y ∧ y.n = 2 ∧
    y.e 0 = centreOfPressure ModelState.default 0 ∧ y.e 1 = centreOfPressure ModelState.default 1 :=
  C60_cop _ _ (by norm_num [ModelState.default, ModelState.setParameters, defaultBaseMass, defaultBodyMass])

/-! ## C68 -/

/-- **C68.** The next state of the model. -/
theorem C68_nextState (m : Model K) (out : ModelState K) {T Ts : K} (hT : T ≠ 0) (v j : Vec K) (hv : v.n = 2) (hj : j.n = 2)
    (base_height body_height theta : K) :
    ∃ s', m.getNextState out T Ts v j base_height body_height theta = .ok s' ∧
      NextState m.state s' T Ts (fun i => v.e i) (fun i => j.e i) base_height body_height theta := by
  obtain ⟨y, hy, -, -, -, h1, h2⟩ := evaluate_ok (Ts := Ts) hT (x := m.getMPCState) (v := v) (j := j) rfl hv hj
  unfold Model.getNextState Model.getNextStateFrom
  rw [hy, ok_bind]
  refine ⟨_, rfl, ?_, ?_, ⟨rfl, rfl, rfl⟩, ⟨rfl, rfl, rfl⟩, ?_, ⟨rfl, rfl⟩⟩
  · intro i
    fin_cases i
    · obtain ⟨jerk, g1, g2⟩ := h1 0 (by omega)
      refine ⟨jerk, ?_, g2⟩
      have : (append v j).e 0 = v.e 0 := by simp [append, hv]
      rw [this] at g1
      exact g1
    · obtain ⟨jerk, g1, g2⟩ := h1 1 (by omega)
      refine ⟨jerk, ?_, g2⟩
      have : (append v j).e 1 = v.e 1 := by simp [append, hv]
      rw [this] at g1
      exact g1
  · intro i
    fin_cases i
    · have g := h2 2 (by omega) (by omega)
      have : (append v j).e 2 = j.e 0 := by simp [append, hv]
      rw [this] at g
      exact g
    · have g := h2 3 (by omega) (by omega)
      have : (append v j).e 3 = j.e 1 := by simp [append, hv]
      rw [this] at g
      exact g
  · funext i
    fin_cases i <;> rfl

/-- **C68.** At the end of the sampling interval (`Ts = T`) the horizontal velocity of the base is the control. -/
theorem C68_commanded {s s' : ModelState K} {T : K} {v j : Fin 2 → K} {bh dh theta : K}
    (h : NextState s s' T T v j bh dh theta) (i : Fin 2) : s'.base_state.velocity i.castSucc = v i := by
  obtain ⟨jerk, h1, -, h2, -⟩ := h.base i
  exact h2.trans h1

/-- **C68.** With `Ts = 0` nothing moves. -/
theorem C68_start {s s' : ModelState K} {T : K} {v j : Fin 2 → K} {bh dh theta : K}
    (h : NextState s s' T 0 v j bh dh theta) (i : Fin 2) :
    s'.base_state.position i.castSucc = s.base_state.position i.castSucc ∧
    s'.base_state.velocity i.castSucc = s.base_state.velocity i.castSucc ∧
    s'.body_state.position i.castSucc = s.body_state.position i.castSucc ∧
    s'.body_state.acceleration i.castSucc = s.body_state.acceleration i.castSucc := by
  obtain ⟨jerk, -, h2, h3, -⟩ := h.base i
  obtain ⟨h4, -, h6⟩ := h.body i
  rw [h2, h3, h4, h6]
  unfold positionAt velocityAt accelerationAt
  refine ⟨by ring, by ring, by ring, by ring⟩

/-- **C68.** The state vector of the model and states of the robot: horizontal motion is recovered from the vector. -/
theorem C68_conversion (s : ModelState K) (i : Fin 2) :
    let c := convertStateRBtoMPC s.base_state s.body_state
    c.n = 12 ∧
    (convertBaseStateMPCtoRB c (s.base_state.position 2)).position = s.base_state.position ∧
    (convertBaseStateMPCtoRB c (s.base_state.position 2)).velocity i.castSucc = s.base_state.velocity i.castSucc ∧
    (convertBaseStateMPCtoRB c (s.base_state.position 2)).acceleration i.castSucc = s.base_state.acceleration i.castSucc ∧
    (convertBodyStateMPCtoRB c (s.body_state.position 2)).position = s.body_state.position ∧
    (convertBodyStateMPCtoRB c (s.body_state.position 2)).velocity i.castSucc = s.body_state.velocity i.castSucc ∧
    (convertBodyStateMPCtoRB c (s.body_state.position 2)).acceleration i.castSucc = s.body_state.acceleration i.castSucc := by
  refine ⟨rfl, ?_, ?_, ?_, ?_, ?_, ?_⟩
  · funext k; fin_cases k <;> rfl
  · fin_cases i <;> rfl
  · fin_cases i <;> rfl
  · funext k; fin_cases k <;> rfl
  · fin_cases i <;> rfl
  · fin_cases i <;> rfl

/-- A model at rest, accelerated along the first axis. -/
def exampleModel : Model ℚ where
  state := ModelState.setParameters 1 2 0 3 4
  robot_parameters := ⟨1, 1, 1, 1, 1, 0, 0, 0, 0, 0, 0⟩
  current_base_position := 0

/-- With the velocity 1 after 1 second, the base is at 1/3, and at 1/24 after half a second. -/
example : ∃ s', exampleModel.getNextState .default 1 (1 / 2) (Vec.ofList [1, 0]) (Vec.ofList [0, 6]) 1 2 0 = .ok s' ∧
    s'.base_state.position 0 = 1 / 24 ∧ s'.body_state.position 1 = 1 / 8 := by
  obtain ⟨s', h, hn⟩ := C68_nextState exampleModel .default (T := 1) (Ts := 1 / 2) (by norm_num) (Vec.ofList [1, 0])
    (Vec.ofList [0, 6]) rfl rfl 1 2 0
  refine ⟨s', h, ?_, ?_⟩
  · obtain ⟨j, h1, h2, -, -⟩ := hn.base 0
    have h1 : (0 : ℚ) + 0 * 1 + j * 1 ^ 2 / 2 = 1 := h1
    have h2 : s'.base_state.position 0 = 0 + 0 * (1 / 2) + 0 * (1 / 2) ^ 2 / 2 + j * (1 / 2) ^ 3 / 6 := h2
    rw [h2]
    linarith
  · have h2 : s'.body_state.position 1 = 0 + 0 * (1 / 2) + 0 * (1 / 2) ^ 2 / 2 + 6 * (1 / 2) ^ 3 / 6 := (hn.body 1).1
    rw [h2]
    norm_num

/-! ## C69 -/

/-- **C69** is violated: a state which is computed for a robot has the masses of the object which receives it. The controller
passes default constructed states (mpc_mg.h:52, 287), so that the result has the default masses whatever the masses of the
model are. -/
theorem C69_masses_refuted (m : Model K) {T Ts : K} (hT : T ≠ 0) (v j : Vec K) (hv : v.n = 2) (hj : j.n = 2)
    (base_height body_height theta : K) : ∃ s', m.getNextState .default T Ts v j base_height body_height theta = .ok s' ∧
      s'.base_mass = 1634234 / 100000 ∧ s'.body_mass = 123389 / 10000 := by
  obtain ⟨y, hy, -⟩ := evaluate_ok (Ts := Ts) hT (x := m.getMPCState) (v := v) (j := j) rfl hv hj
  unfold Model.getNextState Model.getNextStateFrom
  rw [hy, ok_bind]
  exact ⟨_, rfl, rfl, rfl⟩

/-- **C69**, part: what holds is that the masses of the receiving object are kept, e.g. if this is a copy of the state of the
model. Missing: the controller does not provide such an object. -/
theorem C69_masses_partial (m : Model K) (out : ModelState K) {T Ts : K} (v j : Vec K) (base_height body_height theta : K)
    {s' : ModelState K} (h : m.getNextState out T Ts v j base_height body_height theta = .ok s') :
    s'.base_mass = out.base_mass ∧ s'.body_mass = out.body_mass := by
  unfold Model.getNextState Model.getNextStateFrom at h
  rcases hy : evaluate T Ts m.getMPCState v j with e | y
  · rw [hy] at h; cases h
  · rw [hy, ok_bind] at h
    cases h
    exact ⟨rfl, rfl⟩

/-- The masses of this model are 3 and 4. -/
example : ∃ s', exampleModel.getNextState .default 1 1 (Vec.ofList [1, 0]) (Vec.ofList [0, 0]) 1 2 0 = .ok s' ∧
    s'.base_mass ≠ exampleModel.state.base_mass := by
  obtain ⟨s', h, h1, -⟩ := C69_masses_refuted exampleModel (T := 1) (Ts := 1) (by norm_num) (Vec.ofList [1, 0])
    (Vec.ofList [0, 0]) rfl rfl 1 2 0
  refine ⟨s', h, ?_⟩
  rw [h1]
  norm_num [exampleModel, ModelState.setParameters]

/-! ## C70 -/

/-- **C70** is violated: the constructor with heights swaps them. -/
theorem C70_heights_refuted : ∃ base_height body_height offset : ℚ,
    (ModelState.ofHeights base_height body_height offset).base_state.position 2 ≠ base_height ∧
    (ModelState.ofHeights base_height body_height offset).body_state.position 2 ≠ body_height :=
  ⟨1 / 10, 3 / 4, 0, by show (3 / 4 : ℚ) ≠ 1 / 10; norm_num, by show (1 / 10 : ℚ) ≠ 3 / 4; norm_num⟩

/-- **C70**, part: other functions which set or update a state store each parameter in its place, and leave the rest alone or
reset it. Missing: the constructor with heights. -/
theorem C70_setters_partial (s : ModelState K) (base_height body_height offset base_mass body_mass theta : K)
    (base_position body_position : Fin 3 → K) :
    (∀ r, r = ModelState.setParameters base_height body_height offset base_mass body_mass →
      r.base_state.position = ![0, 0, base_height] ∧ r.body_state.position = ![offset, 0, body_height] ∧
      r.base_mass = base_mass ∧ r.body_mass = body_mass ∧ r.base_state.velocity = 0 ∧ r.base_state.acceleration = 0 ∧
      r.body_state.velocity = 0 ∧ r.body_state.acceleration = 0 ∧ r.base_state.rpy = 0) ∧
    (∀ r, r = ModelState.set base_mass body_mass base_position body_position →
      r.base_state.position = base_position ∧ r.body_state.position = body_position ∧ r.base_mass = base_mass ∧
      r.body_mass = body_mass ∧ r.base_state.velocity = 0 ∧ r.body_state.velocity = 0 ∧ r.base_state.rpy = 0) ∧
    (∀ r, r = s.update base_mass body_mass base_position body_position theta →
      r.base_state.position = base_position ∧ r.body_state.position = body_position ∧ r.base_mass = base_mass ∧
      r.body_mass = body_mass ∧ r.base_state.rpy 0 = s.base_state.rpy 0 ∧ r.base_state.rpy 1 = s.base_state.rpy 1 ∧
      Model.getTheta r = theta ∧ r.base_state.velocity = s.base_state.velocity ∧
      r.base_state.acceleration = s.base_state.acceleration ∧ r.body_state.velocity = s.body_state.velocity ∧
      r.body_state.acceleration = s.body_state.acceleration) := by
  refine ⟨?_, ?_, ?_⟩
  · rintro r rfl
    refine ⟨rfl, rfl, rfl, rfl, rfl, rfl, rfl, rfl, ?_⟩
    funext i; fin_cases i <;> rfl
  · rintro r rfl
    exact ⟨rfl, rfl, rfl, rfl, rfl, rfl, rfl⟩
  · rintro r rfl
    exact ⟨rfl, rfl, rfl, rfl, rfl, rfl, rfl, rfl, rfl, rfl, rfl⟩

/-- **C70.** The current position of the base is the position of the base in the state, after each update. -/
theorem C70_current_position_partial (m : Model K) (s : ModelState K) (p : RobotParameters K) :
    (m.updateState s).current_base_position = ![s.base_state.position 0, s.base_state.position 1] ∧
    (m.updateState s).state = s ∧ (m.updateState s).robot_parameters = m.robot_parameters ∧
    ((m.updateState s).setParameters p).current_base_position = ![s.base_state.position 0, s.base_state.position 1] ∧
    ((m.updateState s).setParameters p).robot_parameters = p ∧ ((m.updateState s).setParameters p).state = s :=
  ⟨rfl, rfl, rfl, rfl, rfl, rfl⟩

end Humoto.Pepper
