import Verif.Spec.WpgNext

/-!
# What the walking pattern generator is expected to do: the loop of control
-/

namespace Humoto.Spec.Wpg

open Humoto.Wpg

/-- The robot, the machine which schedules the stances, and the controller. -/
structure LoopState where
  model : Model
  fsm : FSM
  mpc : Mpc

/-- Conditions on the parameters of the walk for a controller with `N` intervals and the sampling time `T`: transitions take one
sampling time, the other stances any number of them, the last one covers the horizon; the horizon has at least two intervals. -/
structure LoopParameters (p : FSMParams) (N T : ℕ) : Prop where
  proper : Proper p
  sampling : 0 < T
  transition : p.tdsMs = T
  single : T ∣ p.ssMs ∧ 0 < p.ssMs
  first : T ∣ p.firstMs ∧ 0 < p.firstMs
  last : T ∣ p.lastMs ∧ N * T ≤ p.lastMs
  horizon : 2 ≤ N ∧ N < 2 ^ 63

/-- Duration of the whole walk: the first stance, `numSteps` single supports, the transitions before, between and after them, and the
last double support. Without steps the robot remains in the first double support. -/
def walkMs (p : FSMParams) : ℕ :=
  p.firstMs + if p.firstStance = .ds ∧ p.numSteps = 0 then 0 else p.numSteps * p.ssMs + (p.numSteps + 1) * p.tdsMs + p.lastMs

/-- The beginning: a new machine, a new controller, and a robot in the first stance of the walk. -/
structure LoopStart (p : FSMParams) (q : MPCParameters) (s : LoopState) : Prop where
  machine : FSM.construct p = .ok s.fsm
  controller : s.mpc = Mpc.make q
  stance : s.model.state.stance_type = s.fsm.cur.type
  height : 0 < s.model.getCoMHeight

/-- What remains to be done after an update which has returned the controller `mpc`, when the solver has found `sol`: the machine is
shifted by the sampling time, the next state is computed and given to the model. -/
structure Completes (nan : ℝ) (junk : ℕ → ℕ → ℝ) (T : ℕ) (mpc : Mpc) (sol : Solution ℝ) (s : LoopState) (st : ModelState)
    (s' : LoopState) : Prop where
  shifted : Returns s.fsm T (.ok s'.fsm)
  next : mpc.parseAndGetNextModelState nan junk sol s'.fsm s.model = .ok (s'.mpc, st)
  updated : s.model.updateState st = .ok s'.model

/-- One iteration: the controller is updated, the problem is solved, the next state is computed. The solution is arbitrary: any
vector of the right size. -/
def LoopStep (nan : ℝ) (T : ℕ) (s s' : LoopState) : Prop :=
  ∃ junkH junk junkI junkP w mpc sol st, UpdateReturns nan junkH junk junkI s.model s.fsm w s.mpc (.ok (mpc, .ok)) ∧
    SolutionFor mpc.horizon sol ∧ Completes nan junkP T mpc sol s st s'

/-- States after `n` iterations. -/
inductive LoopAfter (nan : ℝ) (T : ℕ) (s : LoopState) : ℕ → LoopState → Prop
  | start : LoopAfter nan T s 0 s
  | step {n : ℕ} {a b : LoopState} : LoopAfter nan T s n a → LoopStep nan T a b → LoopAfter nan T s (n + 1) b

/-- The feet of the robot are on both sides of its support, at the default distance, turned by the mean of their orientations. -/
def FeetBeside (m : Model) : Prop :=
  ∃ θ, 2 * θ = m.state.feet.left.rpy 2 + m.state.feet.right.rpy 2 ∧
    IsTurned θ (beside m.params.feetDistDefault .left) ![m.state.feet.left.position 0 - m.current_support_position 0,
      m.state.feet.left.position 1 - m.current_support_position 1] ∧
    IsTurned θ (beside m.params.feetDistDefault .right) ![m.state.feet.right.position 0 - m.current_support_position 0,
      m.state.feet.right.position 1 - m.current_support_position 1]

/-- The robot stands on its support: on one foot, or on both feet at the default distance. -/
structure Stands (m : Model) : Prop where
  support : IsSupportPosition m.state.feet.left.position m.state.feet.right.position m.state.stance_type m.current_support_position
  feet : m.state.stance_type = .ds → FeetBeside m

/-- The position of the first step in the solution `x` meets its bounds. -/
def MeetsFirstBounds (H : Horizon) (x : ℕ → ℝ) : Prop :=
  ∀ s, FirstStep H s → ∀ i : Fin 2, s.fd_bounds i 0 ≤ x (2 * H.intervals.n + i) ∧ x (2 * H.intervals.n + i) ≤ s.fd_bounds i 1

/-- The foot `r` is where it may be placed relative to the foot `f` on which the robot stands: to its left if `σ = 1`, to its right if
`σ = -1`; the distances are measured along and across the foot `f`. -/
def AllowedStep (p : FootParameters ℝ) (σ : ℝ) (f r : RigidBodyState ℝ) : Prop :=
  ∃ v, IsTurned (f.rpy 2) v ![r.position 0 - f.position 0, r.position 1 - f.position 1] ∧
    -p.maxStepLen ≤ v 0 ∧ v 0 ≤ p.maxStepLen ∧ p.minFeetDist ≤ σ * v 1 ∧ σ * v 1 ≤ p.maxFeetDist

/-- The foot `r` is beside the foot `f` at the default distance, with the same orientation. -/
def Beside (p : FootParameters ℝ) (σ : ℝ) (f r : RigidBodyState ℝ) : Prop :=
  IsTurned (f.rpy 2) ![0, σ * p.feetDistDefault] ![r.position 0 - f.position 0, r.position 1 - f.position 1] ∧ r.rpy 2 = f.rpy 2

end Humoto.Spec.Wpg
