import Verif.Model.WpgProblem
import Verif.Spec.WpgTasks
import Verif.Spec.Bridges

/-!
# What the optimization problem of the walking pattern generator is expected to be
-/

namespace Humoto.Spec.Wpg

open Humoto.Wpg

/-- The motion which the solution `x` produces is capturable at the end of the horizon: the velocity of the capture point is zero. -/
def Capturable (H : Horizon) (model : Model) (x : ℕ → ℝ) : Prop :=
  ∀ P cop X, Prediction H model x P cop X → ∀ a : Fin 2, IsCapturePointVelocity model.getCoMHeight (X H.intervals.n) a 0

/-- Solutions which are allowed: steps within their bounds, or fixed; the centre of pressure within the supports; a capturable motion, if
there is a terminal constraint. -/
structure AllowedMotion (o : ProblemSetup) (H : Horizon) (model : Model) (x : ℕ → ℝ) : Prop where
  steps : if o.fixed then StepsFixed H x else StepsWithin H x
  cop : CopWithin H x
  terminal : o.terminal = true → Capturable H model x

/-- What is minimised: squared deviations of the predicted velocity `X` of the centre of mass from the reference, squared velocity
`V` of the centre of pressure, and its squared distance from the centres of the supports, with squared gains. -/
noncomputable def walkCost (o : ProblemSetup) (H : Horizon) (x : ℕ → ℝ) (X : ℕ → Fin 6 → ℝ) (V : ℕ → Fin 2 → ℝ) : ℝ :=
  ∑ i ∈ Finset.range H.intervals.n, ∑ a : Fin 2,
    (o.comVelocityGain ^ 2 * (velocityOf (X (i + 1)) a - (H.intervals.e i).cvel_ref a) ^ 2 + o.copVelocityGain ^ 2 * V i a ^ 2 +
      o.copPositionGain ^ 2 * x (2 * i + a) ^ 2)

/-- `c` is the cost of the motion which the solution `x` produces. -/
def IsCost (o : ProblemSetup) (H : Horizon) (model : Model) (x : ℕ → ℝ) (c : ℝ) : Prop :=
  ∃ P cop X V, Prediction H model x P cop X ∧
    (∀ i < H.intervals.n, ∀ a : Fin 2, IsCopVelocity model.getCoMHeight (H.intervals.e i).T (X i) (cop i) a (V i a)) ∧
    c = walkCost o H x X V

/-- `mpc` is a controller after a successful update for the model, at some state of a walk with time left in its stance. -/
def Updated (model : Model) (mpc : Mpc) : Prop :=
  ∃ (c : Stance) (p : FSMParams) (f : FSM) (old : Mpc) (nan : ℝ) (junkH : ℕ → Interval) (junk : ℕ → ℕ → ℕ → ℕ → ℝ) (junkI : ℕ → ℕ → ℕ)
    (w : WalkParameters), StanceReachable c p f ∧ Proper p ∧ f.time < f.cur.duration ∧ old.parameters.preview_horizon_length < 2 ^ 63 ∧
    0 < old.parameters.tds_sampling_time_ms ∧ 0 < model.getCoMHeight ∧ UpdateReturns nan junkH junk junkI model f w old (.ok (mpc, .ok))

/-- Problems which a program can have in its hands: after a setup, after forming for any controller which was updated successfully, and
after processing an active set. Guesses are made always or never. -/
inductive ProblemAfter (o : ProblemSetup) (guessing : Bool) : Problem → Prop
  | setup {P : Hierarchy ProblemEnv ℝ} {p : Problem} : setupHierarchy o P = .ok p → ProblemAfter o guessing p
  | form {p p' : Problem} {junk : ℕ → ℕ → ℕ → ℝ} {junkI : ℕ → ℕ → ℕ} {model : Model} {mpc : Mpc} : ProblemAfter o guessing p →
      Updated model mpc → p.form junk junkI guessing model mpc = .ok p' → ProblemAfter o guessing p'
  | process {p p' : Problem} {s : ActiveSetH} : ProblemAfter o guessing p → p.processActiveSet s = .ok p' →
      ProblemAfter o guessing p'

/-- Problems of a loop which forms the problem with a guess of the active set, solves it and processes the active set. The horizon is the
one for which the problem was formed last. -/
inductive SolvedAfter (o : ProblemSetup) : Option Horizon → Problem → Prop
  | setup {P : Hierarchy ProblemEnv ℝ} {p : Problem} : setupHierarchy o P = .ok p → SolvedAfter o none p
  | cycle {h : Option Horizon} {p p' p'' : Problem} {junk : ℕ → ℕ → ℕ → ℝ} {junkI : ℕ → ℕ → ℕ} {model : Model} {mpc : Mpc}
      {s : ActiveSetH} : SolvedAfter o h p → Updated model mpc → p.form junk junkI true model mpc = .ok p' →
      p'.processActiveSet s = .ok p'' → SolvedAfter o (some mpc.horizon) p''

/-- The number of steps is at most one less than it was, the number of intervals is the same. -/
def SizesFit (H : Horizon) (h : Option Horizon) : Prop :=
  ∀ H' ∈ h, H'.variable_steps.length ≤ H.variable_steps.length + 1 ∧ H'.intervals.n = H.intervals.n ∧ 2 ≤ H.intervals.n

/-- The problem was formed for the controller `mpc`, in a loop with guesses, or after a history without guesses. -/
def FormedProblem (o : ProblemSetup) (model : Model) (mpc : Mpc) (p' : Problem) : Prop :=
  ∃ p junk junkI guessing, ((∃ h, SolvedAfter o h p) ∨ ProblemAfter o false p) ∧ p.form junk junkI guessing model mpc = .ok p'

/-- An active set of the size of the problem. -/
def ActiveSetFor (p : Problem) (s : ActiveSetH) : Prop := s.map (·.length) = p.hierarchy.levels.map (·.nConstraints)

/-- The first level allows what is allowed; the sum of squared residuals of the second level is the cost. -/
structure WalkLevels (o : ProblemSetup) (H : Horizon) (model : Model) (L0 L1 : Level ProblemEnv ℝ) : Prop where
  allowed : ∀ x, LevelSatisfied L0 x ↔ AllowedMotion o H model x
  cost : ∀ x c, IsCost o H model x c ↔ c = leastSquares L1.tasks x

/-- `x` is an allowed solution, and the cost of the motion which it produces plus `reg` times its squared norm is not greater than that
of any other allowed solution in the set `S`. -/
structure BestMotion (o : ProblemSetup) (H : Horizon) (model : Model) (reg : ℝ) (S : (ℕ → ℝ) → Prop) (x : ℕ → ℝ) : Prop where
  allowed : AllowedMotion o H model x
  least : ∀ c y d, IsCost o H model x c → AllowedMotion o H model y → S y → IsCost o H model y d →
    c + reg * ∑ i ∈ Finset.range (2 * H.intervals.n + 2 * H.variable_steps.length), x i ^ 2 ≤
      d + reg * ∑ i ∈ Finset.range (2 * H.intervals.n + 2 * H.variable_steps.length), y i ^ 2

/-- The variables do not exceed the library infinity. -/
def ModerateSolution (H : Horizon) (x : ℕ → ℝ) : Prop :=
  ∀ v < 2 * H.intervals.n + 2 * H.variable_steps.length, -10 ^ 20 ≤ x v ∧ x v ≤ 10 ^ 20

end Humoto.Spec.Wpg
