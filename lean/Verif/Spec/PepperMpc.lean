import Verif.Model.PepperMpc
import Verif.Spec.PepperModel

/-!
# Specification of the control problem of Pepper

A solution contains `2 N` velocities of the base and then `2 N` jerks of the body, two for each of `N` intervals.
-/

namespace Humoto.Spec

open Pepper

variable {K : Type} [Field K]

/-- The controls of the interval `k`. -/
def controlAt (N : ℕ) (x : ℕ → K) (k : ℕ) : Vec K :=
  Vec.ofList [x (2 * k), x (2 * k + 1), x (2 * N + 2 * k), x (2 * N + 2 * k + 1)]

/-- `X k` is the state at the start of the interval `k` (`X N` at the end of the last one) if the motion starts in `x0` and the
controls are `x`. -/
def Simulates (intervals : List (Interval K)) (x0 : Vec K) (x : ℕ → K) (X : ℕ → Vec K) : Prop :=
  X 0 = x0 ∧ ∀ (k : ℕ) iv, intervals[k]? = some iv →
    PepperStep iv.T iv.T (X k) (controlAt intervals.length x k) (X (k + 1))

/-- Centre of pressure of two point masses in the state `X` relative to the first of them, along the axis `i`; the masses and
their heights are those of the interval. -/
def intervalCop (iv : Interval K) (X : Vec K) (i : ℕ) : K :=
  (iv.base_mass * (X.e (3 * i) - iv.base_height * X.e (3 * i + 2) / (98 / 10)) +
    iv.body_mass * (X.e (3 * (i + 2)) - iv.body_height * X.e (3 * (i + 2) + 2) / (98 / 10))) /
    (iv.base_mass + iv.body_mass) - X.e (3 * i)

/-- The row `r` of `A x + b` is `v`. -/
def AffineRow (A : Mat K) (b : Vec K) (x : ℕ → K) (r : ℕ) (v : K) : Prop :=
  ∑ c ∈ Finset.range A.cols, A.e r c * x c + b.e r = v

/-- The matrices of the problem relate the solution `x` to the motion which it produces. `X (k + 1)` is the state at the end of
the interval `k`. -/
structure MpcMatrices (intervals : List (Interval K)) (x0 : Vec K) (m : Matrices K) : Prop where
  colsS : m.S.cols = 4 * intervals.length
  sizes : m.s.n = 12 * intervals.length
  colsAp : m.Ap.cols = 4 * intervals.length
  sizesp : m.sp.n = 2 * intervals.length
  colsAjs : m.Ajs.cols = 2 * intervals.length
  sizesjs : m.sjs.n = 2 * intervals.length
  colsAas : m.Aas.cols = 2 * intervals.length
  sizesas : m.sas.n = 2 * intervals.length
  colsAps : m.Aps.cols = 2 * intervals.length
  sizesps : m.sps.n = 2 * intervals.length
  colsApd : m.Apd.cols = 4 * intervals.length
  sizespd : m.spd.n = 2 * intervals.length
  rowsS : m.S.rows = 12 * intervals.length
  rowsAp : m.Ap.rows = 2 * intervals.length
  rowsAjs : m.Ajs.rows = 2 * intervals.length
  rowsAas : m.Aas.rows = 2 * intervals.length
  rowsAps : m.Aps.rows = 2 * intervals.length
  rowsApd : m.Apd.rows = 2 * intervals.length
  rowsR : m.R.m.rows = intervals.length * 2
  colsR : m.R.m.cols = intervals.length * 2
  /-- Rotations of the intervals. -/
  rotation : ∀ (k : ℕ) iv, intervals[k]? = some iv → ∀ a b : Fin 2, m.R.m.e (2 * k + a) (2 * k + b) = iv.rotation b a
  /-- States of the base and of the body. -/
  states : ∀ x X, Simulates intervals x0 x X → ∀ k < intervals.length, ∀ i < 6,
    AffineRow m.S m.s x (6 * k + i) ((X (k + 1)).e i) ∧
    AffineRow m.S m.s x (6 * intervals.length + 6 * k + i) ((X (k + 1)).e (6 + i))
  /-- Centre of pressure. -/
  cop : ∀ x X, Simulates intervals x0 x X → ∀ (k : ℕ) iv, intervals[k]? = some iv → iv.base_mass + iv.body_mass ≠ 0 → ∀ a < 2,
    AffineRow m.Ap m.sp x (2 * k + a) (intervalCop iv (X (k + 1)) a)
  /-- With this jerk of the base its velocity at the end of the interval is the one in the solution. -/
  jerk : ∀ x X, Simulates intervals x0 x X → ∀ (k : ℕ) iv, intervals[k]? = some iv → ∀ a < 2, ∃ j,
    AffineRow m.Ajs m.sjs x (2 * k + a) j ∧
    velocityAt ((X k).e (3 * a + 1)) ((X k).e (3 * a + 2)) j iv.T = x (2 * k + a)
  /-- Acceleration of the base. -/
  acceleration : ∀ x X, Simulates intervals x0 x X → ∀ k < intervals.length, ∀ a < 2,
    AffineRow m.Aas m.sas x (2 * k + a) ((X (k + 1)).e (3 * a + 2))
  /-- Position of the base. -/
  position : ∀ x X, Simulates intervals x0 x X → ∀ k < intervals.length, ∀ a < 2,
    AffineRow m.Aps m.sps x (2 * k + a) ((X (k + 1)).e (3 * a))
  /-- Position of the base relative to the body in the frame of the interval. -/
  relative : ∀ x X, Simulates intervals x0 x X → ∀ (k : ℕ) iv, intervals[k]? = some iv → ∀ a : Fin 2,
    AffineRow m.Apd m.spd x (2 * k + a)
      (iv.rotation 0 a * ((X (k + 1)).e 0 - (X (k + 1)).e 6) + iv.rotation 1 a * ((X (k + 1)).e 3 - (X (k + 1)).e 9))

/-- `s` is the state of the robot at the time `offset` after the start of an interval, which starts in the state `x` with the
orientation `prev`; the controls are `u`. The orientation changes with a constant rate. -/
structure StateWithin (iv : Interval K) (prev offset : K) (x u : Vec K) (s : ModelState K) : Prop where
  motion : PepperStep iv.T offset x u (Vec.ofList
    [s.base_state.position 0, s.base_state.velocity 0, s.base_state.acceleration 0,
     s.base_state.position 1, s.base_state.velocity 1, s.base_state.acceleration 1,
     s.body_state.position 0, s.body_state.velocity 0, s.body_state.acceleration 0,
     s.body_state.position 1, s.body_state.velocity 1, s.body_state.acceleration 1])
  base_height : s.base_state.position 2 = iv.base_height
  body_height : s.body_state.position 2 = iv.body_height
  orientation : s.base_state.rpy = ![0, 0, prev + (iv.theta - prev) * offset / iv.T]

/-- Results of a solution `x` which produces the motion `X`: states at ends of intervals, centres of pressure there, jerks of the
base, and both parts of the solution. -/
structure Profiles (intervals : List (Interval K)) (x : ℕ → K) (X : ℕ → Vec K) (c : Mpc K) : Prop where
  sizes : c.cstate_profile.n = 12 * intervals.length ∧ c.cop_profile.n = 2 * intervals.length ∧
    c.base_jerk_profile.n = 2 * intervals.length ∧ c.base_controls.n = 2 * intervals.length ∧
    c.body_controls.n = 2 * intervals.length
  states : ∀ k < intervals.length, ∀ i < 6, c.cstate_profile.e (6 * k + i) = (X (k + 1)).e i ∧
    c.cstate_profile.e (6 * intervals.length + 6 * k + i) = (X (k + 1)).e (6 + i)
  cop : ∀ (k : ℕ) iv, intervals[k]? = some iv → iv.base_mass + iv.body_mass ≠ 0 → ∀ a < 2,
    c.cop_profile.e (2 * k + a) = intervalCop iv (X (k + 1)) a
  jerk : ∀ (k : ℕ) iv, intervals[k]? = some iv → ∀ a < 2,
    velocityAt ((X k).e (3 * a + 1)) ((X k).e (3 * a + 2)) (c.base_jerk_profile.e (2 * k + a)) iv.T = x (2 * k + a)
  base : ∀ i < 2 * intervals.length, c.base_controls.e i = x i
  body : ∀ i < 2 * intervals.length, c.body_controls.e i = x (2 * intervals.length + i)

/-- What the protocol of a control problem distinguishes. -/
inductive CallKind
  | update
  | parse
  | other
  deriving DecidableEq

/-- A solution has been parsed, and the problem has not been updated since then. -/
def ParsedAfter (calls : List CallKind) : Prop :=
  ∃ before after : List CallKind, calls = before ++ .parse :: after ∧ .update ∉ after

end Humoto.Spec
