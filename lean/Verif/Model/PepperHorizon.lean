import Verif.Model.PepperModel

/-!
# Pepper: preview horizon

modules/pepper_mpc/include/pepper_mpc/preview_horizon.h and the functions of mpc_mg.h which shift it. `std::size_t` has 64 bits:
where signed durations are converted to it the result is taken modulo `2^64`.
-/

namespace Humoto.Pepper

variable {K : Type}

/-- `std::cos` and `std::sin`: parameters of the model. -/
structure Trig (K : Type) where
  cos : K → K
  sin : K → K

/-- `PreviewHorizonInterval`, preview_horizon.h:22-46. -/
structure Interval (K : Type) where
  cop_bounds : Fin 2 → Fin 2 → K
  nominal_base_velocity_bounds : Fin 2 → Fin 2 → K
  nominal_base_acceleration_bounds : Fin 2 → Fin 2 → K
  body_bounds : Fin 2 → Fin 2 → K
  base_vel_ref : Fin 2 → K
  base_pos_ref : Fin 2 → K
  base_height : K
  body_height : K
  base_mass : K
  body_mass : K
  T_ms : ℕ
  T : K
  theta : K
  rotation : Matrix (Fin 2) (Fin 2) K

/-- `Eigen::Rotation2Dd(theta)` as a matrix. -/
def rotation2D [Neg K] (tr : Trig K) (theta : K) : Matrix (Fin 2) (Fin 2) K :=
  !![tr.cos theta, -tr.sin theta; tr.sin theta, tr.cos theta]

/-- `PreviewHorizonInterval::initialize`, preview_horizon.h:86-111; `theta` has been incremented already. -/
def Interval.make [Field K] (tr : Trig K) (p : MPCParameters) (m : MotionParameters K) (model : Model K) (theta : K) :
    Interval K where
  cop_bounds := model.robot_parameters.cop_bounds
  nominal_base_velocity_bounds := model.robot_parameters.nominal_base_velocity_bounds
  nominal_base_acceleration_bounds := model.robot_parameters.nominal_base_acceleration_bounds
  body_bounds := model.robot_parameters.body_bounds
  base_vel_ref := (rotation2D tr theta).mulVec m.base_velocity
  base_pos_ref := m.base_position
  base_height := model.state.base_state.position 2
  body_height := model.state.body_state.position 2
  base_mass := model.state.base_mass
  body_mass := model.state.body_mass
  T_ms := p.sampling_time_ms
  T := p.getSamplingTime
  theta := theta
  rotation := rotation2D tr theta

/-- `intervals_[i].initialize(theta, ...)`: the intervals and `theta`. -/
def initAt [Field K] (tr : Trig K) (p : MPCParameters) (model : Model K) (m : MotionParameters K) (i : ℕ)
    (s : List (Interval K) × K) : Res (List (Interval K) × K) := do
  require (i < s.1.length)
  let theta := s.2 + m.base_angular_velocity * p.getSamplingTime
  pure (s.1.set i (Interval.make tr p m model theta), theta)

/-- `intervals_.resize(n)`: new elements are constructed by default (`dflt`, preview_horizon.h:53-73). -/
def resizeIntervals (dflt : Interval K) (l : List (Interval K)) (n : ℕ) : List (Interval K) :=
  l.take n ++ List.replicate (n - l.length) dflt

/-- `static_cast<std::ptrdiff_t>(n)`. -/
def toPtrdiff (n : ℕ) : ℤ := Int.bmod n (2 ^ 64)

/-- A value of the type `std::size_t` which is computed from a signed one. -/
def toSize (z : ℤ) : ℕ := (z % 2 ^ 64).toNat

/-- `PreviewHorizon::form(mpc_params, model, motion_parameters)`, preview_horizon.h:165-190. -/
def formSingle [Field K] (tr : Trig K) (dflt : Interval K) (old : List (Interval K)) (p : MPCParameters) (model : Model K)
    (m : MotionParameters K) : Res (Bool × List (Interval K)) :=
  if m.duration_ms = unlimitedDuration ∨
      toPtrdiff (p.preview_horizon_length * p.sampling_time_ms) ≤ m.duration_ms then do
    let s ← forRange p.preview_horizon_length
      (resizeIntervals dflt old p.preview_horizon_length, Model.getTheta model.state)
      fun s i => initAt tr p model m i s
    pure (true, s.1)
  else pure (false, old)

/-- The loop over the queue, preview_horizon.h:214-250: `i` is the number of initialised intervals, `r` the remainder. -/
def formLoop [Field K] (tr : Trig K) (p : MPCParameters) (model : Model K) :
    List (MotionParameters K) → ℕ → ℕ → List (Interval K) × K → Res (Bool × List (Interval K))
  | [], _, _, s => pure (false, s.1)
  | m :: rest, i, r, s =>
    if m.duration_ms = unlimitedDuration then do
      let s ← forRange (p.preview_horizon_length - i) s fun s j => initAt tr p model m (i + j) s
      pure (true, s.1)
    else do
      require (p.sampling_time_ms ≠ 0)
      let n := min (toSize (r + m.duration_ms) / p.sampling_time_ms) (p.preview_horizon_length - i)
      let s ← forRange n s fun s j => initAt tr p model m (i + j) s
      if i + n = p.preview_horizon_length then pure (true, s.1)
      else formLoop tr p model rest (i + n) (toSize (r + m.duration_ms) % p.sampling_time_ms) s

/-- `PreviewHorizon::form(mpc_params, model, motion_parameters_deque)`, preview_horizon.h:202-253. -/
def formQueue [Field K] (tr : Trig K) (dflt : Interval K) (old : List (Interval K)) (p : MPCParameters) (model : Model K)
    (q : List (MotionParameters K)) : Res (Bool × List (Interval K)) :=
  formLoop tr p model q 0 0 (resizeIntervals dflt old p.preview_horizon_length, Model.getTheta model.state)

/-- `getIntervalIndexByTimeOffset(std::size_t &)`, preview_horizon.h:367-384: index and offset within the interval; `k` is the
index of the first interval in the list. -/
def intervalByOffsetMs : ℕ → List (Interval K) → ℕ → Res (ℕ × ℕ)
  | _, [], _ => .error .thrown
  | k, iv :: rest, off => if off > iv.T_ms then intervalByOffsetMs (k + 1) rest (off - iv.T_ms) else .ok (k, off)

/-- `getIntervalIndexByTimeOffset(double &)`, preview_horizon.h:396-413. -/
def intervalByOffset [Field K] [LinearOrder K] : ℕ → List (Interval K) → K → Res (ℕ × K)
  | _, [], _ => .error .thrown
  | k, iv :: rest, off => if off > iv.T then intervalByOffset (k + 1) rest (off - iv.T) else .ok (k, off)

/-! ## Shifting -/

/-- `MPCforMG::DEFAULT_PREVIEW_HORIZON_SHIFT`, mpc_mg.h:331. -/
def defaultShift : ℤ := -1

/-- `shift(motion_parameters, time_shift_ms)`, mpc_mg.h:450-469. -/
def shiftSingle (p : MPCParameters) (m : MotionParameters K) (t : ℤ) : MotionParameters K :=
  if m.duration_ms ≠ unlimitedDuration then
    let d := if t = defaultShift then m.duration_ms - p.sampling_time_ms else m.duration_ms - t
    { m with duration_ms := if d < 0 then 0 else d }
  else m

/-- The loop of `shift`, mpc_mg.h:487-522. -/
def shiftLoop (t : ℤ) : List (MotionParameters K) → List (MotionParameters K)
  | [] => []
  | m :: rest =>
    if m.duration_ms = unlimitedDuration then m :: rest
    else if m.duration_ms ≤ t then shiftLoop (t - m.duration_ms) rest
    else { m with duration_ms := if m.duration_ms - t < 0 then 0 else m.duration_ms - t } :: rest

/-- `shift(motion_parameters_deque, time_shift_ms)`, mpc_mg.h:478-523. -/
def shiftQueue (p : MPCParameters) (q : List (MotionParameters K)) (t : ℤ) : List (MotionParameters K) :=
  shiftLoop (if t = defaultShift then (p.sampling_time_ms : ℤ) else t) q

end Humoto.Pepper
