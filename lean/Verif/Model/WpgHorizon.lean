import Verif.Model.WpgModel
import Verif.Model.Loop

/-!
# Walking pattern generator: the preview horizon

modules/wpg04/include/wpg04/preview_horizon.h. `std::vector::at` throws `std::out_of_range`, which is `.thrown`. Logging is not
modelled. `floor` of a quotient of integers is that quotient: its conversion to `double` and back is exact below `2^53`.
-/

namespace Humoto.Wpg

/-- `v.at(i)`. -/
def at' {α : Type} (l : List α) (i : ℕ) : Res α :=
  match l[i]? with
  | some x => .ok x
  | none => .error .thrown

/-- `v[i]`. -/
def nth {α : Type} (l : List α) (i : ℕ) : Res α :=
  match l[i]? with
  | some x => .ok x
  | none => .error .ub

/-- `WalkState`, preview_horizon.h:21-51. -/
structure WalkState where
  stance : Stance
  cvel_ref : Fin 2 → ℝ
  theta : ℝ
  rotation : Matrix (Fin 2) (Fin 2) ℝ
  R_cvel_ref : Fin 2 → ℝ
  step_height : ℝ
  fd_bounds : Matrix (Fin 2) (Fin 2) ℝ
  cop_bounds : Matrix (Fin 2) (Fin 2) ℝ

/-- `PreviewHorizonInterval`, preview_horizon.h:100-108. -/
structure Interval where
  state_index : ℕ
  cvel_ref : Fin 2 → ℝ
  com_height : ℝ
  omega : ℝ
  T : ℝ
  T_ms : ℕ

/-- `PreviewHorizon`, preview_horizon.h:138-144. -/
structure Horizon where
  variable_steps : List ℕ
  intervals : Vec Interval
  walk_states : List WalkState

/-- `getConstraints`, preview_horizon.h:474-531: bounds on the position of the foot. -/
noncomputable def footBounds (p : FootParameters ℝ) (s : Stance) : Res (Matrix (Fin 2) (Fin 2) ℝ) :=
  if s.subtype = .first then .ok 0
  else
    match s.type with
    | .lss =>
      match s.prevNonTds with
      | .ds => p.getFootBounds .left .withRespectToADS
      | .rss => p.getFootBounds .left .withRespectToSS
      | _ => .error .thrown
    | .rss =>
      match s.prevNonTds with
      | .ds => p.getFootBounds .right .withRespectToADS
      | .lss => p.getFootBounds .right .withRespectToSS
      | _ => .error .thrown
    | .ds =>
      match s.prevNonTds with
      | .lss => p.getFootBounds .right .alignedToSS
      | .rss => p.getFootBounds .left .alignedToSS
      | _ => .error .thrown
    | _ => .error .thrown

/-- `getConstraints`, preview_horizon.h:533-540: bounds on the position of the CoP. -/
noncomputable def copBounds (p : FootParameters ℝ) (s : Stance) : Matrix (Fin 2) (Fin 2) ℝ :=
  if s.type = .ds then p.getADSCoPBounds else p.getSSCoPBounds

/-- The local variables `lss_theta`, `rss_theta`, `ds_theta` of `previewStates`, preview_horizon.h:245-247. -/
structure Thetas where
  lss : ℝ
  rss : ℝ
  ds : ℝ

/-- The case of a transition in the switch of `previewStates`, preview_horizon.h:283-312: the angles, the reference velocity and
the angle of the state. -/
noncomputable def previewTransition (w : WalkParameters) (next prev : StanceType) (th : Thetas) :
    Thetas × (Fin 2 → ℝ) × ℝ :=
  let s : Thetas × (Fin 2 → ℝ) × ℝ := (th, w.com_velocity, th.ds)
  let s := if next = .rss ∧ prev ≠ .ds then
      ({ s.1 with rss := s.1.lss + w.theta_increment }, s.2.1, s.1.lss + w.theta_increment) else s
  let s := if next = .lss ∧ prev ≠ .ds then
      ({ s.1 with lss := s.1.rss + w.theta_increment }, s.2.1, s.1.rss + w.theta_increment) else s
  let s := if next = .ds ∧ prev ≠ .lss then
      ({ s.1 with ds := s.1.rss }, w.last_stance_com_velocity, s.1.rss) else s
  if next = .ds ∧ prev ≠ .rss then
      ({ s.1 with ds := s.1.lss }, w.last_stance_com_velocity, s.1.lss) else s

/-- The switch of `previewStates`, preview_horizon.h:255-317. -/
noncomputable def previewSwitch (w : WalkParameters) (stances : List Stance) (i : ℕ) (s : Stance) (th : Thetas) :
    Res (Thetas × (Fin 2 → ℝ) × ℝ) :=
  match s.type with
  | .lss => .ok (th, w.com_velocity, th.lss)
  | .rss => .ok (th, w.com_velocity, th.rss)
  | .ds =>
    if s.subtype = .first then .ok (th, w.first_stance_com_velocity, th.ds)
    else if s.subtype = .last then .ok (th, w.last_stance_com_velocity, th.ds)
    else .error .thrown
  | .tds => do
    let n ← at' stances (i + 1)
    pure (previewTransition w n.type s.prevNonTds th)
  | .undefined => .error .thrown

/-- The body of the loop of `previewStates`, preview_horizon.h:252-326. The vector grows, while in the code it has its final size
from the start and is assigned in the same order. -/
noncomputable def previewStep (nan : ℝ) (p : FootParameters ℝ) (w : WalkParameters) (stances : List Stance)
    (y : Thetas × List WalkState) (i : ℕ) : Res (Thetas × List WalkState) := do
  let s ← at' stances i
  let r ← previewSwitch w stances i s y.1
  let b ← (if s.type ≠ .tds then do
      let fd ← footBounds p s
      pure (fd, copBounds p s)
    else pure (fun _ _ => nan, fun _ _ => nan) : Res (Matrix (Fin 2) (Fin 2) ℝ × Matrix (Fin 2) (Fin 2) ℝ))
  pure (r.1, y.2 ++ [⟨s, r.2.1, r.2.2, rotation2 r.2.2, (rotation2 r.2.2).mulVec r.2.1, 0, b.1, b.2⟩])

/-- `previewStates`, preview_horizon.h:236-328, after the stances are previewed. -/
noncomputable def previewStates (nan : ℝ) (m : Model) (w : WalkParameters) (stances : List Stance) : Res (List WalkState) := do
  let l := m.state.feet.left.rpy 2
  let r := m.state.feet.right.rpy 2
  let y ← forRange stances.length (⟨l, r, (l + r) / 2⟩, []) (previewStep nan m.params w stances)
  pure y.2

/-- `std::size_t` arithmetic. -/
def wrap (n : ℕ) : ℕ := n % 2 ^ 64

/-- `--n`. -/
def decr (n : ℕ) : ℕ := wrap (n + 2 ^ 64 - 1)

/-- `a / b` for `std::size_t`. -/
def quotient (a b : ℕ) : Res ℕ := do
  require (b ≠ 0)
  pure (a / b)

/-- Local variables of `form`, preview_horizon.h:364-382. -/
structure FormState where
  intervals : Vec Interval
  steps : List ℕ
  index : ℕ
  walk : ℕ

/-- `for (i = from; i < to; ++i) intervals_[i] = interval`, preview_horizon.h:452-455. -/
def fill (v : Vec Interval) (a b : ℕ) (x : Interval) : Res (Vec Interval) :=
  forRange (b - a) v fun v k => v.set (a + k) x

/-- The assignments which follow the choice of the interval, preview_horizon.h:421-423, 440-442, 447-458: `left` is
`num_intervals_left`. -/
noncomputable def formGroup (N T : ℕ) (y : FormState) (x : Interval) (left : ℕ) : Res FormState := do
  let v ← y.intervals.set y.index x
  let index := y.index + 1
  let v ← fill v index (min N (wrap (index + left))) { x with T_ms := T, T := seconds T }
  pure ⟨v, y.steps, wrap (index + left), y.walk + 1⟩

/-- The interval before its duration and state are set, preview_horizon.h:387-390. -/
noncomputable def newInterval (height : ℝ) (s : WalkState) (T walk : ℕ) : Interval :=
  ⟨walk, s.R_cvel_ref, height, PointMass6z.getOmega height, seconds T, T⟩

/-- The loop of `form`, preview_horizon.h:383-459. The argument is the rest of `walk_states_` beginning with the index
`walk_index`. -/
noncomputable def formLoop (N T Ttds : ℕ) (height : ℝ) : List WalkState → FormState → Res FormState
  | rest, y =>
    if y.index < N then
      match rest with
      | [] => .error .thrown
      | s :: rest =>
        if y.walk = 0 then
          if s.stance.type = .tds then
            match rest with
            | [] => .error .thrown
            | s' :: rest => do
              let left ← quotient s'.stance.duration T
              let y ← formGroup N T { y with walk := y.walk + 1 } (newInterval height s s.stance.duration (y.walk + 1)) left
              formLoop N T Ttds height rest y
          else do
            let left ← quotient s.stance.duration T
            let r := s.stance.duration % T
            let y ← formGroup N T y (newInterval height s (if r = 0 then T else r) y.walk) (if r = 0 then decr left else left)
            formLoop N T Ttds height rest y
        else do
          assertThat (s.stance.type = .tds)
          match rest with
          | [] => .error .thrown
          | s' :: rest => do
            let left ← quotient s'.stance.duration T
            let y ← formGroup N T { y with steps := y.steps ++ [y.index], walk := y.walk + 1 }
              (newInterval height s Ttds (y.walk + 1)) left
            formLoop N T Ttds height rest y
    else .ok y

/-- `intervals_.resize(n)`: the elements which are added are not initialised. -/
def resize (junk : ℕ → Interval) (v : Vec Interval) (n : ℕ) : Vec Interval := ⟨n, fun i => if i < v.n then v.e i else junk i⟩

/-- `form`, preview_horizon.h:354-462, after the stances are previewed: the returned value and the new horizon. -/
noncomputable def formWith (nan : ℝ) (junk : ℕ → Interval) (old : Horizon) (p : MPCParameters) (m : Model) (w : WalkParameters)
    (stances : List Stance) : Res (Bool × Horizon) := do
  let ws ← previewStates nan m w stances
  if ws.isEmpty then pure (false, { old with walk_states := ws })
  else do
    let y ← formLoop p.preview_horizon_length p.sampling_time_ms p.tds_sampling_time_ms m.getCoMHeight ws
      ⟨resize junk old.intervals p.preview_horizon_length, [], 0, 0⟩
    pure (true, ⟨y.steps, y.intervals, ws⟩)

/-- `form`, preview_horizon.h:354-462. `none`: the preview of the stances is still running after `fuel` iterations. -/
noncomputable def form (fuel : ℕ) (nan : ℝ) (junk : ℕ → Interval) (old : Horizon) (p : MPCParameters) (m : Model) (f : FSM)
    (w : WalkParameters) : Option (Res (Bool × Horizon)) :=
  match FSM.previewStances fuel f (p.preview_horizon_length * p.sampling_time_ms) with
  | none => none
  | some (.error e) => some (.error e)
  | some (.ok l) => some (formWith nan junk old p m w l)

/-- `getWalkState`, preview_horizon.h:208-212. -/
def Horizon.getWalkState (h : Horizon) (i : ℕ) : Res WalkState := do
  let iv ← h.intervals.get i
  nth h.walk_states iv.state_index

/-- `getCoPBounds`, preview_horizon.h:165-169. -/
def Horizon.getCoPBounds (h : Horizon) (i : ℕ) : Res (Matrix (Fin 2) (Fin 2) ℝ) := do
  let s ← h.getWalkState i
  pure s.cop_bounds

/-- `getRotationMatrix`, preview_horizon.h:194-198. -/
def Horizon.getRotationMatrix (h : Horizon) (i : ℕ) : Res (Matrix (Fin 2) (Fin 2) ℝ) := do
  let s ← h.getWalkState i
  pure s.rotation

/-- `getFootPositionBounds`, preview_horizon.h:179-184. -/
def Horizon.getFootPositionBounds (h : Horizon) (k : ℕ) : Res (Matrix (Fin 2) (Fin 2) ℝ) := do
  let i ← nth h.variable_steps k
  let s ← h.getWalkState i
  pure s.fd_bounds

/-- `getNumberOfVariableSteps`, preview_horizon.h:337-340. -/
def Horizon.getNumberOfVariableSteps (h : Horizon) : ℕ := h.variable_steps.length

end Humoto.Wpg
