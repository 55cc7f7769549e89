import Verif.Model.Basic

/-!
# Stance finite state machine

core/include/walking/stance_finite_state_machine.h. Times are in milliseconds. `std::size_t` is modelled by `ℕ`:
sums of times are assumed to stay below `2^64`; differences `duration_ms_ - current_time_ms_` do not wrap in the
states which satisfy `current_time_ms_ ≤ duration_ms_` (all reachable states do: `C24_time_in_range`). Logging is not
modelled.
-/

namespace Humoto

/-- `StanceType::Type`, stance_finite_state_machine.h:20-41. -/
inductive StanceType
  | undefined
  | ds
  | lss
  | rss
  | tds
  deriving DecidableEq, Repr

/-- `StanceSubType::Type`, stance_finite_state_machine.h:47-63. -/
inductive StanceSubType
  | undefined
  | first
  | intermediate
  | last
  deriving DecidableEq, Repr

/-- `LeftOrRight::Type`, core/include/humoto/leftright.h:20-26. -/
inductive LeftOrRight
  | undefined
  | left
  | right
  deriving DecidableEq, Repr

/-- `determineSupportFoot`, stance_finite_state_machine.h:74-85. -/
def determineSupportFoot : StanceType → Res LeftOrRight
  | .lss => .ok .left
  | .rss => .ok .right
  | _ => .error .thrown

/-- `StanceFSMParameters`, stance_finite_state_machine.h:92-119 (without the configuration entries). -/
structure FSMParams where
  firstStance : StanceType
  firstSsType : StanceType
  lastStance : StanceType
  ssMs : ℕ
  tdsMs : ℕ
  firstMs : ℕ
  lastMs : ℕ
  numSteps : ℕ
  deriving DecidableEq, Repr

namespace FSMParams

/-- `StanceFSMParameters::setDefaults`, stance_finite_state_machine.h:159-171. -/
def default : FSMParams := ⟨.ds, .rss, .ds, 700, 100, 300, 2900, 7⟩

/-- `StanceFSMParameters::getDurationMs`, stance_finite_state_machine.h:137-153. -/
def getDurationMs (p : FSMParams) : StanceType → Res ℕ
  | .ds => .ok p.lastMs
  | .tds => .ok p.tdsMs
  | .lss => .ok p.ssMs
  | .rss => .ok p.ssMs
  | .undefined => .error .thrown

end FSMParams

/-- `Stance`, stance_finite_state_machine.h:178-202; the defaults are those of the constructor. -/
structure Stance where
  type : StanceType := .undefined
  prevNonDs : StanceType := .undefined
  prevNonTds : StanceType := .undefined
  subtype : StanceSubType := .undefined
  duration : ℕ := 0
  total : ℕ := 0
  deriving DecidableEq, Repr

/-- `StanceFiniteStateMachine`, stance_finite_state_machine.h:277-283: `is_tds_started_`, `ss_states_to_termination_`,
`current_time_ms_`, `current_stance_`, `sfsm_params_`. -/
structure FSM where
  tdsStarted : Bool
  left : ℕ
  time : ℕ
  cur : Stance
  params : FSMParams
  deriving DecidableEq, Repr

namespace FSM

/-- Second switch of `StanceFiniteStateMachine::finalize`, stance_finite_state_machine.h:254-268: the stance before
the first double support, and the parameters after the switch. -/
def beforeDS (p : FSMParams) : Res (StanceType × FSMParams) :=
  match p.firstSsType with
  | .rss => .ok (.lss, p)
  | .lss => .ok (.rss, p)
  | .undefined => .ok (.undefined, { p with numSteps := 0 })
  | _ => .error .thrown

/-- First switch of `StanceFiniteStateMachine::finalize`, stance_finite_state_machine.h:247-274. -/
def beforeFirst (p : FSMParams) : Res (StanceType × FSMParams) :=
  match p.firstStance with
  | .lss => .ok (.lss, p)
  | .rss => .ok (.rss, p)
  | .ds => beforeDS p
  | _ => .error .thrown

/-- `StanceFiniteStateMachine::finalize`, stance_finite_state_machine.h:235-275, together with the constructor
(lines 399-403) when `cur` is `{}` and with `setParameters` (lines 299-303) when `cur` is the current stance. Only
`total_duration_ms_` of the current stance is not overwritten. -/
def finalize (cur : Stance) (p : FSMParams) : Res FSM := do
  assertThat (p.numSteps ≠ 1)
  let b ← beforeFirst p
  pure
    { tdsStarted := false
      left := p.numSteps
      time := 0
      cur := { cur with
        prevNonTds := .undefined, subtype := .first, type := p.firstStance, duration := p.firstMs, prevNonDs := b.1 }
      params := b.2 }

/-- `StanceFiniteStateMachine(sfsm_params)`, stance_finite_state_machine.h:399-403. -/
def construct (p : FSMParams) : Res FSM := finalize {} p

/-- The assignments `type_ = t; duration_ms_ = getDurationMs(t); current_time_ms_ = 0` of
`StanceFiniteStateMachine::shiftStance`, e.g. stance_finite_state_machine.h:442-444. -/
def enter (f : FSM) (t : StanceType) : Res FSM := do
  let d ← f.params.getDurationMs t
  pure { f with cur := { f.cur with type := t, duration := d }, time := 0 }

/-- Side of the next single support, the inner conditional of `StanceFiniteStateMachine::shiftStance`,
stance_finite_state_machine.h:471-486. -/
def enterSingle (f : FSM) : Res FSM :=
  if f.cur.prevNonDs = .lss then f.enter .rss
  else if f.cur.prevNonDs = .rss then f.enter .lss
  else .error .thrown

/-- `StanceFiniteStateMachine::shiftStance`, stance_finite_state_machine.h:431-511. -/
def shiftStance (f : FSM) : Res FSM :=
  let f := { f with tdsStarted := true, cur := { f.cur with subtype := .intermediate } }
  match f.cur.type with
  | .lss => { f with cur := { f.cur with prevNonDs := .lss, prevNonTds := .lss } }.enter .tds
  | .rss => { f with cur := { f.cur with prevNonDs := .rss, prevNonTds := .rss } }.enter .tds
  | .tds =>
    if f.left = 0 then { f with tdsStarted := false, cur := { f.cur with subtype := .last } }.enter .ds
    else { f with tdsStarted := false, left := f.left - 1 }.enterSingle
  | .ds =>
    if f.left = 0 then { f with cur := { f.cur with prevNonTds := .ds } }.enter .ds
    else { f with cur := { f.cur with prevNonTds := .ds } }.enter .tds
  | .undefined => .error .thrown

/-- `StanceFiniteStateMachine::getNextStance`, stance_finite_state_machine.h:383-388. -/
def getNextStance (f : FSM) : Res Stance := do
  let g ← f.shiftStance
  pure g.cur

/-- `StanceFiniteStateMachine::shiftTime`, stance_finite_state_machine.h:408-425. The loop may run forever, hence the
bound `fuel` on the number of iterations: `none` means that the loop is still running after `fuel` iterations. The
loop returns when the result is `some _` for some bound. -/
def shiftTime : (fuel : ℕ) → FSM → (t : ℕ) → Option (Res FSM)
  | _, f, 0 => some (.ok f)
  | 0, _, _ + 1 => none
  | fuel + 1, f, t + 1 =>
    if f.time + (t + 1) < f.cur.duration then
      shiftTime fuel { f with tdsStarted := false, time := f.time + (t + 1) } 0
    else
      match { f with tdsStarted := false }.shiftStance with
      | .error e => some (.error e)
      | .ok g => shiftTime fuel g (t + 1 - (f.cur.duration - f.time))

/-- The entry of `StanceFiniteStateMachine::previewStances` for the current stance,
stance_finite_state_machine.h:327-332. -/
def previewEntry (f : FSM) (duration : ℕ) : Stance :=
  { type := f.cur.type
    subtype := f.cur.subtype
    duration := min (f.cur.duration - f.time) duration
    total := f.cur.duration
    prevNonDs := f.cur.prevNonDs
    prevNonTds := f.cur.prevNonTds }

/-- The loop of `StanceFiniteStateMachine::previewStances`, stance_finite_state_machine.h:325-355, on a copy of the
machine. Returns the list, the copy and `not_enough_states`. `none`: still running after `fuel` iterations. -/
def previewLoop : (fuel : ℕ) → FSM → (duration : ℕ) → List Stance → Option (Res (List Stance × FSM × Bool))
  | _, f, 0, acc => some (.ok (acc, f, false))
  | 0, _, _ + 1, _ => none
  | fuel + 1, f, d + 1, acc =>
    if f.time + (d + 1) ≤ f.cur.duration then
      previewLoop fuel f 0 (acc ++ [f.previewEntry (d + 1)])
    else if f.left = 0 ∧ f.cur.type = .ds then
      some (.ok (acc, f, true))
    else
      match f.shiftStance with
      | .error e => some (.error e)
      | .ok g => previewLoop fuel g (d + 1 - (f.cur.duration - f.time)) (acc ++ [f.previewEntry (d + 1)])

/-- The state which is added after a transitional double support, stance_finite_state_machine.h:365-373. -/
def previewExtra (f : FSM) : Stance :=
  { type := f.cur.type
    subtype := f.cur.subtype
    duration := 0
    total := 0
    prevNonDs := f.cur.prevNonDs
    prevNonTds := f.cur.prevNonTds }

/-- The conditional shift before the additional state, stance_finite_state_machine.h:360-363. -/
def leaveTDS (f : FSM) : Res FSM := if f.cur.type = .tds then f.shiftStance else .ok f

/-- The part of `StanceFiniteStateMachine::previewStances` after the loop, stance_finite_state_machine.h:357-376.
`stance_types.back()` of an empty vector is undefined behaviour. -/
def previewFinish : List Stance × FSM × Bool → Res (List Stance)
  | (l, _, true) => .ok l
  | (l, f, false) =>
    match l.getLast? with
    | none => .error .ub
    | some s =>
      if s.type = .tds then
        match f.leaveTDS with
        | .error e => .error e
        | .ok g => .ok (l ++ [g.previewExtra])
      else .ok l

/-- `StanceFiniteStateMachine::previewStances`, stance_finite_state_machine.h:316-377. `const` method: the machine
itself is not among the results. -/
def previewStances (fuel : ℕ) (f : FSM) (duration : ℕ) : Option (Res (List Stance)) :=
  match previewLoop fuel f duration [] with
  | none => none
  | some (.error e) => some (.error e)
  | some (.ok r) => some (previewFinish r)

end FSM

end Humoto
