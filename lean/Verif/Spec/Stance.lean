import Verif.Model.Stance
import Mathlib.Algebra.BigOperators.Group.Finset.Basic
import Mathlib.Data.Finset.Range

/-!
# What a walk is

Sequences of stances, their durations and previews, without reference to the way the machine computes them.
-/

namespace Humoto.Spec

/-- Single support. -/
def IsSingle (t : StanceType) : Prop := t = .lss ∨ t = .rss

instance (t : StanceType) : Decidable (IsSingle t) := by unfold IsSingle; infer_instance

/-- The other single support. -/
def opposite : StanceType → StanceType
  | .lss => .rss
  | .rss => .lss
  | t => t

/-- A legal walk: the sequence begins with the given stance; a single support is followed by a transitional double
support; a transitional double support is followed by a single support or the terminal double support; two
consecutive single supports are on different sides; from some moment on there is only the terminal double support,
and no other double support than the initial one before that moment. -/
structure LegalWalk (first : StanceType) (w : ℕ → StanceType) : Prop where
  starts : w 0 = first
  afterSingle : ∀ k, IsSingle (w k) → w (k + 1) = .tds
  afterTransition : ∀ k, w k = .tds → IsSingle (w (k + 1)) ∨ w (k + 1) = .ds
  alternates : ∀ k, IsSingle (w k) → IsSingle (w (k + 2)) → w (k + 2) = opposite (w k)
  terminal : ∃ N, (∀ k, N ≤ k → w k = .ds) ∧ ∀ k, 0 < k → k < N → w k ≠ .ds
  defined : ∀ k, w k ≠ .undefined

/-- Number of single supports among the first `N` stances. -/
def singles (w : ℕ → StanceType) (N : ℕ) : ℕ := ((Finset.range N).filter fun k => IsSingle (w k)).card

/-- The machine runs through the states `s`, one transition after another. -/
def Run (f : FSM) (s : ℕ → FSM) : Prop := s 0 = f ∧ ∀ k, (s k).shiftStance = .ok (s (k + 1))

/-- As `Run`, for the first `n` transitions only. -/
def RunTo (f : FSM) (s : ℕ → FSM) (n : ℕ) : Prop := s 0 = f ∧ ∀ k < n, (s k).shiftStance = .ok (s (k + 1))

/-- The call `shiftTime(t)` returns with the given outcome. -/
def Returns (f : FSM) (t : ℕ) (r : Res FSM) : Prop := ∃ fuel, FSM.shiftTime fuel f t = some r

/-- The call `previewStances(d)` returns with the given outcome. -/
def PreviewReturns (f : FSM) (d : ℕ) (r : Res (List Stance)) : Prop := ∃ fuel, FSM.previewStances fuel f d = some r

/-- The same observable state except for the flag which announces the beginning of a transitional support. -/
def SameState (f g : FSM) : Prop := f.cur = g.cur ∧ f.left = g.left ∧ f.time = g.time ∧ f.params = g.params

/-- Time which is left in the current stance. -/
def remaining (f : FSM) : ℕ := f.cur.duration - f.time

/-- Parameters which are accepted and describe a walk. Excluded: an initial double support without the side of the
first step, but with a positive number of steps (see `C22_undefined_refuted`). -/
def Proper (p : FSMParams) : Prop := p.firstStance = .ds → p.firstSsType = .undefined → p.numSteps = 0

/-- States which can be reached from an initialised machine with the public operations. -/
inductive StanceReachable (c : Stance) (p : FSMParams) : FSM → Prop
  | init {f : FSM} : FSM.finalize c p = .ok f → StanceReachable c p f
  | shiftStance {f g : FSM} : StanceReachable c p f → f.shiftStance = .ok g → StanceReachable c p g
  | shiftTime {f g : FSM} {t : ℕ} : StanceReachable c p f → Returns f t (.ok g) → StanceReachable c p g

/-- The walk is over: only the terminal double support follows. -/
def Terminal (f : FSM) : Prop := f.cur.type = .ds ∧ f.left = 0

/-- A stance as it is shown in a preview: the current one with the given part of its duration. -/
def shown (f : FSM) (duration : ℕ) : Stance := { f.cur with duration := duration, total := f.cur.duration }

/-- A preview over `d` milliseconds which is covered by the walk: consecutive stances with the time which remains in
them, the last one cut so that the durations add up to `d`, only the last one may be the terminal one. If the last one is a transitional support, the stance
which follows it is added with zero duration. -/
def CompletePreview (f : FSM) (d : ℕ) (l : List Stance) : Prop :=
  ∃ (s : ℕ → FSM) (m x : ℕ) (extra : List Stance),
    RunTo f s m ∧
    l = (List.range m).map (fun i => shown (s i) (remaining (s i))) ++ [shown (s m) x] ++ extra ∧
    (∑ i ∈ Finset.range m, remaining (s i)) + x = d ∧ 0 < x ∧ x ≤ remaining (s m) ∧ (∀ i < m, ¬ Terminal (s i)) ∧
    ((s m).cur.type ≠ .tds → extra = []) ∧
    ((s m).cur.type = .tds → ∃ g, (s m).shiftStance = .ok g ∧ extra = [{ g.cur with duration := 0, total := 0 }])

/-- A preview over `d` milliseconds which exceeds the walk: all stances with the time which remains in them up to, but
without the terminal one. -/
def EndedPreview (f : FSM) (d : ℕ) (l : List Stance) : Prop :=
  ∃ (s : ℕ → FSM) (m : ℕ),
    RunTo f s m ∧
    l = (List.range m).map (fun i => shown (s i) (remaining (s i))) ∧
    Terminal (s m) ∧ (∑ i ∈ Finset.range m, remaining (s i)) + remaining (s m) < d ∧ ∀ i < m, ¬ Terminal (s i)

end Humoto.Spec
