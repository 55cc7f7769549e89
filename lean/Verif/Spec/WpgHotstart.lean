import Verif.Spec.WpgProgram
import Verif.Model.WpgHotstart

/-!
# What is expected of hot starting in the walking program
-/

namespace Humoto.Spec.Wpg

open Humoto.Wpg Humoto.Bridge

/-- Two horizons say the same: they may differ only in memory beyond the intervals. -/
structure SameHorizon (H H' : Horizon) : Prop where
  steps : H'.variable_steps = H.variable_steps
  states : H'.walk_states = H.walk_states
  size : H'.intervals.n = H.intervals.n
  intervals : ∀ i < H.intervals.n, H'.intervals.e i = H.intervals.e i

/-- An iteration of the program with the given hot starting ends with the given outcome: `.ok none` if the loop is left. -/
def StepReturns (v : Hotstart) (ext : Qpoases ℝ) (nan : ℝ) (T : ℕ) (u : Memory) (w : WalkParameters) (s : Program)
    (r : Res (Option Program)) : Prop := ∃ fuel, s.iterateAs v ext fuel nan T u w = some r

/-- The program ends with the given outcome, when the timers show `clock`. -/
def RunReturns (v : Hotstart) (ext : Qpoases ℝ) (nan : ℝ) (T : ℕ) (u : ℕ → Memory) (w : WalkParameters) (clock : ℕ → Fin 3 → ℝ)
    (s : Program) (r : Res (Program × List (Fin 3 → ℝ))) : Prop := ∃ fuel left, s.runAs v ext fuel nan T u w clock left = some r

/-- States of the program after `n` iterations, of which the iteration `i` has the parameters of the walk `w i`; what is in memory may be
different in each of them. -/
inductive RunAfter (v : Hotstart) (ext : Qpoases ℝ) (nan : ℝ) (T : ℕ) (w : ℕ → WalkParameters) (s : Program) : ℕ → Program → Prop
  | start : RunAfter v ext nan T w s 0 s
  | step {n : ℕ} {a b : Program} {u : Memory} : RunAfter v ext nan T w s n a → StepReturns v ext nan T u (w n) a (.ok (some b)) →
      RunAfter v ext nan T w s (n + 1) b

/-- Why a run was stopped by an exception: at some iteration either there was no allowed motion or qpOASES has failed. -/
def StoppedAs (v : Hotstart) (ext : Qpoases ℝ) (o : ProblemSetup) (nan : ℝ) (T : ℕ) (w : WalkParameters) (s0 : Program)
    (u : ℕ → Memory) : Prop :=
  ∃ n s mpc, RunAfter v ext nan T (fun _ => w) s0 n s ∧
    UpdateReturns nan (u n).horizon (u n).matrices (u n).indices s.model s.fsm w s.mpc (.ok (mpc, .ok)) ∧
    ((∀ x, ModerateSolution mpc.horizon x → ¬ AllowedMotion o mpc.horizon s.model x) ∨ SolverFails ext o mpc.horizon s.model)

/-- The cost has one minimum: it depends on the position of the centre of pressure, and on the steps if they are variable. -/
def OneMinimum (o : ProblemSetup) : Prop := o.copPositionGain ≠ 0 ∧ (o.fixed = true ∨ o.comVelocityGain ≠ 0)

/-- Feet which are not larger than the library infinity. -/
def FeetBelowInfinity (p : FootParameters ℝ) : Prop := p.footLength ≤ 10 ^ 20 ∧ p.footWidth + p.feetDistDefault ≤ 10 ^ 20

/-- The robot and the machine are in the same state in two programs. -/
structure SameWalk (s s' : Program) : Prop where
  model : s'.model = s.model
  machine : s'.fsm = s.fsm

/-- `A` consists of the averages of the measures `clock 0`, ..., `clock (n - 1)` of `m` iterations each. -/
structure Averages (clock : ℕ → ℕ → Fin 3 → ℝ) (n m : ℕ) (A : Mat ℝ) : Prop where
  size : A.rows = 3 ∧ A.cols = m
  value : ∀ (r : Fin 3) (i : ℕ), i < m → n * A.e r i = ∑ k ∈ Finset.range n, clock k i r

end Humoto.Spec.Wpg
