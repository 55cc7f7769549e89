import Verif.Model.Basic
import Verif.Model.LogName

/-!
# Average times of simulations, core/tests_include/solver_performance_test.h
-/

namespace Humoto.Performance

open LogName

variable {K : Type} [Field K]

/-- The three times measured in an iteration: to form the problem, to solve it, the full loop (`Eigen::Vector3d`). -/
abbrev Measure (K : Type) := Fin 3 → K

/-- `all_measures[i]`, solver_performance_test.h:49-53: a column for each iteration. -/
def toMatrix (measures : List (Measure K)) : Mat K :=
  ⟨3, measures.length, fun r c => if h : r < 3 then measures.getD c 0 ⟨r, h⟩ else 0⟩

/-- `+=` for matrices, which must have equal sizes (Eigen asserts it only in debug builds). -/
def addTo (S A : Mat K) : Res (Mat K) := do
  require (S.rows = A.rows ∧ S.cols = A.cols)
  pure ⟨S.rows, S.cols, fun r c => S.e r c + A.e r c⟩

/-- `all_measures_sum`, solver_performance_test.h:59-63. -/
def sum : List (Mat K) → Res (Mat K)
  | [] => .error .ub
  | A :: l => l.foldlM addTo A

/-- `LogEntryName(log_prefix).add(hotstart_type).add(name)`. -/
def entryName (log_prefix hotstart_type : Str) (name : String) : Str :=
  add (add log_prefix (.name hotstart_type)) (.name name.toList)

/-- `nfactor * all_measures_sum.row(r)`. -/
def scaledRow (nfactor : K) (S : Mat K) (r : ℕ) : Vec K := ⟨S.cols, fun c => nfactor * S.e r c⟩

/-- `SolverPerformanceMultiRun::run`, solver_performance_test.h:33-73: the entries of the log. `runs i` is the outcome of the simulation `i`
(`initialize` and `run` of a new object). The dots written to the standard output are not modelled. -/
def multiRun (n_of_simulations : ℕ) (runs : ℕ → Res (List (Measure K))) (log_prefix hotstart_type : Str) : Res (List (Str × Vec K)) := do
  let all_measures ← (List.range n_of_simulations).mapM fun i => do
    let measures ← runs i
    pure (toMatrix measures)
  let S ← sum all_measures
  let nfactor : K := 1 / (n_of_simulations : K)
  pure
    [(entryName log_prefix hotstart_type "average_time_to_form_the_problem", scaledRow nfactor S 0),
     (entryName log_prefix hotstart_type "average_time_to_solve_the_problem", scaledRow nfactor S 1),
     (entryName log_prefix hotstart_type "average_time_to_run_full_loop", scaledRow nfactor S 2)]

end Humoto.Performance
