import Verif.Model.Kkt

/-!
# Violations and active sets of a whole hierarchy

`core/include/humoto/violations.h`, `OptimizationProblem::computeViolations` and the comparison of active sets in the tests of
pepper_mpc.
-/

namespace Humoto

variable {K : Type}

/-- Contents of memory which is not initialised, for the three vectors of a level. -/
abbrev ViolationsJunk (K : Type) := (ℕ → K) × (ℕ → K) × (ℕ → K)

namespace ViolationsC

/-- `operator[]`, violations.h:33-38. -/
def get (v : ViolationsC K) (i : ℕ) : Res K := do
  assertThat (i < v.data.n)
  v.data.get i

/-- `getLower`, violations.h:48-53. -/
def getLower (v : ViolationsC K) (i : ℕ) : Res K := do
  assertThat (i < v.lower.n)
  v.lower.get i

/-- `getUpper`, violations.h:57-62. -/
def getUpper (v : ViolationsC K) (i : ℕ) : Res K := do
  assertThat (i < v.upper.n)
  v.upper.get i

/-- `setZero()`, violations.h:116-121. -/
def setZero [Zero K] (v : ViolationsC K) : ViolationsC K :=
  ⟨Vec.const v.data.n 0, Vec.const v.lower.n 0, Vec.const v.upper.n 0⟩

/-- `setZero(location)`, violations.h:130-137. -/
def setZeroAt [Zero K] (v : ViolationsC K) (l : Location) : Res (ViolationsC K) := do
  assertThat (l.checkLength v.data.n = true)
  let d ← v.data.setSegment l.offset l.length (Vec.const l.length 0)
  let lo ← v.lower.setSegment l.offset l.length (Vec.const l.length 0)
  let up ← v.upper.setSegment l.offset l.length (Vec.const l.length 0)
  pure ⟨d, lo, up⟩

/-- `copyTo(location, other)`, violations.h:146-154; Eigen requires equal sizes. -/
def copyTo (v : ViolationsC K) (l : Location) (other : ViolationsC K) : Res (ViolationsC K) := do
  assertThat (l.checkLength v.data.n = true)
  let d ← v.data.setSegment l.offset l.length other.data
  let lo ← v.lower.setSegment l.offset l.length other.lower
  let up ← v.upper.setSegment l.offset l.length other.upper
  pure ⟨d, lo, up⟩

/-- `copyFrom(other, location)`, violations.h:163-172. -/
def copyFrom (v : ViolationsC K) (other : ViolationsC K) (l : Location) : Res (ViolationsC K) := do
  assertThat (l.checkLength other.data.n = true)
  assertThat (l.length = v.data.n)
  let d ← other.data.segment l.offset l.length
  let lo ← other.lower.segment l.offset l.length
  let up ← other.upper.segment l.offset l.length
  pure ⟨d, lo, up⟩

/-- `initialize(number_of_constraints)`, violations.h:202-207: the entries are not initialised. -/
def raw (n : ℕ) (junk : ViolationsJunk K) : ViolationsC K := ⟨⟨n, junk.1⟩, ⟨n, junk.2.1⟩, ⟨n, junk.2.2⟩⟩

/-- `initialize(other, location)`, violations.h:181-194. -/
def initFrom (v : ViolationsC K) (other : ViolationsC K) (l : Location) (junk : ViolationsJunk K) : Res (ViolationsC K) := do
  assertThat (l.checkLength other.data.n = true)
  if v.data.n ≠ l.length then (raw l.length junk).copyFrom other l else v.copyFrom other l

end ViolationsC

/-- `Violations`, violations.h:233-237: one vector for each level. -/
abbrev ViolationsH (K : Type) := List (ViolationsC K)

namespace ViolationsH

/-- `operator[]`, violations.h:248-252, 262-266. -/
def level (v : ViolationsH K) (i : ℕ) : Res (ViolationsC K) :=
  match v[i]? with
  | some l => .ok l
  | none => .error .thrown

/-- `setZero(level_index)`, violations.h:274-278. -/
def setZero [Zero K] (v : ViolationsH K) (i : ℕ) : Res (ViolationsH K) := do
  let l ← v.level i
  pure (v.set i l.setZero)

/-- `initialize(number_of_levels, number_of_constraints)`, violations.h:307-317, with `reset`, 295-298. Reading
`number_of_constraints[i]` beyond its end is undefined behaviour. -/
def init (levels : ℕ) (counts : List ℕ) (junk : ℕ → ViolationsJunk K) : Res (ViolationsH K) := do
  require (levels ≤ counts.length)
  pure ((counts.take levels).mapIdx fun i n => ViolationsC.raw n (junk i))

end ViolationsH

namespace Hierarchy

variable {E : Type} [Field K] [LinearOrder K]

/-- `computeViolations`, hierarchy.h:221-230. -/
def computeViolations (P : Hierarchy E K) (junk : ℕ → ViolationsJunk K) (x : Vec K) : Res (ViolationsH K) := do
  let v ← ViolationsH.init P.levels.length P.counts junk
  (v.zip P.levels).mapM fun (v, L) => L.computeViolations v x

end Hierarchy

/-! ## Comparison of active sets in tests -/

section

variable [Field K] [LinearOrder K]

/-- Whether an entry is counted as a mismatch, modules/pepper_mpc/tests/regression_test_001.cpp:151-175, test_005.cpp:178-216: `determined` is
found from the solution, `actual` is given by the solver. The case of the lower bound falls through. -/
def countsAsMismatch (determined actual : Act) (lower upper : K) : Bool :=
  if determined ≠ actual then
    if ¬ (determined = .equality ∧ actual = .lowerBound) then
      match actual with
      | .lowerBound => if |lower| < 1 / 10 ^ 10 then false else if |upper| < 1 / 10 ^ 10 then false else true
      | .upperBound => if |upper| < 1 / 10 ^ 10 then false else true
      | _ => true
    else false
  else false

/-- The loops, regression_test_001.cpp:147-184, without the other solver. Simplification: differences are read for each entry, while the code
reads them when the entries are different. -/
def countMismatches (determined actual : ActiveSetH) (v : ViolationsH K) : Res ℕ :=
  forRange actual.length 0 fun n l => do
    let a := actual.getD l []
    forRange a.length n fun n k => do
      let ak ← ActiveSetC.get a k
      let d ← (match determined[l]? with | some d => .ok d | none => .error .thrown)
      let dk ← ActiveSetC.get d k
      let vl ← v.level l
      let lo ← vl.getLower k
      let up ← vl.getUpper k
      pure (if countsAsMismatch dk ak lo up = true then n + 1 else n)

end

end Humoto
