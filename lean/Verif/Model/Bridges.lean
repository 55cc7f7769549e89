import Verif.Model.Solver

/-!
# Interfaces to QP solvers

bridges/qpOASES/interface/qpoases/solver.h, bridges/QuadProgpp/interface/quadprogpp/solver.h,
bridges/qpmad/interface/qpmad/solver.h. The solvers themselves are parameters: functions from the arguments which they are given
to what they return. Options of the solvers (iteration and time limits) and initial guesses of the solution do not appear among
the arguments.
-/

namespace Humoto.Bridge

variable {E K : Type}

/-! ## QuadProg++ -/

/-- Arguments of `QuadProgpp::Solver::solve`, QuadProgpp/solver.h:81-87. -/
structure QuadProgArgs (K : Type) where
  G : Mat K
  g0 : Vec K
  CE : Mat K
  ce0 : Vec K
  CI : Mat K
  ci0 : Vec K

/-- `QuadProgpp::Status::OK` or something else. -/
inductive QuadProgStatus
  | ok
  | failure
  deriving DecidableEq

/-- `initialize`, QuadProgpp/solver.h:62-66; `old` is the problem left by the previous call. -/
def quadprogInitialize [Field K] (z : ℕ → ℕ → K) (zc : Junk K) (old : QPObjective K × QPConstraintsABAL K)
    (P : Hierarchy E K) (nv : ℕ) : Res (QPObjective K × QPConstraintsABAL K) :=
  P.getQPProblem z (fun L => QPConstraintsABAL.initialize zc L nv) old.1 old.2 true

/-- Check and regularization, QuadProgpp/solver.h:74-80, qpmad/solver.h:104-110. -/
def regularizeIf [Field K] [LinearOrder K] (reg : K) (q : QPObjective K) : Res (QPObjective K) := do
  assertThat (0 ≤ reg)
  if reg > 0 then q.regularize reg else pure q

/-- The arguments, QuadProgpp/solver.h:82-87. -/
def quadprogArgs [Field K] (q : QPObjective K) (c : QPConstraintsABAL K) : QuadProgArgs K :=
  ⟨q.H, q.g, c.eq.A.transpose, c.eq.b.neg, c.ineq.A.transpose, c.ineq.lb.neg⟩

/-- `solveHierarchy`, QuadProgpp/solver.h:71-100. -/
def quadprogSolve [Field K] [LinearOrder K] (ext : QuadProgArgs K → QuadProgStatus × List K) (reg : K)
    (q : QPObjective K × QPConstraintsABAL K) (sol : Solution K) : Res (Solution K) := do
  let o ← regularizeIf reg q.1
  let r := ext (quadprogArgs o q.2)
  pure { sol with x := r.2, status := if r.1 = .ok then .ok else .other }

/-! ## qpmad -/

/-- Arguments of `qpmad::Solver::solve`, qpmad/solver.h:112-120. -/
structure QpmadArgs (K : Type) where
  H : Mat K
  h : Vec K
  lb : Vec K
  ub : Vec K
  A : Mat K
  Alb : Vec K
  Aub : Vec K

/-- `qpmad::Solver::ReturnStatus`. -/
inductive QpmadStatus
  | ok
  | maximalNumberOfIterations
  | other
  deriving DecidableEq

/-- `initialize`, qpmad/solver.h:92-96: the upper triangle of the Hessian is not initialised. -/
def qpmadInitialize [Field K] [LinearOrder K] (z : ℕ → ℕ → K) (zc : Junk K)
    (old : QPObjective K × QPConstraintsILUALU K) (P : Hierarchy E K) (nv : ℕ) :
    Res (QPObjective K × QPConstraintsILUALU K) :=
  P.getQPProblem z (fun L => QPConstraintsILUALU.initialize zc L nv) old.1 old.2 false

/-- The arguments, qpmad/solver.h:113-120. -/
def qpmadArgs (q : QPObjective K) (c : QPConstraintsILUALU K) : QpmadArgs K :=
  ⟨q.H, q.g, c.lb, c.ub, c.general.A, c.general.lb, c.general.ub⟩

/-- The switch, qpmad/solver.h:123-134. -/
def qpmadStatus : QpmadStatus → SolverStatus
  | .ok => .ok
  | .maximalNumberOfIterations => .maxIter
  | .other => .other

/-- `solveHierarchy`, qpmad/solver.h:101-147. -/
def qpmadSolve [Field K] [LinearOrder K] (ext : QpmadArgs K → QpmadStatus × List K) (reg : K)
    (q : QPObjective K × QPConstraintsILUALU K) (sol : Solution K) : Res (Solution K) := do
  let o ← regularizeIf reg q.1
  let r := ext (qpmadArgs o q.2)
  pure { sol with x := r.2, status := qpmadStatus r.1 }

/-! ## qpOASES -/

/-- Arguments of `qpOASES::QProblem::QProblem` and `init`, qpOASES/solver.h:174-176, 243-256: sizes and pointers to the elements;
`none` is a null pointer. -/
structure QpoasesArgs (K : Type) where
  nV : ℕ
  nC : ℕ
  H : ℕ → K
  g : ℕ → K
  A : Option (ℕ → K)
  lb : Option (ℕ → K)
  ub : Option (ℕ → K)
  lbA : Option (ℕ → K)
  ubA : Option (ℕ → K)

/-- `returnValue` of qpOASES. -/
inductive QpoasesStatus
  | successfulReturn
  | maxNwsrReached
  | other
  deriving DecidableEq

/-- The data of a matrix in the default order of Eigen: by columns. -/
def colMajor (M : Mat K) : ℕ → K := fun k => M.e (k % M.rows) (k / M.rows)

/-- The data of a matrix which is stored by rows (`A_rm`, qpOASES/solver.h:192, 220). -/
def rowMajor (M : Mat K) : ℕ → K := fun k => M.e (k / M.cols) (k % M.cols)

/-- `initialize`, qpOASES/solver.h:166-178. -/
def qpoasesInitialize [Field K] [LinearOrder K] (z : ℕ → ℕ → K) (zc : Junk K)
    (old : QPObjective K × QPConstraintsILUALU K) (P : Hierarchy E K) (nv : ℕ) :
    Res (QPObjective K × QPConstraintsILUALU K) :=
  P.getQPProblem z (fun L => QPConstraintsILUALU.initialize zc L nv) old.1 old.2 true

/-- The arguments, qpOASES/solver.h:174-176, 208-256. -/
def qpoasesArgs (nv : ℕ) (q : QPObjective K × QPConstraintsILUALU K) : QpoasesArgs K where
  nV := nv
  nC := q.2.general.A.rows
  H := colMajor q.1.H
  g := q.1.g.e
  A := if q.2.general.A.rows > 0 then some (rowMajor q.2.general.A) else none
  lb := if q.2.bounds.idx.n > 0 then some q.2.lb.e else none
  ub := if q.2.bounds.idx.n > 0 then some q.2.ub.e else none
  lbA := if q.2.general.A.rows > 0 then some q.2.general.lb.e else none
  ubA := if q.2.general.A.rows > 0 then some q.2.general.ub.e else none

/-- The switch, qpOASES/solver.h:262-273. -/
def qpoasesStatus : QpoasesStatus → SolverStatus
  | .successfulReturn => .ok
  | .maxNwsrReached => .maxIter
  | .other => .other

/-- `solveHierarchy`, qpOASES/solver.h:182-291; `getPrimalSolution` writes `nV` numbers in the vector of the solution
(line 259). -/
def qpoasesSolve (ext : QpoasesArgs K → QpoasesStatus × (ℕ → K)) (q : QPObjective K × QPConstraintsILUALU K)
    (sol : Solution K) : Res (Solution K) := do
  let r := ext (qpoasesArgs sol.structure_.nvars q)
  require (sol.structure_.nvars ≤ sol.x.length)
  pure { sol with
    x := (List.range sol.structure_.nvars).map r.2 ++ sol.x.drop sol.structure_.nvars
    status := qpoasesStatus r.1 }

/-- `active_set[l][i] = a`, active_set.h:71-76, 307-311. -/
def setEntry (s : ActiveSetH) (l i : ℕ) (a : Act) : Res ActiveSetH :=
  match s[l]? with
  | some c => do
    let c' ← ActiveSetC.setAt c i a
    pure (s.set l c')
  | none => .error .thrown

/-- `active_set[l][i]`, active_set.h:56-61, 292-296. -/
def getEntry (s : ActiveSetH) (l i : ℕ) : Res Act :=
  match s[l]? with
  | some c => ActiveSetC.get c i
  | none => .error .thrown

section

variable [Field K] [LinearOrder K]

/-- Activation of a general constraint, qpOASES/solver.h:329-351. -/
def constraintActivation (w : K) : Res Act :=
  if w = -1 then .ok .lowerBound
  else if w = 0 then .ok .inactive
  else if w = 1 then .ok .upperBound
  else .error .thrown

/-- Activation of row `i` of the simple constraints, qpOASES/solver.h:355-393. -/
def boundActivation (c : QPConstraintsILUALU K) (wb : Vec K) (i : ℕ) : Res Act := do
  let v ← c.bounds.idx.get i
  let w ← wb.get v
  if w = -1 then do
    let row ← c.bounds.lb.get i
    let lb ← c.lb.get v
    if row < lb then pure .inactive else pure .lowerBound
  else if w = 0 then pure .inactive
  else if w = 1 then do
    let row ← c.bounds.ub.get i
    let ub ← c.ub.get v
    if row > ub then pure .inactive else pure .upperBound
  else .error .thrown

/-- `getActiveSet`, qpOASES/solver.h:296-394; `wb` and `wc` are the working sets returned by qpOASES
(`getWorkingSetBounds`, `getWorkingSetConstraints`, lines 299-309). -/
def getActiveSet (c : QPConstraintsILUALU K) (wb wc : ℕ → K) (P : Hierarchy E K) : Res ActiveSetH := do
  let nC := c.general.A.rows
  let nS := c.bounds.idx.n
  let s ← ActiveSetH.init P.levels.length P.counts
  let s ← ActiveSetH.setLevel s (if 0 = nC + nS then 0 else 1) .equality
  let s ← forRange nC s fun s i => do
    let a ← constraintActivation (wc i)
    setEntry s 0 i a
  forRange nS s fun s i => do
    let a ← boundActivation c ⟨c.bounds.nvars, wb⟩ i
    setEntry s 0 (nC + i) a

end

/-- `SubjectToStatus` of qpOASES. -/
inductive Status
  | lower
  | inactive
  | upper
  | undefined
  deriving DecidableEq

/-- Status of a general constraint in the guess, qpOASES/solver.h:413-433. -/
def constraintStatus : Act → Res Status
  | .lowerBound => .ok .lower
  | .inactive => .ok .inactive
  | .upperBound => .ok .upper
  | .equality => .ok .lower
  | .undefined => .error .thrown

/-- Change of the status of a variable, qpOASES/solver.h:440-462: nothing is done if the bound is not active. -/
def setBoundStatus (g : Vec Status) (v : ℕ) : Act → Res (Vec Status)
  | .lowerBound => g.set v .lower
  | .inactive => .ok g
  | .upperBound => g.set v .upper
  | .equality => g.set v .lower
  | .undefined => .error .thrown

/-- `setActiveSet`, qpOASES/solver.h:404-463: the guess for constraints and the guess for bounds. `setupBound` and
`setupConstraint` of qpOASES set the status of the given element. -/
def setActiveSet (c : QPConstraintsILUALU K) (s : ActiveSetH) : Res (Vec Status × Vec Status) := do
  let nC := c.general.A.rows
  let gc ← forRange nC (⟨nC, fun _ => .undefined⟩ : Vec Status) fun g i => do
    let a ← getEntry s 0 i
    let st ← constraintStatus a
    g.set i st
  let gb ← forRange c.bounds.idx.n (⟨c.bounds.nvars, fun _ => .inactive⟩ : Vec Status) fun g i => do
    let v ← c.bounds.idx.get i
    let a ← getEntry s 0 (nC + i)
    setBoundStatus g v a
  pure (gc, gb)

end Humoto.Bridge
