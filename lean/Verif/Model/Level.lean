import Verif.Model.Constraints

/-!
# Tasks, hierarchy levels and hierarchies (core/include/humoto/task.h, hierarchy_level.h, hierarchy.h, qp_problem.h)

`E` stands for everything the virtual function `form` of a task can look at besides the task itself: the structure of
the solution, the model and the control problem. Tasks are values, whereas the code holds shared pointers: a task which
is pushed twice, or to two levels, is not covered.
-/

namespace Humoto

/-- `TaskBase`, task.h:20-288. `formFn` is the virtual `form` of the derived class (task.h:188-190): it produces the new
matrices and says whether `markAsUnmodified` (task.h:204-207) was called. `guessFn` is an override of the virtual
`guessActiveSet` (task.h:147-175), if there is one; it gets the constraints and the actual active set and produces the
content of `active_set_guess_`. -/
structure Task (E K : Type) where
  ctr : Ctr K
  modified : Bool
  guess : ActiveSetC
  actual : ActiveSetC
  formFn : E → Ctr K → Res (CtrData K × Bool)
  guessFn : Option (E → Ctr K → ActiveSetC → Res ActiveSetC)

namespace Task

variable {E K : Type}

/-- `preForm`, task.h:44-50. -/
def preForm (t : Task E K) (nv : ℕ) : Task E K := { t with modified := true, ctr := { t.ctr with nvars := nv } }

/-- Call of the virtual `form`. -/
def form (t : Task E K) (env : E) : Res (Task E K) := do
  let (d, unmodified) ← t.formFn env t.ctr
  pure { t with ctr := { t.ctr with data := d }, modified := if unmodified then false else t.modified }

/-- `guessActiveSet`, default implementation, task.h:147-175. -/
def guessDefault (t : Task E K) : Res (Task E K) :=
  if t.modified ∨ t.actual.length = 0 then
    if t.ctr.ctype.isEquality then
      pure { t with guess := ActiveSetC.initWith t.ctr.numRows .equality }
    else
      pure { t with guess := ActiveSetC.initWith t.ctr.numRows .inactive }
  else do
    assertThat (t.ctr.numRows = t.actual.length)
    pure { t with guess := t.actual }

/-- Call of the virtual `guessActiveSet`. -/
def guessActiveSet (t : Task E K) (env : E) : Res (Task E K) :=
  match t.guessFn with
  | none => t.guessDefault
  | some f => do
    let g ← f env t.ctr t.actual
    pure { t with guess := g }

/-- `postForm`, task.h:57-71. -/
def postForm (t : Task E K) : Res Unit := do
  t.ctr.checkConsistency
  assertThat (t.guess.length = 0 ∨ t.guess.length = t.ctr.numRows)

/-- The conditional call of `guessActiveSet`, hierarchy_level.h:70-73. -/
def guessIf (t : Task E K) (env : E) (guessing : Bool) : Res (Task E K) :=
  if guessing then t.guessActiveSet env else pure t

/-- What the loop of `HierarchyLevel::form` does with one task, hierarchy_level.h:68-74. -/
def formAll (t : Task E K) (nv : ℕ) (env : E) (guessing : Bool) : Res (Task E K) := do
  let t1 ← (t.preForm nv).form env
  let t2 ← t1.guessIf env guessing
  t2.postForm
  pure t2

end Task

/-- `HierarchyLevel::TaskInfo`, hierarchy_level.h:201-226. -/
structure TaskInfo (E K : Type) where
  task : Task E K
  loc : Location

/-- `HierarchyLevel`, hierarchy_level.h:18-28, 235. -/
structure Level (E K : Type) where
  tasks : List (TaskInfo E K)
  nGeneral : ℕ
  nSimple : ℕ
  nEquality : ℕ
  nTwoSided : ℕ

namespace Level

variable {E K : Type}

/-- Constructor, hierarchy_level.h:243-246. -/
def empty : Level E K := ⟨[], 0, 0, 0, 0⟩

/-- `pushTask`, hierarchy_level.h:184-194; the location of a new task is `(0, 0)`. -/
def pushTask (L : Level E K) (t : Task E K) : Level E K :=
  if t.ctr.ctype.isSimple then { L with tasks := L.tasks ++ [⟨t, ⟨0, 0⟩⟩] }
  else { L with tasks := ⟨t, ⟨0, 0⟩⟩ :: L.tasks }

/-- The loop of `form`, hierarchy_level.h:64-101, over the remaining tasks; `L` carries the counters and the tasks which
are already formed. -/
def formLoop (nv : ℕ) (env : E) (guessing : Bool) : Level E K → List (TaskInfo E K) → Res (Level E K)
  | L, [] => pure L
  | L, ti :: rest => do
    let t ← ti.task.formAll nv env guessing
    let n := t.ctr.numRows
    let L1 := if t.ctr.ctype.isEquality then { L with nEquality := L.nEquality + n } else L
    let L2 := if t.ctr.ctype.isTwoSided then { L1 with nTwoSided := L1.nTwoSided + n } else L1
    let L3 :=
      if t.ctr.ctype.isSimple then
        { L2 with tasks := L2.tasks ++ [⟨t, ⟨L2.nSimple + L2.nGeneral, n⟩⟩], nSimple := L2.nSimple + n }
      else
        { L2 with tasks := L2.tasks ++ [⟨t, ⟨L2.nGeneral, n⟩⟩], nGeneral := L2.nGeneral + n }
    formLoop nv env guessing L3 rest

/-- `getNumberOfConstraints`, hierarchy_level.h:255-260. -/
def nConstraints (L : Level E K) : ℕ := L.nGeneral + L.nSimple

/-- `getNumberOfInequalityConstraints`, hierarchy_level.h:301-304; `std::size_t` subtraction. -/
def nInequality (L : Level E K) : ℕ := L.nConstraints - L.nEquality

/-- `getNumberOfInequalityConstraintsOneSided`, hierarchy_level.h:313-316. -/
def nInequalityOneSided (L : Level E K) : ℕ := L.nInequality + L.nTwoSided

/-- `isSimple`, hierarchy_level.h:324-327. -/
def isSimple (L : Level E K) : Bool := L.nConstraints = L.nSimple

/-- `isEquality`, hierarchy_level.h:334-337. -/
def isEquality (L : Level E K) : Bool := L.nConstraints = L.nEquality

/-- `form`, hierarchy_level.h:54-104. -/
def form (L : Level E K) (nv : ℕ) (env : E) (guessing : Bool) : Res (Level E K) := do
  assertThat (0 < L.tasks.length)
  let L' ← formLoop nv env guessing ⟨[], 0, 0, 0, 0⟩ L.tasks
  assertThat (0 < L'.nConstraints)
  pure L'

/-- `guessActiveSet`, hierarchy_level.h:113-121, with `TaskBase::copyActiveSetGuessTo`, task.h:95-100. -/
def guessActiveSet (L : Level E K) (s : ActiveSetC) : Res ActiveSetC :=
  L.tasks.foldlM (fun s ti => ActiveSetC.copyTo s ti.loc ti.task.guess) s

/-- `processActiveSet`, hierarchy_level.h:130-138, with `TaskBase::copyActualActiveSetFrom`, task.h:81-85. -/
def processActiveSet (L : Level E K) (s : ActiveSetC) : Res (Level E K) := do
  let ts ← L.tasks.mapM fun ti => do
    let a ← ActiveSetC.initFrom ti.task.actual s ti.loc
    pure ({ ti with task := { ti.task with actual := a } } : TaskInfo E K)
  pure { L with tasks := ts }

section

variable [Field K] [LinearOrder K]

/-- `determineActiveSet`, hierarchy_level.h:148-157. -/
def determineActiveSet (L : Level E K) (s : ActiveSetC) (x : Vec K) : Res ActiveSetC :=
  L.tasks.foldlM (fun s ti => ti.task.ctr.determineActiveSet s ti.loc x) s

/-- `computeViolations`, hierarchy_level.h:167-176. -/
def computeViolations (L : Level E K) (v : ViolationsC K) (x : Vec K) : Res (ViolationsC K) :=
  L.tasks.foldlM (fun v ti => ti.task.ctr.computeViolations v ti.loc x) v

end

variable [Field K]

/-- `getEqualityConstraints`, hierarchy_level.h:346-363. -/
def getEqualityConstraints (L : Level E K) (z : Junk K) (nv : ℕ) : Res (ContainerAB K) := do
  let (k, _) ← L.tasks.foldlM (fun (k, o) ti =>
    if ti.task.ctr.ctype.isEquality then ti.task.ctr.copyToAB k o else pure (k, o))
    (ContainerAB.reset z L.nEquality nv, 0)
  pure k

/-- `getInequalityConstraints`, hierarchy_level.h:372-389. -/
def getInequalityConstraints (L : Level E K) (z : Junk K) (nv : ℕ) : Res (ContainerAL K) := do
  let (k, _) ← L.tasks.foldlM (fun (k, o) ti =>
    if ¬ ti.task.ctr.ctype.isEquality then ti.task.ctr.copyToAL k o else pure (k, o))
    (ContainerAL.reset z L.nInequalityOneSided nv, 0)
  pure k

/-- `getAllConstraints`, hierarchy_level.h:398-414. -/
def getAllConstraints (L : Level E K) (z : Junk K) (nv : ℕ) : Res (ContainerALU K) := do
  let k0 := ContainerALU.reset z L.nConstraints nv
  if L.nConstraints > 0 then do
    let (k, _) ← L.tasks.foldlM (fun (k, o) ti => ti.task.ctr.copyToALU k o) (k0, 0)
    pure k
  else pure k0

/-- `getGeneralConstraints`, hierarchy_level.h:423-439: the loop stops at the first simple task. -/
def getGeneralConstraints (L : Level E K) (z : Junk K) (nv : ℕ) : Res (ContainerALU K) := do
  let k0 := ContainerALU.reset z L.nGeneral nv
  if L.nGeneral > 0 then do
    let (k, _) ← (L.tasks.takeWhile fun ti => ! ti.task.ctr.ctype.isSimple).foldlM
      (fun (k, o) ti => ti.task.ctr.copyToALU k o) (k0, 0)
    pure k
  else pure k0

/-- `getSimpleConstraints`, hierarchy_level.h:450-469. -/
def getSimpleConstraints (L : Level E K) (z : Junk K) (nv : ℕ) : Res (ContainerILU K) := do
  let k0 := ContainerILU.reset z L.nSimple nv
  if L.nSimple > 0 then do
    let (k, _) ← L.tasks.foldlM (fun (k, o) ti =>
      if ti.task.ctr.ctype.isSimple then ti.task.ctr.copyToILU k o else pure (k, o)) (k0, 0)
    pure k
  else pure k0

/-- `getObjective`, hierarchy_level.h:479-495: the first task assigns, the following ones add. `H0`, `g0` is the content of
the output arguments before the call; `z` is what `resize` leaves in the matrix. -/
def getObjective (L : Level E K) (z : ℕ → ℕ → K) (H0 : Mat K) (g0 : Vec K) : Res (Mat K × Vec K) :=
  match L.tasks with
  | [] => pure (H0, g0)
  | ti :: rest => do
    let Hg ← ti.task.ctr.getATAandATb z
    rest.foldlM (fun Hg ti => ti.task.ctr.addATAandATb Hg.1 Hg.2) Hg

end Level

/-! ### QP problems, qp_problem.h -/

/-- `QPObjective::HessianType`, qp_problem.h:29-35. -/
inductive HessianType
  | undefined | generic | diagonal | lowerTriangular
  deriving DecidableEq, Repr

/-- `QPObjective`, qp_problem.h:19-47 (without the status). -/
structure QPObjective (K : Type) where
  H : Mat K
  g : Vec K
  hessianType : HessianType

/-- `QPObjective::initializeObjective`, qp_problem.h:56-90. -/
def QPObjective.initialize {E K : Type} [Field K] (old : QPObjective K) (z : ℕ → ℕ → K) (L : Level E K)
    (initializeUpper : Bool) : Res (QPObjective K) := do
  assertThat (L.isEquality = true)
  assertThat (L.nConstraints > 0)
  let Hg ← L.getObjective z old.H old.g
  let g := Hg.2.neg
  if L.isSimple then
    if initializeUpper then do
      let H ← convertLLTtoSymmetric Hg.1
      pure ⟨H, g, .diagonal⟩
    else pure ⟨Hg.1, g, .diagonal⟩
  else
    if initializeUpper then do
      let H ← convertLLTtoSymmetric Hg.1
      pure ⟨H, g, .generic⟩
    else pure ⟨Hg.1, g, .lowerTriangular⟩

/-- `QPObjective::regularize`, qp_problem.h:168-176. -/
def QPObjective.regularize {K : Type} [Field K] (q : QPObjective K) (f : K) : Res (QPObjective K) := do
  let H ← forRange q.H.rows q.H fun H i => do
    let h ← H.get i i
    H.set i i (h + f)
  pure { q with H := H }

/-- `QPConstraints_ILU_ALU`, qp_problem.h:204-215. -/
structure QPConstraintsILUALU (K : Type) where
  general : ContainerALU K
  bounds : ContainerILU K
  lb : Vec K
  ub : Vec K

/-- `QPConstraints_ILU_ALU::initializeConstraints`, qp_problem.h:225-232. -/
def QPConstraintsILUALU.initialize {E K : Type} [Field K] [LinearOrder K] (z : Junk K) (L : Level E K) (nv : ℕ) :
    Res (QPConstraintsILUALU K) := do
  let general ← L.getGeneralConstraints z nv
  let bounds ← L.getSimpleConstraints z nv
  let (lb, ub) ← bounds.solutionBounds
  pure ⟨general, bounds, lb, ub⟩

/-- `QPConstraints_AB_AL`, qp_problem.h:302-307. -/
structure QPConstraintsABAL (K : Type) where
  eq : ContainerAB K
  ineq : ContainerAL K

/-- `QPConstraints_AB_AL::initializeConstraints`, qp_problem.h:316-321. -/
def QPConstraintsABAL.initialize {E K : Type} [Field K] (z : Junk K) (L : Level E K) (nv : ℕ) :
    Res (QPConstraintsABAL K) := do
  let eq ← L.getEqualityConstraints z nv
  let ineq ← L.getInequalityConstraints z nv
  pure ⟨eq, ineq⟩

/-- `QPConstraints_AB::initializeConstraints`, qp_problem.h:380-386. -/
def QPConstraintsAB.initialize {E K : Type} [Field K] (z : Junk K) (L : Level E K) (nv : ℕ) : Res (ContainerAB K) := do
  assertThat (L.isEquality = true)
  L.getEqualityConstraints z nv

/-! ### Hierarchies, hierarchy.h -/

/-- `OptimizationProblem`, hierarchy.h:20-26. `number_of_levels_` is the size of `hierarchy_`. -/
structure Hierarchy (E K : Type) where
  levels : List (Level E K)
  counts : List ℕ

namespace Hierarchy

variable {E K : Type}

/-- `reset`, hierarchy.h:238-246: the levels are cleared, the counters are resized only, i.e. old values survive. -/
def reset (P : Hierarchy E K) (n : ℕ) : Hierarchy E K :=
  ⟨List.replicate n Level.empty, P.counts.take n ++ List.replicate (n - P.counts.length) 0⟩

/-- `pushTask`, hierarchy.h:91-96. -/
def pushTask (P : Hierarchy E K) (t : Task E K) (i : ℕ) : Res (Hierarchy E K) :=
  match P.levels[i]? with
  | some L => pure { P with levels := P.levels.set i (L.pushTask t) }
  | none => .error .thrown

/-- `formHierarchy`, hierarchy.h:39-54, after `initSolutionStructure`; `nv` is the number of variables. The lists `levels`
and `counts` have the same length. -/
def form (P : Hierarchy E K) (nv : ℕ) (env : E) (guessing : Bool) : Res (Hierarchy E K) := do
  assertThat (0 < P.levels.length)
  let Ls ← P.levels.mapM fun L => L.form nv env guessing
  pure ⟨Ls, Ls.map Level.nConstraints⟩

/-- `guessActiveSet`, hierarchy.h:62-70. -/
def guessActiveSet (P : Hierarchy E K) : Res ActiveSetH := do
  let s ← ActiveSetH.init P.levels.length P.counts
  (s.zip P.levels).mapM fun (s, L) => L.guessActiveSet s

/-- `processActiveSet`, hierarchy.h:181-190. -/
def processActiveSet (P : Hierarchy E K) (s : ActiveSetH) : Res (Hierarchy E K) := do
  assertThat (s.length = P.levels.length)
  let Ls ← (s.zip P.levels).mapM fun (s, L) => L.processActiveSet s
  pure { P with levels := Ls }

/-- `determineActiveSet`, hierarchy.h:202-211. -/
def determineActiveSet [Field K] [LinearOrder K] (P : Hierarchy E K) (x : Vec K) : Res ActiveSetH := do
  let s ← ActiveSetH.init P.levels.length P.counts
  (s.zip P.levels).mapM fun (s, L) => L.determineActiveSet s x

/-- `getQPProblem`, hierarchy.h:328-347. `initConstraints` is the `initializeConstraints` of the constraint container; the
container `old` is left alone when there is only one level. -/
def getQPProblem [Field K] {C : Type} (P : Hierarchy E K) (z : ℕ → ℕ → K) (initConstraints : Level E K → Res C)
    (oldObjective : QPObjective K) (oldConstraints : C) (initializeUpper : Bool) : Res (QPObjective K × C) := do
  assertThat (P.levels.length ≤ 2 ∧ P.levels.length ≥ 1)
  match P.levels with
  | [L] => do
    let q ← QPObjective.initialize oldObjective z L initializeUpper
    pure (q, oldConstraints)
  | [L0, L1] => do
    let q ← QPObjective.initialize oldObjective z L1 initializeUpper
    let c ← initConstraints L0
    pure (q, c)
  | _ => .error .ub

end Hierarchy

end Humoto
