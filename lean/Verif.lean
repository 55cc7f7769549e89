import Verif.Model.Basic
import Verif.Model.ActiveSet
import Verif.Model.Loop
import Verif.Model.Gram
import Verif.Model.Constraints
import Verif.Model.Level
import Verif.Spec.Constraints
import Verif.Spec.Level
import Verif.Spec.Objective
import Verif.Lemmas.Constraints
import Verif.Lemmas.Blocks
import Verif.Lemmas.Gram
import Verif.Lemmas.Objective
import Verif.Lemmas.Level
import Verif.Props.ActiveSet
import Verif.Props.Rows
import Verif.Props.Level
import Verif.Props.Bounds
import Verif.Props.Gram
import Verif.Props.Objective
import Verif.Props.Guess
import Verif.Model.Solution
import Verif.Props.Solution
import Verif.Model.Solver
import Verif.Props.Solver
import Verif.Model.BlockMat
import Verif.Model.Condense
import Verif.Spec.Condense
import Verif.Lemmas.Condense
import Verif.Lemmas.Condense2
import Verif.Props.Condense
import Verif.Model.Stance
import Verif.Spec.Stance
import Verif.Lemmas.Stance
import Verif.Lemmas.StanceTime
import Verif.Props.Stance
import Verif.Model.Eigentools
import Verif.Model.Kronecker
import Verif.Spec.Eigentools
import Verif.Lemmas.Paint
import Verif.Lemmas.Eigentools
import Verif.Lemmas.Kronecker
import Verif.Lemmas.Kronecker2
import Verif.Props.Eigentools
import Verif.Props.Kronecker
import Verif.Model.TripleIntegrator
import Verif.Spec.TripleIntegrator
import Verif.Lemmas.TripleIntegrator
import Verif.Props.TripleIntegrator
import Verif.Model.Trajectory
import Verif.Spec.Trajectory
import Verif.Lemmas.Trajectory
import Verif.Props.Trajectory
import Verif.Model.FootParameters
import Verif.Spec.FootParameters
import Verif.Props.FootParameters
import Verif.Model.Rotary
import Verif.Spec.Rotary
import Verif.Lemmas.Rotary
import Verif.Lemmas.Euler
import Verif.Props.Rotary
import Verif.Model.PointMass
import Verif.Spec.PointMass
import Verif.Props.PointMass
import Verif.Model.Kkt
import Verif.Spec.Kkt
import Verif.Lemmas.Kkt
import Verif.Props.Kkt
import Verif.Model.Logger
import Verif.Spec.Logger
import Verif.Lemmas.Logger
import Verif.Lemmas.LoggerLive
import Verif.Props.Logger
import Verif.Model.Config
import Verif.Spec.Config
import Verif.Lemmas.Config
import Verif.Props.Config
import Verif.Model.LogName
import Verif.Spec.LogName
import Verif.Lemmas.LogName
import Verif.Props.LogName
import Verif.Model.Bridges
import Verif.Spec.Bridges
import Verif.Lemmas.Bridges
import Verif.Props.Bridges
import Verif.Props.BridgesSolve
import Verif.Model.PepperModel
import Verif.Model.PepperHorizon
import Verif.Spec.Pepper
import Verif.Spec.PepperModel
import Verif.Lemmas.Pepper
import Verif.Lemmas.PepperModel
import Verif.Props.PepperHorizon
import Verif.Props.PepperModel
import Verif.Model.PepperMpc
import Verif.Spec.PepperMpc
import Verif.Lemmas.PepperMpc
import Verif.Props.PepperMpc
import Verif.Model.WpgModel
import Verif.Spec.Wpg
import Verif.Props.WpgModel
import Verif.Spec.WpgHorizon
import Verif.Spec.WpgMpc
import Verif.Spec.WpgNext
import Verif.Lemmas.WpgMpc
import Verif.Lemmas.WpgMatrices
import Verif.Lemmas.WpgMotion
import Verif.Lemmas.WpgRotations
import Verif.Lemmas.WpgUsable
import Verif.Props.WpgMpc
import Verif.Lemmas.WpgPreview
import Verif.Props.WpgHorizon
import Verif.Model.WpgHorizon
import Verif.Model.WpgMpc
import Verif.Lemmas.WpgHorizon
import Verif.Props.WpgNext
import Verif.Props.WpgWalk
import Verif.Spec.WpgLoop
import Verif.Props.WpgLoop
import Verif.Props.WpgPlan
import Verif.Model.TaskGeneric
import Verif.Spec.TaskGeneric
import Verif.Props.TaskGeneric
import Verif.Model.WpgTasks
import Verif.Spec.WpgTasks
import Verif.Lemmas.WpgTasks
import Verif.Lemmas.WpgTasks2
import Verif.Props.WpgTasks
import Verif.Model.WpgProblem
import Verif.Spec.WpgProblem
import Verif.Lemmas.WpgProblem
import Verif.Lemmas.WpgProblem2
import Verif.Lemmas.WpgProblem3
import Verif.Props.WpgProblem
import Verif.Model.QpoasesSolver
import Verif.Spec.QpoasesSolver
import Verif.Props.QpoasesSolver
import Verif.Lemmas.WpgSteps
import Verif.Lemmas.WpgGuess
import Verif.Model.WpgProgram
import Verif.Spec.WpgProgram
import Verif.Props.WpgProgram
import Verif.Props.WpgGuess
import Verif.Model.PepperTasks
import Verif.Model.PepperProblem
import Verif.Spec.PepperTasks
import Verif.Spec.PepperProblem
import Verif.Lemmas.PepperTasks
import Verif.Lemmas.Shape
import Verif.Lemmas.PepperProblem
import Verif.Props.PepperTasks
import Verif.Props.PepperProblem
import Verif.Model.PepperProgram
import Verif.Spec.PepperProgram
import Verif.Lemmas.PepperProgram
import Verif.Props.PepperProgram
import Verif.Model.PepperIk
import Verif.Spec.PepperIk
import Verif.Lemmas.PepperIk
import Verif.Props.PepperIk
import Verif.Model.Rbdl
import Verif.Spec.Rbdl
import Verif.Lemmas.Rbdl
import Verif.Props.Rbdl
import Verif.Model.IkTasks
import Verif.Spec.IkTasks
import Verif.Lemmas.IkTasks
import Verif.Props.IkTasks
import Verif.Model.IkProblem
import Verif.Model.IkProgram
import Verif.Spec.IkProblem
import Verif.Spec.IkProgram
import Verif.Lemmas.IkProblem
import Verif.Lemmas.IkProgram
import Verif.Props.IkProblem
import Verif.Props.IkProgram
import Verif.Model.ConfProblem
import Verif.Spec.ConfProblem
import Verif.Lemmas.ConfProblem
import Verif.Props.ConfProblem
import Verif.Model.ConfClasses
import Verif.Spec.ConfClasses
import Verif.Lemmas.ConfClasses
import Verif.Props.ConfClasses
import Verif.Model.PepperLoop
import Verif.Spec.PepperLoop
import Verif.Props.PepperLoop
import Verif.Spec.IkElimination
import Verif.Props.IkElimination
import Verif.Model.BlockObject
import Verif.Spec.BlockObject
import Verif.Lemmas.BlockObject
import Verif.Props.BlockObject
import Verif.Model.Diagnosis
import Verif.Spec.Diagnosis
import Verif.Props.Diagnosis
import Verif.Model.Time
import Verif.Spec.Time
import Verif.Lemmas.Time
import Verif.Props.Time
import Verif.Model.LogDest
import Verif.Spec.LogDest
import Verif.Lemmas.LogDest
import Verif.Props.LogDest
import Verif.Model.LogText
import Verif.Spec.LogText
import Verif.Lemmas.LogText
import Verif.Model.LogTree
import Verif.Spec.LogTree
import Verif.Lemmas.LogTree
import Verif.Lemmas.LogClear
import Verif.Props.LogTree
import Verif.Spec.LogRun
import Verif.Props.LogRun
import Verif.Spec.IkHistory
import Verif.Props.IkHistory
import Verif.Model.LogNumber
import Verif.Spec.LogNumber
import Verif.Lemmas.LogNumber
import Verif.Lemmas.LogDouble
import Verif.Props.LogNumber
import Verif.Model.WpgHotstart
import Verif.Spec.WpgHotstart
import Verif.Lemmas.WpgUnique
import Verif.Lemmas.WpgAgree
import Verif.Lemmas.WpgHotstart
import Verif.Props.WpgHotstart
import Verif.Lemmas.PepperUnique
import Verif.Spec.PepperHotstart
import Verif.Lemmas.PepperModerate
import Verif.Props.PepperHotstart
import Verif.Spec.PepperSymmetry
import Verif.Lemmas.PepperSymmetry
import Verif.Props.PepperSymmetry
import Verif.Spec.WpgSymmetry
import Verif.Lemmas.WpgSymmetry
import Verif.Lemmas.WpgSymmetry2
import Verif.Lemmas.WpgSymmetry3
import Verif.Props.WpgSymmetry
import Verif.Spec.WpgStability
import Verif.Lemmas.WpgStability
import Verif.Lemmas.WpgStability2
import Verif.Props.WpgStability
import Verif.Spec.WpgFeasible
import Verif.Lemmas.WpgFeasible
import Verif.Lemmas.WpgFeasible2
import Verif.Lemmas.WpgFeasible3
import Verif.Lemmas.WpgFeasible4
import Verif.Props.WpgFeasible
import Verif.Spec.WpgBalance
import Verif.Lemmas.WpgBalance
import Verif.Lemmas.WpgBalance2
import Verif.Props.WpgBalance
import Verif.Spec.PepperBetween
import Verif.Props.PepperBetween
import Verif.Spec.WpgApart
import Verif.Props.WpgApart
import Verif.Model.WpgHierarchies
import Verif.Spec.WpgHierarchies
import Verif.Props.WpgHierarchies
import Verif.Model.WpgPlain
import Verif.Spec.WpgPlain
import Verif.Lemmas.WpgPlain
import Verif.Lemmas.WpgPlainSolvers
import Verif.Props.WpgPlain
import Verif.Model.PepperPlain
import Verif.Spec.PepperPlain
import Verif.Lemmas.PepperPlain
import Verif.Lemmas.PepperPlainSolvers
import Verif.Props.PepperPlain
import Verif.Spec.IkCommands
import Verif.Props.IkCommands
import Verif.Props.Consistency
import Verif.Model.Performance
import Verif.Spec.Performance
import Verif.Props.Performance
