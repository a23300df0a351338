import Verif.Model.Basic
import Verif.Model.Commands
import Verif.Model.Factor
import Verif.Model.Files
import Verif.Model.Goroutines
import Verif.Model.Logic
import Verif.Model.Machine
import Verif.Model.MachineSolver
import Verif.Model.Memory
import Verif.Model.Network
import Verif.Model.Strings
import Verif.Model.TrainCsv
import Verif.Model.Training
import Verif.Model.Tui
import Verif.Model.TuiApp
import Verif.Model.TuiPages
import Verif.Model.TuiSolve
import Verif.Model.VE
import Verif.Model.Variables
import Verif.Spec.Absorb
import Verif.Spec.Acyclic
import Verif.Spec.Again
import Verif.Spec.Arrow
import Verif.Spec.Aside
import Verif.Spec.Box
import Verif.Spec.Canvas
import Verif.Spec.Circuit
import Verif.Spec.Colors
import Verif.Spec.Commands
import Verif.Spec.Concurrent
import Verif.Spec.Cost
import Verif.Spec.Decide
import Verif.Spec.Degree
import Verif.Spec.Each
import Verif.Spec.ExtNum
import Verif.Spec.Files
import Verif.Spec.Forgotten
import Verif.Spec.Gains
import Verif.Spec.Informed
import Verif.Spec.Iso
import Verif.Spec.Likelihood
import Verif.Spec.Logic
import Verif.Spec.Malformed
import Verif.Spec.Memory
import Verif.Spec.Merge
import Verif.Spec.Mix
import Verif.Spec.Near
import Verif.Spec.NetOptimal
import Verif.Spec.NetPolicy
import Verif.Spec.Network
import Verif.Spec.NewNet
import Verif.Spec.Options
import Verif.Spec.Policy
import Verif.Spec.Recall
import Verif.Spec.Replace
import Verif.Spec.RoundedPolicy
import Verif.Spec.Rounding
import Verif.Spec.SameInfo
import Verif.Spec.SameJoint
import Verif.Spec.Screen
import Verif.Spec.Separation
import Verif.Spec.Settle
import Verif.Spec.Shift
import Verif.Spec.Solve
import Verif.Spec.SumOver
import Verif.Spec.Text
import Verif.Spec.Texts
import Verif.Spec.Timed
import Verif.Spec.Topo
import Verif.Spec.Toss
import Verif.Spec.TrainCsv
import Verif.Spec.Training
import Verif.Spec.Tree
import Verif.Spec.Tui
import Verif.Spec.Tuple
import Verif.Spec.Undecided
import Verif.Spec.Value
import Verif.Spec.White
import Verif.Lemmas.Again
import Verif.Lemmas.Before
import Verif.Lemmas.Best
import Verif.Lemmas.BestNodes
import Verif.Lemmas.Commands
import Verif.Lemmas.Cost
import Verif.Lemmas.CostGame
import Verif.Lemmas.CostLine
import Verif.Lemmas.CostNet
import Verif.Lemmas.Decide
import Verif.Lemmas.Files
import Verif.Lemmas.Forgotten
import Verif.Lemmas.Graded
import Verif.Lemmas.Hidden
import Verif.Lemmas.HiddenConst
import Verif.Lemmas.Index
import Verif.Lemmas.Iso
import Verif.Lemmas.Likelihood
import Verif.Lemmas.Listed
import Verif.Lemmas.Logic
import Verif.Lemmas.Loop
import Verif.Lemmas.Machine
import Verif.Lemmas.MachineExact
import Verif.Lemmas.MachineNet
import Verif.Lemmas.MachineSmall
import Verif.Lemmas.NetJoint
import Verif.Lemmas.NetListed
import Verif.Lemmas.NetMass
import Verif.Lemmas.NetNew
import Verif.Lemmas.NetOptimal
import Verif.Lemmas.NetPolicies
import Verif.Lemmas.NetPolicyDet
import Verif.Lemmas.NetQuery
import Verif.Lemmas.NetRetab
import Verif.Lemmas.NetSettle
import Verif.Lemmas.NetSolve
import Verif.Lemmas.NetSolver
import Verif.Lemmas.NetStepwise
import Verif.Lemmas.NetStill
import Verif.Lemmas.NetSums
import Verif.Lemmas.NetTables
import Verif.Lemmas.NetUtility
import Verif.Lemmas.NetVars
import Verif.Lemmas.Policies
import Verif.Lemmas.Policy
import Verif.Lemmas.PolicyDet
import Verif.Lemmas.PolicyKnown
import Verif.Lemmas.Product
import Verif.Lemmas.Range
import Verif.Lemmas.Rearrange
import Verif.Lemmas.Repeat
import Verif.Lemmas.RoundedPolicy
import Verif.Lemmas.RoundedSteps
import Verif.Lemmas.Rounding
import Verif.Lemmas.RoundingNet
import Verif.Lemmas.RoundingSolve
import Verif.Lemmas.Save
import Verif.Lemmas.SaveApp
import Verif.Lemmas.Signed
import Verif.Lemmas.SignedNet
import Verif.Lemmas.SignedRounding
import Verif.Lemmas.Solve
import Verif.Lemmas.Stuck
import Verif.Lemmas.SumOut
import Verif.Lemmas.Text
import Verif.Lemmas.Texts
import Verif.Lemmas.Ties
import Verif.Lemmas.Timed
import Verif.Lemmas.Topo
import Verif.Lemmas.TopoDet
import Verif.Lemmas.TrainHits
import Verif.Lemmas.TrainRun
import Verif.Lemmas.TrainUpdate
import Verif.Lemmas.Training
import Verif.Lemmas.Transfer
import Verif.Lemmas.TransferNet
import Verif.Lemmas.Trim
import Verif.Lemmas.TuiApp
import Verif.Lemmas.TuiArrow
import Verif.Lemmas.TuiBox
import Verif.Lemmas.TuiCanvas
import Verif.Lemmas.TuiCells
import Verif.Lemmas.TuiColor
import Verif.Lemmas.TuiGrid
import Verif.Lemmas.TuiKeep
import Verif.Lemmas.TuiOk
import Verif.Lemmas.TuiPicture
import Verif.Lemmas.TuiReady
import Verif.Lemmas.TuiSession
import Verif.Lemmas.TuiShown
import Verif.Lemmas.TuiStart
import Verif.Lemmas.Tuple
import Verif.Lemmas.Unused
import Verif.Lemmas.Utility
import Verif.Lemmas.VEStep
import Verif.Lemmas.Worlds
import Verif.Props.Again
import Verif.Props.Calls
import Verif.Props.CommandCases
import Verif.Props.Commands
import Verif.Props.Concurrent
import Verif.Props.Cost
import Verif.Props.Decide
import Verif.Props.Examples
import Verif.Props.Factor
import Verif.Props.FactorCases
import Verif.Props.FileCases
import Verif.Props.Forgotten
import Verif.Props.Layout
import Verif.Props.Logic
import Verif.Props.Machine
import Verif.Props.MachineCases
import Verif.Props.Malformed
import Verif.Props.Memory
import Verif.Props.MoreCases
import Verif.Props.NetAbsorb
import Verif.Props.NetAside
import Verif.Props.NetAttain
import Verif.Props.NetBarren
import Verif.Props.NetBayes
import Verif.Props.NetCalls
import Verif.Props.NetCases
import Verif.Props.NetCertain
import Verif.Props.NetCircuit
import Verif.Props.NetDominated
import Verif.Props.NetEach
import Verif.Props.NetEntry
import Verif.Props.NetExamples
import Verif.Props.NetExpect
import Verif.Props.NetForce
import Verif.Props.NetInformed
import Verif.Props.NetIrrelevant
import Verif.Props.NetIso
import Verif.Props.NetJoint
import Verif.Props.NetKnown
import Verif.Props.NetListing
import Verif.Props.NetMarkov
import Verif.Props.NetMerge
import Verif.Props.NetMix
import Verif.Props.NetNaN
import Verif.Props.NetNew
import Verif.Props.NetNode
import Verif.Props.NetOneWorth
import Verif.Props.NetOptimal
import Verif.Props.NetOptions
import Verif.Props.NetPolicies
import Verif.Props.NetQuery
import Verif.Props.NetRearrange
import Verif.Props.NetRecall
import Verif.Props.NetRounding
import Verif.Props.NetSameAnswers
import Verif.Props.NetSameJoint
import Verif.Props.NetSameValue
import Verif.Props.NetSameWorth
import Verif.Props.NetScale
import Verif.Props.NetSensitive
import Verif.Props.NetSensor
import Verif.Props.NetSeparation
import Verif.Props.NetSettle
import Verif.Props.NetShift
import Verif.Props.NetSolvedValue
import Verif.Props.NetStepwise
import Verif.Props.NetTies
import Verif.Props.NetToss
import Verif.Props.NetTotal
import Verif.Props.NetTree
import Verif.Props.NetTry
import Verif.Props.NetUndecided
import Verif.Props.NetUnused
import Verif.Props.NetUpdate
import Verif.Props.NetUtility
import Verif.Props.NetWhatIf
import Verif.Props.NoNumbers
import Verif.Props.Ops
import Verif.Props.Pipeline
import Verif.Props.PolicyRepeat
import Verif.Props.PolicyRounding
import Verif.Props.Range
import Verif.Props.Reproduce
import Verif.Props.Solve
import Verif.Props.TrainAnswers
import Verif.Props.TrainBatch
import Verif.Props.TrainCases
import Verif.Props.TrainCsv
import Verif.Props.TrainDecide
import Verif.Props.TrainExamples
import Verif.Props.TrainFit
import Verif.Props.TrainMissing
import Verif.Props.TrainQuery
import Verif.Props.TrainRecover
import Verif.Props.TrainRepeat
import Verif.Props.TrainUnique
import Verif.Props.TrainWeights
import Verif.Props.Training
import Verif.Props.TryCases
import Verif.Props.TuiBasic
import Verif.Props.TuiCases
import Verif.Props.TuiDialog
import Verif.Props.TuiInput
import Verif.Props.TuiPages
import Verif.Props.TuiPicture
import Verif.Props.TuiRun
import Verif.Props.TuiScreen
import Verif.Props.TuiShown
import Verif.Props.TuiTable
import Verif.Props.UtilityRounding
import Verif.Props.Xml
import Verif.Props.XmlExact
import Verif.Props.Yaml
import Verif.Props.YamlNodes
import Verif.Tests.App
import Verif.Tests.Network
import Verif.Tests.Solver
