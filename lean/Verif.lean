import Verif.Basic
import Verif.Cases
import Verif.CasesFront
import Verif.Demo
import Verif.DemoQp
import Verif.Double
import Verif.Fl
import Verif.Lemmas.AmdAat
import Verif.Lemmas.AmdArr
import Verif.Lemmas.AmdConstruct
import Verif.Lemmas.AmdDeg
import Verif.Lemmas.AmdDetect
import Verif.Lemmas.AmdFill
import Verif.Lemmas.AmdGc
import Verif.Lemmas.AmdHash
import Verif.Lemmas.AmdInit
import Verif.Lemmas.AmdInv
import Verif.Lemmas.AmdIter
import Verif.Lemmas.AmdIterHead
import Verif.Lemmas.AmdIterMid
import Verif.Lemmas.AmdIterMid2
import Verif.Lemmas.AmdIterTail
import Verif.Lemmas.AmdList
import Verif.Lemmas.AmdMem
import Verif.Lemmas.AmdOutput
import Verif.Lemmas.AmdOutput2
import Verif.Lemmas.AmdPath
import Verif.Lemmas.AmdPost
import Verif.Lemmas.AmdPre
import Verif.Lemmas.AmdRel
import Verif.Lemmas.AmdRestore
import Verif.Lemmas.AmdScan
import Verif.Lemmas.AmdScan2
import Verif.Lemmas.AmdSem
import Verif.Lemmas.AmdStat
import Verif.Lemmas.AmdTrace
import Verif.Lemmas.AmdTrav
import Verif.Lemmas.AmdTree
import Verif.Lemmas.Cache
import Verif.Lemmas.Checked
import Verif.Lemmas.CheckedDense
import Verif.Lemmas.CheckedRun
import Verif.Lemmas.CheckedSetup
import Verif.Lemmas.Cols
import Verif.Lemmas.Dense
import Verif.Lemmas.DenseRun
import Verif.Lemmas.Etree
import Verif.Lemmas.Exact
import Verif.Lemmas.Factor
import Verif.Lemmas.Front
import Verif.Lemmas.Heap
import Verif.Lemmas.HeapWorld
import Verif.Lemmas.Kkt
import Verif.Lemmas.LdlBasic
import Verif.Lemmas.LdlExact
import Verif.Lemmas.LdlNum
import Verif.Lemmas.LdlOps
import Verif.Lemmas.LdlSolve
import Verif.Lemmas.LdlSym
import Verif.Lemmas.LdlUnique
import Verif.Lemmas.LeftCache
import Verif.Lemmas.Loops
import Verif.Lemmas.Null
import Verif.Lemmas.NullLdl
import Verif.Lemmas.NullLen
import Verif.Lemmas.NullPass
import Verif.Lemmas.NullRun
import Verif.Lemmas.NullSetup
import Verif.Lemmas.NullSolve
import Verif.Lemmas.NullSpare
import Verif.Lemmas.NullTouch
import Verif.Lemmas.Post
import Verif.Lemmas.Quasi
import Verif.Lemmas.QuasiAny
import Verif.Lemmas.QuasiEq
import Verif.Lemmas.Round
import Verif.Lemmas.RoundLdl
import Verif.Lemmas.RoundSolve
import Verif.Lemmas.Setup
import Verif.Lemmas.Solve
import Verif.Lemmas.State
import Verif.Lemmas.Steps
import Verif.Lemmas.Transpose
import Verif.Lemmas.Vec
import Verif.Model.Alloc
import Verif.Model.Amd
import Verif.Model.AmdInfo
import Verif.Model.AmdTrace
import Verif.Model.Auxilary
import Verif.Model.Checked
import Verif.Model.Front
import Verif.Model.Heap
import Verif.Model.Inactive
import Verif.Model.KktUpdate
import Verif.Model.Ldl
import Verif.Model.LdlOps
import Verif.Model.MexEntry
import Verif.Model.Ports
import Verif.Model.Prototype
import Verif.Model.PyRefs
import Verif.Model.Solver
import Verif.Model.TestHelpers
import Verif.Model.Timed
import Verif.Props.Alloc
import Verif.Props.AmdExact
import Verif.Props.AmdFill
import Verif.Props.AmdInput
import Verif.Props.AmdMemory
import Verif.Props.AmdMinDeg
import Verif.Props.AmdOrder
import Verif.Props.AmdOverflow
import Verif.Props.AmdPost
import Verif.Props.AmdStats
import Verif.Props.AnyExact
import Verif.Props.Certify
import Verif.Props.Dense
import Verif.Props.Det
import Verif.Props.DetSign
import Verif.Props.Directions
import Verif.Props.DoubleCert
import Verif.Props.DoubleInterior
import Verif.Props.DoubleRun
import Verif.Props.DoubleValue
import Verif.Props.EqExact
import Verif.Props.EqPivots
import Verif.Props.EqRenumber
import Verif.Props.EqRun
import Verif.Props.FillPath
import Verif.Props.Front
import Verif.Props.Inactive
import Verif.Props.InactiveKkt
import Verif.Props.InactiveLeft
import Verif.Props.Interfaces
import Verif.Props.Interior
import Verif.Props.Isometry
import Verif.Props.Iterates
import Verif.Props.Kkt
import Verif.Props.KktUpdate
import Verif.Props.Ldl
import Verif.Props.LdlBasic
import Verif.Props.LdlOps
import Verif.Props.MatVec
import Verif.Props.Matlab
import Verif.Props.MatlabCall
import Verif.Props.Memory
import Verif.Props.NonFinite
import Verif.Props.Order
import Verif.Props.Overflow
import Verif.Props.Pivots
import Verif.Props.Ports
import Verif.Props.Prototype
import Verif.Props.PyRefs
import Verif.Props.PyRefs2
import Verif.Props.Python
import Verif.Props.Renumber
import Verif.Props.Round
import Verif.Props.RoundLdl
import Verif.Props.RoundStep
import Verif.Props.RoundValue
import Verif.Props.Safety
import Verif.Props.Setup
import Verif.Props.Start
import Verif.Props.StepEffect
import Verif.Props.TestHelpers
import Verif.Props.Timed
import Verif.Props.Tiny
import Verif.Props.Transpose
import Verif.Props.Updates
import Verif.Props.Value
import Verif.RepoTests
import Verif.Scalar
import Verif.Spec
import Verif.SpecData
import Verif.SpecOrder
import Verif.SpecQp
import Verif.SpecRatio
import Verif.SpecRound
