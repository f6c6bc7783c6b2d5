import Verif.Props.ApplyLinear
import Verif.Props.ArrayUtil
import Verif.Props.Assemble
import Verif.Props.AutoOrder
import Verif.Props.Brent
import Verif.Props.BuildDir
import Verif.Props.ByObj
import Verif.Props.CheckPartials
import Verif.Props.CheckSolvers
import Verif.Props.CheckTotals
import Verif.Props.Checks
import Verif.Props.CkParams
import Verif.Props.Cleanup
import Verif.Props.CoKriging
import Verif.Props.Comms
import Verif.Props.ComplexStep
import Verif.Props.Component
import Verif.Props.Concurrent
import Verif.Props.Connections
import Verif.Props.Constraint
import Verif.Props.DataTransfer
import Verif.Props.Declare
import Verif.Props.DirectSolver
import Verif.Props.Doe
import Verif.Props.DoeProcs
import Verif.Props.Driver
import Verif.Props.DriverSetup
import Verif.Props.Dump
import Verif.Props.ExecComp
import Verif.Props.ExecLin
import Verif.Props.Explicit
import Verif.Props.ExtCheck
import Verif.Props.External
import Verif.Props.FdGroup
import Verif.Props.FdOptions
import Verif.Props.FileParse
import Verif.Props.FileWrap
import Verif.Props.FiniteDiff
import Verif.Props.Gather
import Verif.Props.Gmres
import Verif.Props.GradFd
import Verif.Props.GroupXfer
import Verif.Props.GsOutputs
import Verif.Props.Hdf5
import Verif.Props.Ivc
import Verif.Props.Kriging
import Verif.Props.KrigingGrad
import Verif.Props.LinearGS
import Verif.Props.LinearInterp
import Verif.Props.LinearSystem
import Verif.Props.Linearize
import Verif.Props.MakeDirs
import Verif.Props.MetaLife
import Verif.Props.MetaModel
import Verif.Props.Mode
import Verif.Props.MorrisMitchell
import Verif.Props.MpiDoe
import Verif.Props.MultiFi
import Verif.Props.MultiProc
import Verif.Props.NLGS
import Verif.Props.Namelist
import Verif.Props.NamelistHand
import Verif.Props.NearNbr
import Verif.Props.Newton
import Verif.Props.NewtonRel
import Verif.Props.Options
import Verif.Props.ParCheck
import Verif.Props.ParDeriv
import Verif.Props.ParDoe
import Verif.Props.ParGroup
import Verif.Props.ParRun
import Verif.Props.Paths
import Verif.Props.PetscKsp
import Verif.Props.PrintConv
import Verif.Props.ProblemVars
import Verif.Props.ProfClock
import Verif.Props.ProfWrap
import Verif.Props.Profile
import Verif.Props.Promotes
import Verif.Props.PyOpt
import Verif.Props.RecMpi
import Verif.Props.Recorder
import Verif.Props.Relevance
import Verif.Props.Reports
import Verif.Props.RespTrain
import Verif.Props.ResponseSurface
import Verif.Props.RunApply
import Verif.Props.RunDir
import Verif.Props.Scipy
import Verif.Props.SerialDoe
import Verif.Props.SharedVec
import Verif.Props.SolverBase
import Verif.Props.SubDir
import Verif.Props.SubProblem
import Verif.Props.Subsys
import Verif.Props.Totals
import Verif.Props.UniDoe
import Verif.Props.UnitStr
import Verif.Props.Units
import Verif.Props.Vec
import Verif.Props.VecView
import Verif.Props.ViewConn
import Verif.Props.VoiSets
import Verif.Props.Weighted
