import Verif.Lemmas.Accuracy
import Verif.Lemmas.Approx
import Verif.Lemmas.ApproxFMM
import Verif.Lemmas.ApproxReal
import Verif.Lemmas.ApproxUntidy
import Verif.Lemmas.Band
import Verif.Lemmas.Compare
import Verif.Lemmas.Connected
import Verif.Lemmas.Decimal
import Verif.Lemmas.Decimal2
import Verif.Lemmas.DirMin
import Verif.Lemmas.EikReal
import Verif.Lemmas.Exact
import Verif.Lemmas.F64Eik
import Verif.Lemmas.F64Err
import Verif.Lemmas.F64FMM
import Verif.Lemmas.F64Grid
import Verif.Lemmas.F64Improve
import Verif.Lemmas.F64Loop
import Verif.Lemmas.FIMAcc64
import Verif.Lemmas.FMMBasic
import Verif.Lemmas.FMMExact
import Verif.Lemmas.FMMLink
import Verif.Lemmas.FSMBasic
import Verif.Lemmas.Fib
import Verif.Lemmas.FibPop
import Verif.Lemmas.Funnel
import Verif.Lemmas.Funnel1
import Verif.Lemmas.GDNext
import Verif.Lemmas.GMMApprox
import Verif.Lemmas.GMMDoubles
import Verif.Lemmas.GMMInit64
import Verif.Lemmas.GMMRun64
import Verif.Lemmas.GMMSmall
import Verif.Lemmas.Gap
import Verif.Lemmas.GridBasic
import Verif.Lemmas.Heap
import Verif.Lemmas.IO
import Verif.Lemmas.Improve
import Verif.Lemmas.Kept
import Verif.Lemmas.Lock
import Verif.Lemmas.LowF64
import Verif.Lemmas.MapBasic
import Verif.Lemmas.Matlab
import Verif.Lemmas.Metric
import Verif.Lemmas.Offsets
import Verif.Lemmas.Outside
import Verif.Lemmas.Prim
import Verif.Lemmas.Reflect
import Verif.Lemmas.ReflectGMM
import Verif.Lemmas.ReflectSweep
import Verif.Lemmas.Residual
import Verif.Lemmas.Shape
import Verif.Lemmas.Super
import Verif.Lemmas.Terminate
import Verif.Lemmas.Text
import Verif.Lemmas.Triangle
import Verif.Lemmas.UFMM
import Verif.Lemmas.UFMMF64
import Verif.Lemmas.UQ
import Verif.Lemmas.UQDefined
import Verif.Lemmas.UQF64
import Verif.Lemmas.Untidy
import Verif.Lemmas.Upwind
import Verif.Model.Analyze
import Verif.Model.Arith
import Verif.Model.Benchmark
import Verif.Model.CFG
import Verif.Model.Clock
import Verif.Model.Console
import Verif.Model.Crash
import Verif.Model.DDQM
import Verif.Model.Decimal
import Verif.Model.Disk
import Verif.Model.DistTable
import Verif.Model.Eikonal
import Verif.Model.Examples
import Verif.Model.F64
import Verif.Model.FIM
import Verif.Model.FM2
import Verif.Model.FMM
import Verif.Model.FSM
import Verif.Model.Fib
import Verif.Model.GD
import Verif.Model.GMM
import Verif.Model.Grid
import Verif.Model.Heap
import Verif.Model.Heuristic
import Verif.Model.IO
import Verif.Model.ListIter
import Verif.Model.Matlab
import Verif.Model.MatlabNum
import Verif.Model.MatlabSave
import Verif.Model.Own
import Verif.Model.OwnCopy
import Verif.Model.Plot
import Verif.Model.Points
import Verif.Model.Print
import Verif.Model.Program
import Verif.Model.Solver
import Verif.Model.Text
import Verif.Model.Threads
import Verif.Model.UQ
import Verif.Model.UQDefined
import Verif.Model.XQ
import Verif.Model.XR
import Verif.Props.Agree
import Verif.Props.AgreeF64
import Verif.Props.Analyze
import Verif.Props.AnalyzeF64
import Verif.Props.AvgSpeed
import Verif.Props.Benchmark
import Verif.Props.CFG
import Verif.Props.CFGBad
import Verif.Props.CFGRead
import Verif.Props.Clearance
import Verif.Props.Cleared
import Verif.Props.Clock
import Verif.Props.Console
import Verif.Props.Copy
import Verif.Props.Crash
import Verif.Props.CutGrid
import Verif.Props.CutLog
import Verif.Props.DDQM
import Verif.Props.DDQMRule
import Verif.Props.Decimal
import Verif.Props.Disk
import Verif.Props.DistTable
import Verif.Props.Downhill
import Verif.Props.Eikonal
import Verif.Props.EndToEnd
import Verif.Props.Examples
import Verif.Props.F64
import Verif.Props.F64Accuracy
import Verif.Props.FIM
import Verif.Props.FIMAcc64
import Verif.Props.FIMF64
import Verif.Props.FIMTerm
import Verif.Props.FM2
import Verif.Props.FM2Acc64
import Verif.Props.FM2F64
import Verif.Props.FM2Lost
import Verif.Props.FM2Reach
import Verif.Props.FM2Reuse
import Verif.Props.FMMExact
import Verif.Props.FMMStruct
import Verif.Props.FMMTerm
import Verif.Props.FSM
import Verif.Props.FibHeap
import Verif.Props.GD
import Verif.Props.GMM
import Verif.Props.GMMAcc64
import Verif.Props.GMMAccuracy
import Verif.Props.GMMF64
import Verif.Props.GMMSmall
import Verif.Props.GMMTerm
import Verif.Props.GMMTol
import Verif.Props.Geometry
import Verif.Props.GoalF64
import Verif.Props.GoalStop
import Verif.Props.GoalSweep
import Verif.Props.GoalWrong
import Verif.Props.Heap
import Verif.Props.HeapF64
import Verif.Props.HeapFMM
import Verif.Props.HeapRun
import Verif.Props.HeurLife
import Verif.Props.HeurRun
import Verif.Props.Heuristic
import Verif.Props.IO
import Verif.Props.IONeg
import Verif.Props.Image
import Verif.Props.ImageRun
import Verif.Props.LawsF64
import Verif.Props.Lifecycle
import Verif.Props.ListIter
import Verif.Props.Local
import Verif.Props.LowF64
import Verif.Props.Matlab
import Verif.Props.MatlabCut
import Verif.Props.MatlabF64
import Verif.Props.MatlabGrid
import Verif.Props.MatlabLog
import Verif.Props.MatlabMore
import Verif.Props.MatlabSave
import Verif.Props.Memory
import Verif.Props.MemoryU
import Verif.Props.Metric
import Verif.Props.Monotone
import Verif.Props.MoreLawsF64
import Verif.Props.OpenMap
import Verif.Props.OpenSweep
import Verif.Props.Own
import Verif.Props.PathArrives
import Verif.Props.PathLost
import Verif.Props.Plot
import Verif.Props.Points
import Verif.Props.Print
import Verif.Props.Program
import Verif.Props.ProgramBad
import Verif.Props.ProgramVals
import Verif.Props.Relative
import Verif.Props.Reuse
import Verif.Props.SFMM
import Verif.Props.SFMMOrder
import Verif.Props.SavedMap
import Verif.Props.SavedResult
import Verif.Props.Sight
import Verif.Props.SnakeSweep
import Verif.Props.Stale
import Verif.Props.StarF64
import Verif.Props.StarFar
import Verif.Props.StarGoal
import Verif.Props.StarStarts
import Verif.Props.StarWrong
import Verif.Props.SweepBound
import Verif.Props.SweepBound64
import Verif.Props.SweepOrder
import Verif.Props.Symmetry
import Verif.Props.Thin
import Verif.Props.Threads
import Verif.Props.Triangle
import Verif.Props.UFMM
import Verif.Props.UFMMDefined
import Verif.Props.UFMMExact
import Verif.Props.UFMMF64
import Verif.Props.UFMMHang
import Verif.Props.UFMMUndefined
import Verif.Props.UQ
import Verif.Props.UQWindow
import Verif.Props.Walk
import Verif.Props.WellPosed
import Verif.Spec.Analyze
import Verif.Spec.Band
import Verif.Spec.Benchmark
import Verif.Spec.Border
import Verif.Spec.Box
import Verif.Spec.CFG
import Verif.Spec.Console
import Verif.Spec.DDQMRule
import Verif.Spec.Decimal
import Verif.Spec.Disk
import Verif.Spec.DistTable
import Verif.Spec.Distance
import Verif.Spec.Downhill
import Verif.Spec.Eikonal
import Verif.Spec.FM2
import Verif.Spec.Geometry
import Verif.Spec.Heuristic
import Verif.Spec.IO
import Verif.Spec.Lifecycle
import Verif.Spec.Map
import Verif.Spec.Matlab
import Verif.Spec.MatlabSave
import Verif.Spec.Memory
import Verif.Spec.NotBelow
import Verif.Spec.Own
import Verif.Spec.OwnCopy
import Verif.Spec.Path
import Verif.Spec.Points
import Verif.Spec.Program
import Verif.Spec.Queue
import Verif.Spec.QueueFits
import Verif.Spec.Route
import Verif.Spec.StepFits
import Verif.Spec.StopErr
import Verif.Spec.Symmetry
import Verif.Spec.Walk
