import Verif.Py
import Verif.FieldModel
import Verif.FieldLemmas
import Verif.FieldSpec
import Verif.FieldProps
import Verif.FieldArith
import Verif.FieldHeap
import Verif.GridModel
import Verif.GridProps
import Verif.SparseModel
import Verif.SolverModel
import Verif.SolverLemmas
import Verif.SolverSpec
import Verif.SolverProps
import Verif.SolverProps2
import Verif.SolverBC
import Verif.SolverBC2
import Verif.MaterialModel
import Verif.MaterialProps
import Verif.PmlProps
import Verif.PmlProps2
import Verif.TimeStep
import Verif.MpiSched
import Verif.MpiHalo
import Verif.MpiModel
import Verif.MpiProps
import Verif.MpiSlab
import Verif.MpiSerial
import Verif.MpiJob
import Verif.MpiGather
import Verif.MpiPml
import Verif.MpiBounds
import Verif.MpiAccept
import Verif.Lifecycle
import Verif.Emsolve
import Verif.SourceModel
import Verif.SourceProps
import Verif.SourceProps2
import Verif.WakeModel
import Verif.WakeNames
import Verif.WakeProps
import Verif.WakeProps3d
import Verif.WakeModel2
import Verif.WakeProps2
import Verif.WakeProps4
import Verif.WakeRun
import Verif.ResultFiles
import Verif.CstImport
import Verif.GridIO
import Verif.Geometry
import Verif.StlTransform
import Verif.Logger
import Verif.ZeroCond
import Verif.CurlBound
import Verif.Stability
import Verif.Stability2
import Verif.Stability3
import Verif.MpiSources
import Verif.MpiSources2
import Verif.Cond
import Verif.Edges
import Verif.Areas
import Verif.Extend
import Verif.Grid3
import Verif.Fdtd2
import Verif.Ect2
import Verif.PmlLayout2
import Verif.PmlMono2
import Verif.Fdtd3
import Verif.PmlLayout3
import Verif.PmlMono3
import Verif.ChargeDist
import Verif.ImpWake
import Verif.Consistency
import Verif.Refine
import Verif.GridInit
import Verif.StlMask
import Verif.TransZ
import Verif.WakeFit
import Verif.SolveArgs
import Verif.BeamLambda
import Verif.Midpoint
import Verif.Duhamel
import Verif.Converge
import Verif.Converge2
import Verif.Converge3
import Verif.Converge4
import Verif.Converge5
import Verif.Converge6
import Verif.WakeEm
import Verif.Rerun
import Verif.Speed
import Verif.Modes
import Verif.Modes2
import Verif.Reciprocity
import Verif.Passive
import Verif.Plots
import Verif.Plots2
import Verif.Plots3
import Verif.Plots4
import Verif.Scale
import Verif.Scale2
import Verif.Scale3
import Verif.Scale4
import Verif.Scale5
import Verif.Translate
import Verif.Translate2
import Verif.Charge
import Verif.AbcFirst
import Verif.Reverse
import Verif.Axes
import Verif.Axes2
import Verif.Mirror
import Verif.Mirror2
import Verif.WakeConv
import Verif.Cut
import Verif.MpiDriven
import Verif.Plots5
import Verif.FieldGpu
import Verif.Shift
import Verif.Statics
import Verif.Reach
import Verif.AbcGrow
import Verif.Views3
import Verif.AxesPml
import Verif.SourcePlots
import Verif.WakeBlock
import Verif.RunLog
import Verif.PlotRun
import Verif.SnapPoints
import Verif.GpuUpdate
import Verif.MonitorWave
import Verif.Inspect3
import Verif.StepLines
import Verif.FieldSet
import Verif.WakeCopy
import Verif.Cases
import Verif.BeamCharge
import Verif.BeamLoss
import Verif.Planes
import Verif.MpiWake
import Verif.BothPlanes
import Verif.SaveJ
import Verif.RerunBoth
import Verif.Scale6
import Verif.SaveJMpi
import Verif.MpiHang
import Verif.MpiMonitor
import Verif.MpiIndex
import Verif.MpiSolve
import Verif.LongHang
