import Verif.Props.Scheduler
import Verif.Props.SchedulerConfig
import Verif.Props.Projection
import Verif.Props.Material
import Verif.Props.OC
import Verif.Props.OCLaw
import Verif.Props.LogMOC
import Verif.Props.LogLaw
import Verif.Props.Spacial
import Verif.Props.Heat
import Verif.Props.HeatSens
import Verif.Props.HeatObj
import Verif.Props.Helmholtz
import Verif.Props.Driver
import Verif.Props.Snapshot
import Verif.Props.Restart
import Verif.Props.Mesh
import Verif.Props.Geometry
import Verif.Props.Task
import Verif.Props.Load
import Verif.Props.History
import Verif.Props.Timer
import Verif.Props.Solver
import Verif.Props.Elastic
import Verif.Props.Pipeline
import Verif.Props.Lagrangian
import Verif.Props.Faces
import Verif.Props.Box
import Verif.Props.Run
import Verif.Props.TaskFacets
import Verif.Props.TetVolume
import Verif.Props.Options
import Verif.Props.TimerMore
import Verif.Props.HistoryMore
import Verif.Props.Cli
import Verif.Props.Stress
import Verif.Props.ConfigFile
import Verif.Props.NodalMax
import Verif.Props.RunLog
import Verif.Props.VolumeChain
import Verif.Props.RunErrors
import Verif.Props.Alike
import Verif.Props.AlikeLog
import Verif.Props.RunHeat
import Verif.Props.RunHeatMore
import Verif.Props.RunHeatNan
import Verif.Props.RunHeatEx
import Verif.Props.RunHeatErr
import Verif.Props.Submesh
import Verif.Props.FinalMesh
import Verif.Props.RunRamp
import Verif.Props.RunScaled
import Verif.Props.BoxMesh
import Verif.Props.Adjacent
import Verif.Props.Condition
import Verif.Props.Env
import Verif.Props.Recorder
import Verif.Props.RecorderViews
import Verif.Props.Vtu
import Verif.Props.Loader
import Verif.Props.Gif
import Verif.Props.HeatAdjoint
import Verif.Props.Project
import Verif.Props.FilterElement
import Verif.Props.Crash
import Verif.Props.CrashChain
import Verif.Props.LastLine
import Verif.Props.Entry
import Verif.Props.Rounded
import Verif.Props.Format
import Verif.Props.SchedFloat
import Verif.Props.RoundedMaterial
import Verif.Props.RoundedRun
import Verif.Props.RoundedLog
import Verif.Props.Parallel
import Verif.Props.Attributes
import Verif.Props.ToyMsh
import Verif.Props.Supported
import Verif.Props.SupportedToy
import Verif.Props.SupportedRun
import Verif.Props.Heated
import Verif.Props.HeatedRun
import Verif.Props.HeatSource
import Verif.Props.SupportedLog
import Verif.Props.Toy2
import Verif.Props.Jacobian
import Verif.Props.SchedFrac
import Verif.Props.HeatShift
import Verif.Props.LoadCases
import Verif.Props.Recording
import Verif.Props.SchedClasses
import Verif.Props.Petsc
import Verif.Props.Chart
import Verif.Props.HeatUnits
import Verif.Props.HeatNumbering
import Verif.Props.HeatRamp
import Verif.Props.Stats
import Verif.Props.HeatValues
import Verif.Props.HeatElements
import Verif.Props.HeatElementsLog
import Verif.Props.HeatLengths
