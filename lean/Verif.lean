import Verif.Float.Analyse
import Verif.Float.Analyse1
import Verif.Float.Analyse2
import Verif.Float.Basic
import Verif.Float.Bits
import Verif.Float.Contract
import Verif.Float.Delta
import Verif.Float.Directed
import Verif.Float.Flush
import Verif.Float.Fused
import Verif.Float.IntRound
import Verif.Float.Ops
import Verif.Float.Theory
import Verif.Lemmas.AdjOrder
import Verif.Lemmas.AsinAcc
import Verif.Lemmas.AsinMono
import Verif.Lemmas.AsinPos
import Verif.Lemmas.AsinfAcc
import Verif.Lemmas.AsinfMono
import Verif.Lemmas.AsinfPos
import Verif.Lemmas.Atan2
import Verif.Lemmas.AtanAcc
import Verif.Lemmas.AtanMono
import Verif.Lemmas.AtanPos
import Verif.Lemmas.AtanQuot
import Verif.Lemmas.AtanfMono
import Verif.Lemmas.AtanfPos
import Verif.Lemmas.Bench
import Verif.Lemmas.BitDist
import Verif.Lemmas.Build
import Verif.Lemmas.Common
import Verif.Lemmas.Compare
import Verif.Lemmas.CoreOrder
import Verif.Lemmas.Diag
import Verif.Lemmas.DirAsin
import Verif.Lemmas.DirAtan
import Verif.Lemmas.DirAtan2
import Verif.Lemmas.DirExact
import Verif.Lemmas.DirExp
import Verif.Lemmas.DirLog
import Verif.Lemmas.DirNewton
import Verif.Lemmas.DirTan
import Verif.Lemmas.DirTanh
import Verif.Lemmas.DirTrig
import Verif.Lemmas.Directed
import Verif.Lemmas.Exact
import Verif.Lemmas.ExpAcc
import Verif.Lemmas.ExpBasic
import Verif.Lemmas.ExpfAcc
import Verif.Lemmas.FlushAsin
import Verif.Lemmas.FlushAtan
import Verif.Lemmas.FlushAtan2
import Verif.Lemmas.FlushExp
import Verif.Lemmas.FlushLog
import Verif.Lemmas.FlushNewton
import Verif.Lemmas.FlushSource
import Verif.Lemmas.FlushTan
import Verif.Lemmas.FlushTanh
import Verif.Lemmas.FlushTrig
import Verif.Lemmas.Fpe
import Verif.Lemmas.FpeAsin
import Verif.Lemmas.FpeAtan
import Verif.Lemmas.FpeInvalid
import Verif.Lemmas.FpeParts
import Verif.Lemmas.FpeSource
import Verif.Lemmas.FpeTan
import Verif.Lemmas.Isqrt
import Verif.Lemmas.IsqrtSmall
import Verif.Lemmas.IsqrtStart
import Verif.Lemmas.LogAcc
import Verif.Lemmas.LogBound
import Verif.Lemmas.LogDouble
import Verif.Lemmas.LogFloat
import Verif.Lemmas.LogFp
import Verif.Lemmas.LogMono
import Verif.Lemmas.LogMonoD
import Verif.Lemmas.LogMonoF
import Verif.Lemmas.LogNormal
import Verif.Lemmas.LogOrder
import Verif.Lemmas.LogfOrder
import Verif.Lemmas.Mersenne
import Verif.Lemmas.Nearest
import Verif.Lemmas.Newton
import Verif.Lemmas.Persist
import Verif.Lemmas.QuadReduce
import Verif.Lemmas.Quadrant
import Verif.Lemmas.Reduce
import Verif.Lemmas.ReducefMid
import Verif.Lemmas.Round
import Verif.Lemmas.Scale
import Verif.Lemmas.Sincos
import Verif.Lemmas.SincosAcc
import Verif.Lemmas.SincosRange
import Verif.Lemmas.SincosRel
import Verif.Lemmas.SincosfAcc
import Verif.Lemmas.SincosfFar
import Verif.Lemmas.Special
import Verif.Lemmas.Sqrt
import Verif.Lemmas.Stats
import Verif.Lemmas.Streams
import Verif.Lemmas.TanAcc
import Verif.Lemmas.TanFinish
import Verif.Lemmas.TanfFar
import Verif.Lemmas.Tanh
import Verif.Lemmas.TanhAcc
import Verif.Lemmas.TrigLow
import Verif.Lemmas.TrigWide
import Verif.Model.ArrayFns
import Verif.Model.Arrays
import Verif.Model.Asin
import Verif.Model.Atan
import Verif.Model.Bench
import Verif.Model.Build
import Verif.Model.Cmd
import Verif.Model.Common
import Verif.Model.Compare
import Verif.Model.Contract
import Verif.Model.Deprecated
import Verif.Model.Diag
import Verif.Model.Directed
import Verif.Model.Exp
import Verif.Model.Fatlib
import Verif.Model.Flush
import Verif.Model.Fpe
import Verif.Model.Generate
import Verif.Model.Histo
import Verif.Model.Log
import Verif.Model.Mersenne
import Verif.Model.NpUfunc
import Verif.Model.Perf
import Verif.Model.Persist
import Verif.Model.PyCall
import Verif.Model.PyScripts
import Verif.Model.Random
import Verif.Model.Reassoc
import Verif.Model.Report
import Verif.Model.Sincos
import Verif.Model.Sqrt
import Verif.Model.Streams
import Verif.Model.Tan
import Verif.Model.Tanh
import Verif.Model.TimerApple
import Verif.Model.Ufunc
import Verif.Model.UnitTests
import Verif.Props.Acos
import Verif.Props.Arrays
import Verif.Props.ArraysFast
import Verif.Props.ArraysVc
import Verif.Props.Asin
import Verif.Props.Atan
import Verif.Props.Atan2
import Verif.Props.BasicNames
import Verif.Props.BenchAccuracy
import Verif.Props.Benchmark
import Verif.Props.BitBound
import Verif.Props.BitBoundStd
import Verif.Props.Build
import Verif.Props.Builds
import Verif.Props.CheckAccuracy
import Verif.Props.Cmd
import Verif.Props.Comparison
import Verif.Props.Contract
import Verif.Props.Deprecated
import Verif.Props.Diffbit
import Verif.Props.Directed
import Verif.Props.Direction
import Verif.Props.Enclose
import Verif.Props.Exact
import Verif.Props.ExpAcc
import Verif.Props.ExpBasic
import Verif.Props.Fatlib
import Verif.Props.Flush
import Verif.Props.Fpe
import Verif.Props.FpeInvalid
import Verif.Props.Generate
import Verif.Props.GenerateNumpy
import Verif.Props.GenerateOrder
import Verif.Props.Helpers
import Verif.Props.Histo
import Verif.Props.HistoRun
import Verif.Props.Identities
import Verif.Props.InvLarge
import Verif.Props.Isqrt
import Verif.Props.LogAcc
import Verif.Props.LogExp
import Verif.Props.Mersenne
import Verif.Props.Mirror
import Verif.Props.Monotone
import Verif.Props.MonotoneB
import Verif.Props.MonotoneC
import Verif.Props.MonotoneD
import Verif.Props.NpUfunc
import Verif.Props.Perf
import Verif.Props.Performance
import Verif.Props.Persist
import Verif.Props.Precisions
import Verif.Props.PyCall
import Verif.Props.PyConvert
import Verif.Props.PyScripts
import Verif.Props.Random
import Verif.Props.Reassoc
import Verif.Props.Report
import Verif.Props.RoundTrip
import Verif.Props.Rounding
import Verif.Props.Scale
import Verif.Props.Sharp
import Verif.Props.SincosAcc
import Verif.Props.SincosBasic
import Verif.Props.SincosRange
import Verif.Props.SincosRel
import Verif.Props.SincosfFar
import Verif.Props.Stats
import Verif.Props.Tables
import Verif.Props.Tan
import Verif.Props.TanfFar
import Verif.Props.Tanh
import Verif.Props.TextForms
import Verif.Props.Timer
import Verif.Props.TimerApple
import Verif.Props.TrigWide
import Verif.Props.Ufunc
import Verif.Props.UnitTests
import Verif.Props.Workflow
import Verif.Props.WorkflowStd
import Verif.Props.Worst
import Verif.Real.Asin
import Verif.Real.Atan
import Verif.Real.Encl
import Verif.Real.Identities
import Verif.Real.Log1p
import Verif.Real.Poly
import Verif.Real.PolyFast
import Verif.Real.RoundTrip
import Verif.Real.Slope
import Verif.Real.Tanh
import Verif.Real.Taylor
import Verif.Real.Tools
import Verif.Spec
