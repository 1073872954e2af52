import Verif.Res
import Verif.Num
import Verif.Model.Context
import Verif.Model.Common
import Verif.Model.Statistics
import Verif.Model.Ta
import Verif.Model.Strategy
import Verif.Model.Metrics
import Verif.Model.Content
import Verif.Props.Core
import Verif.Props.Common
import Verif.Props.Statistics
import Verif.Props.Ta
import Verif.Props.Ta2
import Verif.Props.Panics
import Verif.Props.Causal
import Verif.Props.Strategy
import Verif.Props.Strategy2
import Verif.Props.Metrics
import Verif.Props.Metrics2
import Verif.Props.Metrics3
import Verif.Props.Metrics4
import Verif.Props.Signals
import Verif.Props.Content
import Verif.Props.Content2
import Verif.Props.Content3
import Verif.Props.Dmi
import Verif.Props.Content4
import Verif.Props.Content5
import Verif.Float.Binary64
import Verif.Float.Signed
import Verif.Float.Error
import Verif.Props.Ieee
import Verif.Model.Defaults
import Verif.Spec.Warmup
import Verif.Lemmas.Warmup
import Verif.Props.Fresh
import Verif.Props.Warmup
import Verif.Spec.Average
import Verif.Props.Content6
import Verif.Props.Content7
import Verif.Props.Content8
import Verif.Props.Io
import Verif.Props.Program
import Verif.Props.Panics2
import Verif.Props.Observed
import Verif.Props.Accuracy
import Verif.Props.FloatRange
import Verif.Props.Witness
import Verif.Props.Memory
import Verif.Spec.Units
import Verif.Spec.UnitsStrategy
import Verif.Float.Wide
import Verif.Lemmas.Units
import Verif.Lemmas.UnitsTa
import Verif.Lemmas.UnitsContent
import Verif.Lemmas.UnitsNew
import Verif.Props.Units
import Verif.Props.UnitsTa
import Verif.Conformance
import Verif.Spec.Mirror
import Verif.Lemmas.Sim
import Verif.Props.Mirror
import Verif.Props.Mirror2
import Verif.Model.Calendar
import Verif.Spec.Calendar
import Verif.Props.Calendar
import Verif.Model.Report
import Verif.Props.Report
import Verif.Model.Snapshot
import Verif.Props.Snapshot
import Verif.Spec.Reflect
import Verif.Lemmas.Reflect
import Verif.Lemmas.ReflectContent
import Verif.Lemmas.ReflectContent2
import Verif.Props.Reflect
import Verif.Props.Reflect2
import Verif.Props.Reflect3
import Verif.Props.Schedule
import Verif.Props.Schedule2
import Verif.Props.Missing
import Verif.Props.Level
import Verif.Props.Position
import Verif.Props.Compound
import Verif.Props.BookError
import Verif.Props.Flat
import Verif.Props.FlatFloat
import Verif.Props.FlatFloat2
import Verif.Props.Labels
import Verif.Props.CompoundError
import Verif.Cases.Data
import Verif.Cases.FloatData
import Verif.Cases.Statistics
import Verif.Cases.Core
import Verif.Cases.Ta
import Verif.Cases.Content
import Verif.Cases.Runs
import Verif.Cases.Strategy
import Verif.Cases.Rounded
import Verif.Cases.Symmetry
import Verif.Cases.Reflect
import Verif.Cases.Program
import Verif.Cases.Floats
import Verif.Props.Order
import Verif.Cases.Order
import Verif.Props.Trend
import Verif.Props.TrendFloat
import Verif.Cases.Trend
import Verif.Props.OnlyPosition
import Verif.Props.TwoReports
import Verif.Props.NoGap
import Verif.Cases.Signals
import Verif.Props.Side
import Verif.Cases.Side
import Verif.Props.AccuracyContent
import Verif.Props.AccuracySignals
import Verif.Props.AccuracyProgram
import Verif.Props.AccuracyRsi
import Verif.Props.AccuracyRange
import Verif.Props.AccuracyChannels
import Verif.Props.AccuracyOscillators
import Verif.Props.AccuracyLines
import Verif.Props.AccuracySums
import Verif.Props.AccuracyRatios
import Verif.Props.AccuracyVortex
import Verif.Props.AccuracyPrograms
import Verif.Props.AccuracyCurves
import Verif.Props.AccuracyCci
import Verif.Props.AccuracyAroon
import Verif.Props.AccuracyRoots
import Verif.Props.AccuracyBands
import Verif.Props.AccuracyDmi
import Verif.Props.AccuracyConnors
import Verif.Props.AccuracyVolatility
import Verif.Props.AccuracyChoppiness
import Verif.Props.AccuracyReport
import Verif.Props.AccuracyTrades
import Verif.Props.AccuracyAverages
import Verif.Props.AccuracyHistory
import Verif.Props.AccuracyCobra
import Verif.Props.AccuracyIntra
import Verif.Props.AccuracyCompound
import Verif.Props.AccuracyWelford
import Verif.Props.WelfordFloat
import Verif.Props.AccuracyFast
import Verif.Props.IdleReports
import Verif.Props.AccuracyStoch
import Verif.Cases.AccuracyContent
import Verif.Cases.AccuracyRange
import Verif.Cases.AccuracySums
import Verif.Cases.AccuracyCurves
import Verif.Cases.AccuracyAroon
import Verif.Cases.AccuracyBands
import Verif.Cases.AccuracyDmi
import Verif.Cases.AccuracyConnors
import Verif.Cases.AccuracyVolatility
import Verif.Cases.AccuracyChoppiness
import Verif.Cases.AccuracyReport
import Verif.Cases.AccuracyHistory
import Verif.Cases.AccuracyCobra
import Verif.Cases.AccuracyCompound
import Verif.Cases.AccuracyWelford
import Verif.Cases.WelfordFloat
import Verif.Cases.AccuracyFast
import Verif.Cases.IdleReports
import Verif.Cases.AccuracyStoch
