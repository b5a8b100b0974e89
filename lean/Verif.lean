import Verif.DepositProps
import Verif.ContinuityProps
import Verif.YeeProps
import Verif.GatherProps
import Verif.PusherProps
import Verif.MotionProps
import Verif.SystemProps
import Verif.LoadProps
import Verif.BunchProps
import Verif.ProbeProps
import Verif.ReaderProps
import Verif.CacheProps
import Verif.LibProps
import Verif.PmlProps
import Verif.LimitsProps
import Verif.DiagProps
import Verif.TridiagProps
import Verif.ShapeProps
import Verif.FftPi
import Verif.PoissonProps
import Verif.YeeStable
import Verif.StableProps
import Verif.GatherExact
import Verif.PusherLaw
import Verif.Double
import Verif.DoubleProps
import Verif.MjTables
import Verif.Sampler
import Verif.SamplerProps
import Verif.Output
import Verif.OutputProps
import Verif.ResultReader
import Verif.ResultReaderProps
import Verif.Config
import Verif.ConfigNum
import Verif.ConfigSpec
import Verif.ConfigProps
import Verif.ConfigSame
import Verif.ConfigSafe
import Verif.PyParams
import Verif.PyParamsProps
import Verif.PyParamsDesc
import Verif.PyPaths
import Verif.PyIndexProps
import Verif.CurrentSafe
import Verif.Planar
import Verif.RunSafe
import Verif.Unset
import Verif.AzimuthalFault
import Verif.RunAny
import Verif.Program
import Verif.ProgramProps
import Verif.Plasma
import Verif.PlasmaProps
import Verif.PlasmaCold
import Verif.PusherSym
import Verif.Bicubic
import Verif.BicubicProps
import Verif.Hdf5
import Verif.Hdf5Props
import Verif.IoText
import Verif.IoTextProps
import Verif.Calculator
import Verif.CalculatorProps
import Verif.Session
import Verif.SessionProps
import Verif.Hdf5Cache
import Verif.Hdf5CacheProps
import Verif.TestMode
import Verif.TestModeProps
import Verif.AtRest
import Verif.GaussStart
import Verif.SamplerLaw
import Verif.FixExp
import Verif.MjTable
import Verif.MjFunc
import Verif.MjGuess
import Verif.MjExact
import Verif.MjLaw
import Verif.ClassicTable
import Verif.ClassicFunc
import Verif.ClassicLaw
import Verif.ThermalMean
import Verif.ThermalTemp
import Verif.ThermalCold
import Verif.ThermalCool
import Verif.ThermalFrozen
import Verif.CycleParts
import Verif.CycleImage
import Verif.Population
import Verif.SystemSym
import Verif.Taylor
import Verif.YeeError
import Verif.Converge
import Verif.ConvergeProps
import Verif.ConvergeRest
import Verif.Halton
import Verif.Density
import Verif.Movie
import Verif.MovieProps
import Verif.Plot
import Verif.PlotProps
import Verif.Rounded
import Verif.RoundedProps
import Verif.RoundedIeee
import Verif.FieldRounded
import Verif.FieldRoundedProps
import Verif.FieldRoundedIeee
import Verif.FieldRoundedCurrents
import Verif.Causality
import Verif.CausalityProps
import Verif.HeapModel
import Verif.HeapProps
import Verif.HeapLeaks
import Verif.ProgOutput
import Verif.ProgOutputProps
import Verif.ProgOutputTime
import Verif.Report
import Verif.ReportProps
import Verif.FuncTest
import Verif.FuncTestProps
import Verif.RoundedPush
import Verif.RoundedPushProps
import Verif.RoundedPushRun
import Verif.RoundedPushHistory
import Verif.RoundedPushIeee
import Verif.Spectrum
import Verif.SpectrumProps
import Verif.VelocityHist
import Verif.VelocityHistProps
import Verif.FieldRoundedLaws
import Verif.PushConverge
import Verif.PushConvergeCases
import Verif.PathConverge
import Verif.PathConvergeCases
import Verif.PathGrid
import Verif.TimeSeries
import Verif.TimeSeriesProps
import Verif.Translation
import Verif.TranslationProps
import Verif.Still
import Verif.StillProps
import Verif.ProfileProps
import Verif.Mirror
import Verif.MirrorProps
import Verif.MirrorParts
import Verif.MirrorCycle
import Verif.MirrorCycleProps
import Verif.SpaceTime
import Verif.SpaceTimeProps
import Verif.WindowMean
import Verif.WindowMeanProps
import Verif.PlainSeries
import Verif.ShortTime
import Verif.ShortTimeProps
import Verif.Compare
import Verif.CompareProps
import Verif.NbRun
import Verif.NbRunProps
