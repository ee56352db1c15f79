import Verif.Base
import Verif.SMap
import Verif.Material
import Verif.MaterialProps
import Verif.Beam
import Verif.BeamProps
import Verif.TransmissionTable
import Verif.TransmissionTableProps
import Verif.Layer
import Verif.LayerProps
import Verif.Detector
import Verif.DetectorProps
import Verif.Shell
import Verif.ShellLemmas
import Verif.ShellProps
import Verif.ShellDecay
import Verif.ShellTransfer
import Verif.Element
import Verif.ElementInterp
import Verif.ElementExtrapolate
import Verif.ElementMore
import Verif.EPDL97Values
import Verif.ElementProps
import Verif.ElementCascade
import Verif.ElementCache
import Verif.MathFn
import Verif.MathFnProps
import Verif.EPDL97
import Verif.EPDL97Props
import Verif.Formula
import Verif.FormulaProps
import Verif.Library
import Verif.LibraryProps
import Verif.LibraryComp
import Verif.LibraryMix
import Verif.LibraryPeaks
import Verif.LibraryEscape
import Verif.Ini
import Verif.IniProps
import Verif.Specfile
import Verif.SpecfileProps
import Verif.Config
import Verif.ConfigProps
import Verif.Xrf
import Verif.XrfProps
import Verif.Multilayer
import Verif.MultilayerLemmas
import Verif.MultilayerProps
import Verif.MultilayerBeam
import Verif.MultilayerC46
import Verif.ElementLines
import Verif.ElementThreshold
import Verif.MultilayerEnv
import Verif.MultilayerApi
import Verif.MultilayerPrimary
import Verif.ElementSums
import Verif.VectorApi
import Verif.LayerLibrary
import Verif.Good
import Verif.ElementTotal
import Verif.MultilayerTotal
import Verif.MultilayerExample
import Verif.Loader
import Verif.LoaderProps
import Verif.ElementShells
import Verif.MultilayerSecondary
import Verif.MultilayerThick
import Verif.MultilayerTertiary
import Verif.Install
import Verif.Edges
import Verif.InstallProps
import Verif.InstallTable
import Verif.InstallQuery
import Verif.InstallExamples
import Verif.InstallLibrary
import Verif.EPDL97Load
import Verif.MultilayerParts
import Verif.Init
import Verif.InitProps
import Verif.InitTables
import Verif.InitShells
import Verif.InitExamples
import Verif.InitFiles
import Verif.ElementRefs
import Verif.Sound
import Verif.SoundExamples
import Verif.Caches
import Verif.CachesXrf
import Verif.ElementOrder
import Verif.MathDebug
import Verif.MathE1
import Verif.MathE1Small
import Verif.MathEn
import Verif.MathPV
import Verif.MathL0
import Verif.MathL0Jump
import Verif.MathX
import Verif.ElementInfo
import Verif.ShellOverloads
import Verif.ConfigDoc
import Verif.PolyCheck
import Verif.MathErf
import Verif.ElementEmission
import Verif.SecondaryIntegral
import Verif.SecondaryReturns
import Verif.SecondarySample
import Verif.SecondaryExample
import Verif.Requests
import Verif.Remaining
import Verif.InstallSafe
import Verif.ShellCore
import Verif.Conserve
import Verif.Python
import Verif.PythonProps
import Verif.CacheSize
import Verif.PythonMore
import Verif.Split
import Verif.FormulaMass
import Verif.Threads
import Verif.MultilayerMono
import Verif.FilterOrder
import Verif.Bare
import Verif.Detection
import Verif.Filters
import Verif.FiltersExample
import Verif.EscapeIntegral
import Verif.ConfigBeam
import Verif.ConfigGeometry
import Verif.ConfigTables
import Verif.Extend
import Verif.PythonShell
import Verif.PythonElements
import Verif.PythonCaches
import Verif.PythonElement
import Verif.PythonResults
import Verif.PythonDetector
import Verif.PythonXrf
import Verif.PythonTools
import Verif.MassThickness
import Verif.ThicknessMono
import Verif.MorePhotons
import Verif.RequestLayers
import Verif.OptionEffects
import Verif.CalculationLimit
import Verif.EscapeCount
import Verif.NotANumber
import Verif.Rounding
import Verif.RoundingProps
import Verif.RoundingTransmission
import Verif.CrossSign
import Verif.PythonLayer
import Verif.PythonLayerObject
import Verif.PythonEPDL
import Verif.SpecfileRound
import Verif.ShellYield
