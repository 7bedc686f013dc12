import Verif.Model.Batch
import Verif.Model.BatchCommands
import Verif.Model.BatchFiles
import Verif.Model.BatchLazy
import Verif.Model.Buffers
import Verif.Model.Cache
import Verif.Model.Cli
import Verif.Model.ConfTemplate
import Verif.Model.DataSource
import Verif.Model.DeconvFreq
import Verif.Model.DeconvIter
import Verif.Model.DeconvMt
import Verif.Model.DeconvTime
import Verif.Model.Deconvolve
import Verif.Model.DoubleDelay
import Verif.Model.DoubleIndex
import Verif.Model.DoubleInterp
import Verif.Model.DoubleMean
import Verif.Model.DoubleMoveoutS
import Verif.Model.DoubleNorm
import Verif.Model.DoubleOnset
import Verif.Model.DoublePpoint
import Verif.Model.DoubleSnap
import Verif.Model.DoubleWindows
import Verif.Model.EventIter
import Verif.Model.Harmonics
import Verif.Model.Headers
import Verif.Model.Iasp91
import Verif.Model.Imaging
import Verif.Model.Iter
import Verif.Model.IterPicks
import Verif.Model.Json
import Verif.Model.Kernels
import Verif.Model.Keywords
import Verif.Model.LoadTxt
import Verif.Model.Maps
import Verif.Model.NanData
import Verif.Model.Noise
import Verif.Model.Ppoints
import Verif.Model.ProcInfo
import Verif.Model.Profile
import Verif.Model.RfStats
import Verif.Model.SacTimes
import Verif.Model.Simple
import Verif.Model.SingleArray
import Verif.Model.Stream
import Verif.Model.StreamDeconvolve
import Verif.Model.Text
import Verif.Model.TraceWrite
import Verif.Props.BatchChain
import Verif.Props.BatchCommands
import Verif.Props.BatchConfig
import Verif.Props.BatchData
import Verif.Props.BatchFiles
import Verif.Props.BatchInPlace
import Verif.Props.BatchNames
import Verif.Props.BatchRun
import Verif.Props.BatchTight
import Verif.Props.Buffers
import Verif.Props.Cache
import Verif.Props.Cli
import Verif.Props.CoherentStack
import Verif.Props.ConfTemplateProps
import Verif.Props.Corr
import Verif.Props.CrossCorr
import Verif.Props.CustomFunc
import Verif.Props.DataSource
import Verif.Props.DeconvTime
import Verif.Props.Deconvolve
import Verif.Props.DeconvolveCall
import Verif.Props.DeconvolveKernel
import Verif.Props.DeconvolveProps
import Verif.Props.DeconvolveRecover
import Verif.Props.Delay
import Verif.Props.DelayAll
import Verif.Props.DelaySlowness
import Verif.Props.DepthError
import Verif.Props.DepthTicks
import Verif.Props.DoubleDelay
import Verif.Props.DoubleDelayErr
import Verif.Props.DoubleIdentity
import Verif.Props.DoubleIndex
import Verif.Props.DoubleInterp
import Verif.Props.DoubleMean
import Verif.Props.DoubleMoveoutEnd
import Verif.Props.DoubleMoveoutS
import Verif.Props.DoubleNorm
import Verif.Props.DoubleOnset
import Verif.Props.DoublePpoint
import Verif.Props.DoubleSnap
import Verif.Props.DoubleTables
import Verif.Props.DoubleWindows
import Verif.Props.Evanescent
import Verif.Props.EventData
import Verif.Props.EventIter
import Verif.Props.EventMetadata
import Verif.Props.FailRf
import Verif.Props.Freq
import Verif.Props.Gain
import Verif.Props.GainKernels
import Verif.Props.GainRf
import Verif.Props.Harmonics
import Verif.Props.HarmonicsCounter
import Verif.Props.HarmonicsEven
import Verif.Props.HarmonicsExact
import Verif.Props.HarmonicsExamples
import Verif.Props.HarmonicsLayout
import Verif.Props.HarmonicsLinear
import Verif.Props.HarmonicsStable
import Verif.Props.HarmonicsSymm
import Verif.Props.HeaderOverride
import Verif.Props.HeaderRoundtrip
import Verif.Props.HeaderStale
import Verif.Props.Headers
import Verif.Props.Iasp91
import Verif.Props.Iasp91File
import Verif.Props.Iasp91Moveout
import Verif.Props.Iasp91Ppoint
import Verif.Props.Imaging
import Verif.Props.ImagingHarmonics
import Verif.Props.ImagingProfile
import Verif.Props.Independent
import Verif.Props.IndependentRf
import Verif.Props.Iter
import Verif.Props.IterConverge
import Verif.Props.IterNoise
import Verif.Props.IterRf
import Verif.Props.Iterative
import Verif.Props.IterativeProps
import Verif.Props.Join
import Verif.Props.JsonCases
import Verif.Props.JsonGrammar
import Verif.Props.JsonProps
import Verif.Props.KeptCodes
import Verif.Props.KeptHeaders
import Verif.Props.KeptHeadersMore
import Verif.Props.KeptPlot
import Verif.Props.KeywordProps
import Verif.Props.Later
import Verif.Props.LaterRf
import Verif.Props.LengthOption
import Verif.Props.Local
import Verif.Props.Lstsq
import Verif.Props.LstsqExists
import Verif.Props.MapHeap
import Verif.Props.Maps
import Verif.Props.ModelText
import Verif.Props.Models
import Verif.Props.Moveout
import Verif.Props.MoveoutLinear
import Verif.Props.MoveoutModel
import Verif.Props.MoveoutStream
import Verif.Props.MoveoutTime
import Verif.Props.Multitaper
import Verif.Props.MultitaperWindows
import Verif.Props.NanData
import Verif.Props.Noise
import Verif.Props.NoiseGiven
import Verif.Props.NoiseKernel
import Verif.Props.NoiseUse
import Verif.Props.OneSpike
import Verif.Props.OrderDec
import Verif.Props.OrderKernels
import Verif.Props.OrderRf
import Verif.Props.PhaseMethod
import Verif.Props.Pipeline
import Verif.Props.PlotDetails
import Verif.Props.Ppoint
import Verif.Props.Ppoints
import Verif.Props.ProcInfo
import Verif.Props.ProcText
import Verif.Props.Profile
import Verif.Props.ProfileBoxes
import Verif.Props.ProfileHeaders
import Verif.Props.ProfileMoveout
import Verif.Props.ProfileParts
import Verif.Props.ProfileStack
import Verif.Props.Real
import Verif.Props.RecordRf
import Verif.Props.Recover
import Verif.Props.RecoverRf
import Verif.Props.RecoverTime
import Verif.Props.ReturnsRf
import Verif.Props.RfStats
import Verif.Props.RfStatsPiercing
import Verif.Props.RootNames
import Verif.Props.SacTimes
import Verif.Props.SingleArray
import Verif.Props.SourceZeros
import Verif.Props.SphereBoxes
import Verif.Props.Stable
import Verif.Props.StackMoveout
import Verif.Props.StackTwice
import Verif.Props.Stream
import Verif.Props.StreamDec
import Verif.Props.StreamDefaults
import Verif.Props.StreamOps
import Verif.Props.StreamRf
import Verif.Props.StreamRoundtrip
import Verif.Props.Stretch
import Verif.Props.Superposition
import Verif.Props.TableError
import Verif.Props.TableErrorS
import Verif.Props.Text
import Verif.Props.TimeEnergy
import Verif.Props.Toeplitz
import Verif.Props.TrimHarmonics
import Verif.Props.TrimMoveout
import Verif.Props.TrimProfile
import Verif.Props.TrimStack
import Verif.Props.VelocityError
import Verif.Props.VelocityPpoint
import Verif.Props.Water
import Verif.Props.WaterDelay
import Verif.Props.WaterEnergy
import Verif.Props.WaterNorm
import Verif.Props.Write
import Verif.Props.WriteAgain
import Verif.Props.WriteIndex
import Verif.Props.WriteResults
import Verif.Py.Arr
import Verif.Py.Basic
import Verif.Py.Dft
import Verif.Py.Double
import Verif.Py.Fnmatch
import Verif.Py.Heap
import Verif.Py.Interp
import Verif.Py.Single
import Verif.Spec.ConfTemplate
import Verif.Spec.Config
import Verif.Spec.Convolution
import Verif.Spec.Corr
import Verif.Spec.Coverage
import Verif.Spec.Deconvolve
import Verif.Spec.Evanescent
import Verif.Spec.Freq
import Verif.Spec.Gain
import Verif.Spec.Glob
import Verif.Spec.Iasp91
import Verif.Spec.Iterative
import Verif.Spec.Json
import Verif.Spec.KeptHeaders
import Verif.Spec.Length
import Verif.Spec.Linear
import Verif.Spec.Lstsq
import Verif.Spec.Order
import Verif.Spec.Pipeline
import Verif.Spec.Profile
import Verif.Spec.PulseTrain
import Verif.Spec.RecordRf
import Verif.Spec.Records
import Verif.Spec.Shift
import Verif.Spec.Simple
import Verif.Spec.SingleArray
import Verif.Spec.Sphere
import Verif.Spec.Stream
import Verif.Spec.Superposed
import Verif.Spec.Tables
import Verif.Spec.Trim
