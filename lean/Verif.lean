import Verif.Props.Config
import Verif.Props.Time
import Verif.Props.Legendre
import Verif.Props.Synth
import Verif.Props.SynthMore
import Verif.Props.SynthArgs
import Verif.Props.Index
import Verif.Props.Shc
import Verif.Props.PPoly
import Verif.Props.ShcModel
import Verif.Props.BSpline
import Verif.Props.DesignMatrix
import Verif.Props.Fourier
import Verif.Props.Spectrum
import Verif.Props.MeanSquare
import Verif.Props.Coord
import Verif.Props.CoordVec
import Verif.Props.Sun
import Verif.Props.Geodetic
import Verif.Props.Chaos
import Verif.Props.ChaosSm
import Verif.Props.ChaosField
import Verif.Props.Keywords
import Verif.Props.Igrf
import Verif.Props.QResponse
import Verif.Props.Analysis
import Verif.Props.Rotation
import Verif.Props.Matfile
import Verif.Props.MatfileMore
import Verif.Props.ChaosShc
import Verif.Props.ChaosParts
import Verif.Props.Broadcast
import Verif.Props.ChaosArr
import Verif.Props.RotateGood
import Verif.Props.ConfigHeap
import Verif.Props.SynthPP
import Verif.Props.Plot
import Verif.Props.PlotModel
import Verif.Props.Layers
import Verif.Props.FloatTime
import Verif.Props.FloatAngle
import Verif.Props.SplineText
import Verif.Props.RcFile
import Verif.Props.ShcCut
import Verif.Props.ConfigText
import Verif.Props.ConfigThreads
import Verif.Props.ModelHeap
import Verif.Props.MatfileSteps
import Verif.Examples.Basics
import Verif.Examples.Times
import Verif.Examples.Configs
import Verif.Examples.Splines
import Verif.Examples.Fields
import Verif.Examples.Models
import Verif.Examples.Coords
import Verif.Examples.Loaders
import Verif.Examples.Induction
import Verif.Examples.Objects
import Verif.Props.CoordArr
import Verif.Props.CoordArrVec
import Verif.Props.CoordArrErr
import Verif.Examples.CoordArrays
import Verif.Props.DesignArr
import Verif.Examples.DesignArrays
import Verif.Props.ElemArr
import Verif.Props.GeodArr
import Verif.Examples.ElemArrays
import Verif.Props.TimeArr
import Verif.Examples.TimeArrays
import Verif.Props.ShcAny
import Verif.Examples.ShcTexts
import Verif.Props.RotateArr
import Verif.Examples.RotateArrays
import Verif.Props.SplineCut
import Verif.Props.IgrfCut
import Verif.Examples.CutFiles
import Verif.Props.RcCut
import Verif.Props.MatfileShared
import Verif.Examples.Shared
import Verif.Props.SynthWarn
import Verif.Examples.SynthWarn
import Verif.Examples.SynthNan
import Verif.Examples.FloatShc
import Verif.Examples.FloatSpectrum
import Verif.Examples.FloatLegendre
import Verif.Props.SynthNan
import Verif.Props.FloatPP
import Verif.Props.FloatLinear
import Verif.Props.FloatShc
import Verif.Props.FloatSpectrum
import Verif.Props.FloatLegendre
import Verif.Props.FloatAccuracy
import Verif.Props.FloatField
import Verif.Props.FloatDesign
import Verif.Props.FloatCoord
import Verif.Props.FloatAzimuth
import Verif.Props.FloatSphere
import Verif.Examples.FloatCoord
import Verif.Examples.FloatField
import Verif.Props.FloatGeod
import Verif.Props.FloatGeodNumbers
import Verif.Examples.FloatGeod
import Verif.Examples.FloatSun
import Verif.Examples.FloatBase
import Verif.Props.FloatGeodAccuracy
import Verif.Props.FloatGgToGeo
import Verif.Props.FloatGgVector
import Verif.Props.FloatSun
import Verif.Props.FloatBase
import Verif.Props.FloatTransform
import Verif.Props.FloatVectors
import Verif.Examples.FloatVectors
import Verif.Props.FloatModel
import Verif.Examples.FloatModel
import Verif.Props.FloatModelSpectrum
