import Verif.Base.ArgMax
import Verif.Base.Arr2
import Verif.Base.Cis
import Verif.Base.Double
import Verif.Base.DoubleDot
import Verif.Base.DoubleEval
import Verif.Base.DoubleProd
import Verif.Base.DoubleRel
import Verif.Base.DoubleSum
import Verif.Base.LeastSq
import Verif.Base.Morph
import Verif.Base.Ndimage
import Verif.Base.Py
import Verif.Base.RotateExact
import Verif.Base.Round
import Verif.Base.Rounding
import Verif.Base.Sel
import Verif.Base.Spline
import Verif.Base.Symmetric
import Verif.Base.ZSum
import Verif.Lemmas.Area
import Verif.Lemmas.BandSample
import Verif.Lemmas.Fft
import Verif.Lemmas.GainMapForm
import Verif.Lemmas.MemCheck
import Verif.Lemmas.MemSound
import Verif.Lemmas.PadCrop
import Verif.Lemmas.RadialOrtho
import Verif.Lemmas.RectProper
import Verif.Lemmas.Shapes
import Verif.Lemmas.ShapesDouble
import Verif.Lemmas.ThinFilm
import Verif.Lemmas.Zernike
import Verif.Lemmas.ZernikeDouble
import Verif.Lemmas.ZernikeOrtho
import Verif.Model.AmpThresh
import Verif.Model.AmpThreshC
import Verif.Model.BadPixels
import Verif.Model.BadPixelsDm
import Verif.Model.BadPixelsFocal
import Verif.Model.Center
import Verif.Model.CenterDouble
import Verif.Model.Check
import Verif.Model.CoarseOnceDouble
import Verif.Model.CombineCrop
import Verif.Model.Conjugate
import Verif.Model.DarkHole
import Verif.Model.DarkHoleDouble
import Verif.Model.DmReg
import Verif.Model.DmShapes
import Verif.Model.Dmhtoph
import Verif.Model.DrUtil
import Verif.Model.FfUtil
import Verif.Model.Fft
import Verif.Model.FindOpt
import Verif.Model.FitShapes
import Verif.Model.FitSurf
import Verif.Model.FocalFit
import Verif.Model.Fresnel
import Verif.Model.FresnelDouble
import Verif.Model.GainMap
import Verif.Model.GridSearch
import Verif.Model.HlcDouble
import Verif.Model.HlcOcculter
import Verif.Model.IntImages
import Verif.Model.Lateral
import Verif.Model.LoadYaml
import Verif.Model.MaskDouble
import Verif.Model.MaskFit
import Verif.Model.MaskGen
import Verif.Model.Materials
import Verif.Model.Math
import Verif.Model.Matlab
import Verif.Model.MatlabYaml
import Verif.Model.MemProgs
import Verif.Model.Memory
import Verif.Model.Mft
import Verif.Model.MftDouble
import Verif.Model.OccAstro
import Verif.Model.PadCrop
import Verif.Model.PlateSolv
import Verif.Model.PlateSolvDouble
import Verif.Model.PsfFit
import Verif.Model.PupilFit
import Verif.Model.PupilSearch
import Verif.Model.PupilSearchDouble
import Verif.Model.Quad
import Verif.Model.QuadDouble
import Verif.Model.RectProper
import Verif.Model.Shapes
import Verif.Model.ShapesDouble
import Verif.Model.SoftwareMask
import Verif.Model.SpmShear
import Verif.Model.ThinFilm
import Verif.Model.Unwrap
import Verif.Model.VoltsDouble
import Verif.Model.Zernike
import Verif.Model.ZernikeDouble
import Verif.Model.ZernikeFloat
import Verif.Model.ZeroGain
import Verif.Props.AmpThresh
import Verif.Props.AmpThreshC
import Verif.Props.Annular
import Verif.Props.BadPixels
import Verif.Props.BadPixelsDm
import Verif.Props.BadPixelsDmCases
import Verif.Props.BadPixelsFocal
import Verif.Props.Cases1
import Verif.Props.Cases2
import Verif.Props.Cases3
import Verif.Props.Cases4
import Verif.Props.Cases5
import Verif.Props.Cases6
import Verif.Props.Center
import Verif.Props.CenterDouble
import Verif.Props.Check
import Verif.Props.Clocking
import Verif.Props.ClockingCases
import Verif.Props.ClockingCounts
import Verif.Props.CoarseAllDouble
import Verif.Props.CoarseDouble
import Verif.Props.CoarseExposure
import Verif.Props.CoarseFinds
import Verif.Props.CoarseGround
import Verif.Props.CoarseGroundDouble
import Verif.Props.CoarseGroundUse
import Verif.Props.CoarsePhoto
import Verif.Props.CoarseUse
import Verif.Props.CombineCrop
import Verif.Props.Conjugate
import Verif.Props.ConjugateOutside
import Verif.Props.ConjugateSplit
import Verif.Props.DarkHole
import Verif.Props.DarkHoleDouble
import Verif.Props.Directions
import Verif.Props.DmReg
import Verif.Props.DmRegBlind
import Verif.Props.DmRegCases
import Verif.Props.DmRegData
import Verif.Props.DmRoundTrip
import Verif.Props.DmRoundTripCases
import Verif.Props.DmShapes
import Verif.Props.DmSymmetry
import Verif.Props.DmWaves
import Verif.Props.DmhPlaced
import Verif.Props.Dmhtoph
import Verif.Props.Double
import Verif.Props.DoubleDyadic
import Verif.Props.DoubleVolts
import Verif.Props.DrUtil
import Verif.Props.EllipseTurned
import Verif.Props.FfUtil
import Verif.Props.Fft
import Verif.Props.FindOpt
import Verif.Props.FindOptFit
import Verif.Props.FitShapes
import Verif.Props.FitSurf
import Verif.Props.FlattenModel
import Verif.Props.FlattenRest
import Verif.Props.FocalFit
import Verif.Props.Fresnel
import Verif.Props.FresnelDouble
import Verif.Props.FresnelMoved
import Verif.Props.FresnelWaves
import Verif.Props.GainMap
import Verif.Props.GainMapCubic
import Verif.Props.GainMapUse
import Verif.Props.GridSearch
import Verif.Props.HlcDouble
import Verif.Props.HlcOcculter
import Verif.Props.HlcOcculterCases
import Verif.Props.IntImages
import Verif.Props.Lateral
import Verif.Props.LateralSelf
import Verif.Props.LoadYaml
import Verif.Props.LyotFit
import Verif.Props.LyotFitCases
import Verif.Props.MaskDouble
import Verif.Props.MaskFit
import Verif.Props.MaskFitCases
import Verif.Props.MaskGen
import Verif.Props.MaskGenTurn
import Verif.Props.MaskGenWhole
import Verif.Props.Materials
import Verif.Props.Math
import Verif.Props.Matlab
import Verif.Props.MatlabYaml
import Verif.Props.MeasureSymmetry
import Verif.Props.Memory
import Verif.Props.Mft
import Verif.Props.MftDouble
import Verif.Props.MftRejects
import Verif.Props.MftShift
import Verif.Props.Nesting
import Verif.Props.NoiseFree
import Verif.Props.NoiseGain
import Verif.Props.NoiseSpots
import Verif.Props.NoiseVertex
import Verif.Props.NoisyPupil
import Verif.Props.NoisyPupilFits
import Verif.Props.NollFloat
import Verif.Props.NormFactor
import Verif.Props.NormValue
import Verif.Props.NormalIncidence
import Verif.Props.OccAstro
import Verif.Props.OptimumAxes
import Verif.Props.PadCrop
import Verif.Props.PatternSymmetry
import Verif.Props.PlateSolv
import Verif.Props.PlateSolvCases
import Verif.Props.PlateSolvDouble
import Verif.Props.PlateSolvFails
import Verif.Props.PsfAccuracy
import Verif.Props.PsfFit
import Verif.Props.PsfFitMean
import Verif.Props.PsfFraction
import Verif.Props.PsfNoise
import Verif.Props.PsfPeak
import Verif.Props.PsfSymmetry
import Verif.Props.Pupil
import Verif.Props.PupilAnswers
import Verif.Props.PupilFit
import Verif.Props.PupilFitCases
import Verif.Props.PupilOld
import Verif.Props.PupilOldCases
import Verif.Props.PupilSearch
import Verif.Props.PupilSearchDouble
import Verif.Props.PupilZernike
import Verif.Props.PupilZernikeBlock
import Verif.Props.PupilZernikeCases
import Verif.Props.Quad
import Verif.Props.QuadDouble
import Verif.Props.RectProper
import Verif.Props.Refusals
import Verif.Props.Refusals2
import Verif.Props.Refusals3
import Verif.Props.Refusals4
import Verif.Props.Refusals5
import Verif.Props.Refusals6
import Verif.Props.RegistrationSymmetry
import Verif.Props.SegmentsPiston
import Verif.Props.SegmentsTogether
import Verif.Props.ShapeArea
import Verif.Props.ShapeCentre
import Verif.Props.ShapeEdges
import Verif.Props.ShapeIndep
import Verif.Props.ShapeSymmetry
import Verif.Props.Shapes
import Verif.Props.SoftwareMask
import Verif.Props.SpmShear
import Verif.Props.SpotExposure
import Verif.Props.ThinFilm
import Verif.Props.UnitOfLength
import Verif.Props.Unwrap
import Verif.Props.UpDft
import Verif.Props.UpDftBetween
import Verif.Props.Zernike
import Verif.Props.ZernikeBeam
import Verif.Props.ZernikeDouble
import Verif.Props.ZernikeFit
import Verif.Props.ZernikeOrtho
import Verif.Props.ZernikeSampled
import Verif.Props.ZernikeSymmetry
import Verif.Props.ZeroGain
import Verif.Spec.Area
import Verif.Spec.BestFit
import Verif.Spec.Center
import Verif.Spec.Check
import Verif.Spec.DmReg
import Verif.Spec.DmRoundTrip
import Verif.Spec.Double
import Verif.Spec.FitShapes
import Verif.Spec.FlattenModel
import Verif.Spec.HlcOcculter
import Verif.Spec.Lateral
import Verif.Spec.MaskFit
import Verif.Spec.MaterialData
import Verif.Spec.NoiseFree
import Verif.Spec.PadCrop
import Verif.Spec.PlateSolv
import Verif.Spec.PlateSolvDouble
import Verif.Spec.PupilFit
import Verif.Spec.PupilMean
import Verif.Spec.RectProper
import Verif.Spec.Registration
import Verif.Spec.Search
import Verif.Spec.SettingsFile
import Verif.Spec.Shapes
import Verif.Spec.Spots
import Verif.Spec.ThinFilm
import Verif.Spec.Window
import Verif.Spec.Zernike
import Verif.Spec.ZernikeDouble
