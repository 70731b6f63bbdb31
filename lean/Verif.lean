import Verif.Props.AdaptiveEqualization
import Verif.Props.Aliasing
import Verif.Props.AsLambert
import Verif.Props.Bruker
import Verif.Props.Calibration
import Verif.Props.Chunking
import Verif.Props.ConcurrentSave
import Verif.Props.Continuity
import Verif.Props.CropCall
import Verif.Props.CropIndexing
import Verif.Props.CropSimulation
import Verif.Props.CutBinary
import Verif.Props.DataCache
import Verif.Props.Decomposition
import Verif.Props.DetectorAttributes
import Verif.Props.DetectorFile
import Verif.Props.DetectorGeometry
import Verif.Props.DetectorPlotter
import Verif.Props.DetectorText
import Verif.Props.DetectorViews
import Verif.Props.DictionaryChanges
import Verif.Props.DictionaryIndexing
import Verif.Props.DirectionCosines
import Verif.Props.Downsample
import Verif.Props.DynamicBackground
import Verif.Props.EbsdDirectory
import Verif.Props.EdaxBinary
import Verif.Props.EmsoftEbsd
import Verif.Props.EmsoftMasterPattern
import Verif.Props.ExtractGrid
import Verif.Props.ExtrapolatePc
import Verif.Props.ExtrapolatedDetector
import Verif.Props.Fft
import Verif.Props.FftFilter
import Verif.Props.FileSession
import Verif.Props.FitPc
import Verif.Props.FitPcProjective
import Verif.Props.FlippedPatterns
import Verif.Props.FloatBackground
import Verif.Props.FloatBinning
import Verif.Props.FloatCoordinates
import Verif.Props.FloatDirections
import Verif.Props.FloatIntensity
import Verif.Props.FloatLambert
import Verif.Props.FloatMasterPattern
import Verif.Props.FloatPattern
import Verif.Props.FloatPc
import Verif.Props.FloatPosition
import Verif.Props.FloatRefinement
import Verif.Props.FloatRescale
import Verif.Props.FloatSimilarity
import Verif.Props.Forwarding
import Verif.Props.GainOffset
import Verif.Props.GeometricalSimulation
import Verif.Props.GetPatterns
import Verif.Props.H5Dict
import Verif.Props.H5Ebsd
import Verif.Props.H5Whole
import Verif.Props.HoughIndexing
import Verif.Props.ImageQuality
import Verif.Props.IndexingCalls
import Verif.Props.InterruptedSave
import Verif.Props.KinematicalMaster
import Verif.Props.Lambert
import Verif.Props.Load
import Verif.Props.MapSymmetry
import Verif.Props.MasterPattern
import Verif.Props.MasterSymmetry
import Verif.Props.MergeMaps
import Verif.Props.MergeOrder
import Verif.Props.MergedPositions
import Verif.Props.MirroredGeometry
import Verif.Props.MovedPatterns
import Verif.Props.NanNeighbours
import Verif.Props.NanRefinement
import Verif.Props.NanScores
import Verif.Props.NeighbourRelations
import Verif.Props.Neighbours
import Verif.Props.NloptRefinement
import Verif.Props.Nordif
import Verif.Props.NordifCalibration
import Verif.Props.NordifSave
import Verif.Props.NordifSettings
import Verif.Props.Normalize
import Verif.Props.Osm
import Verif.Props.OxfordBinary
import Verif.Props.OxfordFile
import Verif.Props.OxfordH5Ebsd
import Verif.Props.PartIndexing
import Verif.Props.PartOfMap
import Verif.Props.PatternOverlay
import Verif.Props.PatternSimulation
import Verif.Props.PcConventions
import Verif.Props.PhaseMaps
import Verif.Props.PositionFigures
import Verif.Props.Processing
import Verif.Props.PseudoSymmetry
import Verif.Props.Rebin
import Verif.Props.RedundantSteps
import Verif.Props.Refine
import Verif.Props.RefinedPhases
import Verif.Props.RefinementChecks
import Verif.Props.RefinementMaps
import Verif.Props.RefinementSetup
import Verif.Props.RefinementThreads
import Verif.Props.Rescale
import Verif.Props.RgbImage
import Verif.Props.RgbNavigator
import Verif.Props.RobustTilt
import Verif.Props.Rotations
import Verif.Props.SamplePosition
import Verif.Props.SampleToDetector
import Verif.Props.Save
import Verif.Props.ScanGroups
import Verif.Props.Script
import Verif.Props.SelfIndexing
import Verif.Props.SelfRefinement
import Verif.Props.SignalClass
import Verif.Props.SignalFftFilter
import Verif.Props.SignalHistory
import Verif.Props.SimulationAgreement
import Verif.Props.SimulationCollections
import Verif.Props.SliceSignal
import Verif.Props.StoredChunks
import Verif.Props.TiltFrames
import Verif.Props.VirtualBse
import Verif.Props.Window
import Verif.Props.WindowCreation
