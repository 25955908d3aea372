import Verif.Lemmas.AlignDriver
import Verif.Lemmas.AlignKalman
import Verif.Lemmas.AlignRun
import Verif.Lemmas.AlignSettings
import Verif.Lemmas.AlignTelescope
import Verif.Lemmas.ApplyAlignment
import Verif.Lemmas.Binning
import Verif.Lemmas.Bits
import Verif.Lemmas.ChargeSharing
import Verif.Lemmas.CheckFile
import Verif.Lemmas.ChunkLoop
import Verif.Lemmas.ChunkReader
import Verif.Lemmas.ChunkSeek
import Verif.Lemmas.Chunks
import Verif.Lemmas.ClusterHits
import Verif.Lemmas.Clusters
import Verif.Lemmas.Combine
import Verif.Lemmas.CompareFiles
import Verif.Lemmas.ConvertCoordinates
import Verif.Lemmas.Converters
import Verif.Lemmas.Correlate
import Verif.Lemmas.Diamond
import Verif.Lemmas.Digitize
import Verif.Lemmas.Efficiency
import Verif.Lemmas.EfficiencyArgs
import Verif.Lemmas.EventArrays
import Verif.Lemmas.EventScan
import Verif.Lemmas.FindFile
import Verif.Lemmas.FindLocal
import Verif.Lemmas.FindTracks
import Verif.Lemmas.FindTruth
import Verif.Lemmas.FitArgs
import Verif.Lemmas.FitGroups
import Verif.Lemmas.FitTracks
import Verif.Lemmas.Geometry
import Verif.Lemmas.HistStat
import Verif.Lemmas.HitFiles
import Verif.Lemmas.InPixel
import Verif.Lemmas.Isolation
import Verif.Lemmas.KalmanAlign
import Verif.Lemmas.KalmanAlignOut
import Verif.Lemmas.KalmanFilter
import Verif.Lemmas.KalmanFit
import Verif.Lemmas.KalmanLoop
import Verif.Lemmas.KalmanPath
import Verif.Lemmas.KalmanScatter
import Verif.Lemmas.KalmanTrack
import Verif.Lemmas.LineFit
import Verif.Lemmas.LineFitError
import Verif.Lemmas.LineTracks
import Verif.Lemmas.MaskPixels
import Verif.Lemmas.MaxEvents
import Verif.Lemmas.MergeClusters
import Verif.Lemmas.PixelTree
import Verif.Lemmas.Plots
import Verif.Lemmas.Prealign
import Verif.Lemmas.RegionHist
import Verif.Lemmas.ResCorr
import Verif.Lemmas.ResidualFit
import Verif.Lemmas.Residuals
import Verif.Lemmas.SaveArguments
import Verif.Lemmas.SelectArgs
import Verif.Lemmas.Selection
import Verif.Lemmas.Shuffle
import Verif.Lemmas.SimChain
import Verif.Lemmas.SimChainData
import Verif.Lemmas.SimChainEvent
import Verif.Lemmas.SimChainTruth
import Verif.Lemmas.SimData
import Verif.Lemmas.Simulate
import Verif.Lemmas.SimulateStore
import Verif.Lemmas.Singular
import Verif.Lemmas.Smc
import Verif.Lemmas.SmcCombine
import Verif.Lemmas.SmcEnd
import Verif.Lemmas.SmcFair
import Verif.Lemmas.Std
import Verif.Lemmas.Telescope
import Verif.Lemmas.TelescopeDut
import Verif.Lemmas.TelescopeLoad
import Verif.Lemmas.TrackAngle
import Verif.Lemmas.Transformation
import Verif.Lemmas.YamlFile
import Verif.Model.AlignChain
import Verif.Model.AlignDriver
import Verif.Model.AlignKalman
import Verif.Model.AlignTelescope
import Verif.Model.AngleFile
import Verif.Model.ApplyAlignment
import Verif.Model.ArrayDiff
import Verif.Model.ArrayTools
import Verif.Model.Binning
import Verif.Model.Bits
import Verif.Model.Chain
import Verif.Model.ChainFit
import Verif.Model.ChainKalman
import Verif.Model.ChainKalmanRes
import Verif.Model.ChainResiduals
import Verif.Model.ChargeSharing
import Verif.Model.CheckFile
import Verif.Model.CheckPlot
import Verif.Model.ChunkReader
import Verif.Model.ClusterHits
import Verif.Model.ClusterShape
import Verif.Model.CompareFiles
import Verif.Model.ConvertCoordinates
import Verif.Model.Converters
import Verif.Model.Correlate
import Verif.Model.CorrelationPlot
import Verif.Model.DataSelection
import Verif.Model.Diamond
import Verif.Model.Dut
import Verif.Model.EffectivePixels
import Verif.Model.Efficiency
import Verif.Model.EfficiencyArgs
import Verif.Model.EfficiencyInterval
import Verif.Model.EventArrays
import Verif.Model.FindFile
import Verif.Model.FindTracks
import Verif.Model.FitArgs
import Verif.Model.FitTracks
import Verif.Model.Fixture
import Verif.Model.GaussFit
import Verif.Model.Geometry
import Verif.Model.GridTools
import Verif.Model.Hist
import Verif.Model.HistStat
import Verif.Model.HitFiles
import Verif.Model.HoughPlot
import Verif.Model.InPixel
import Verif.Model.Isolation
import Verif.Model.Kalman
import Verif.Model.KalmanAlign
import Verif.Model.KalmanAlignFit
import Verif.Model.KalmanAlignOut
import Verif.Model.LineTracks
import Verif.Model.MapPlot
import Verif.Model.MaskPixels
import Verif.Model.MergeClusters
import Verif.Model.MergedColumns
import Verif.Model.PixelTree
import Verif.Model.PlotTracks
import Verif.Model.Plots
import Verif.Model.Prealign
import Verif.Model.PrealignChain
import Verif.Model.Purity
import Verif.Model.Ransac
import Verif.Model.RealFloats
import Verif.Model.RegionHist
import Verif.Model.ResCorr
import Verif.Model.ResidualFit
import Verif.Model.ResidualPlot
import Verif.Model.Residuals
import Verif.Model.SaveArguments
import Verif.Model.SelectArgs
import Verif.Model.ShapeHist
import Verif.Model.Simulate
import Verif.Model.Smc
import Verif.Model.SmcCombine
import Verif.Model.Telescope
import Verif.Model.TrackAngle
import Verif.Model.Transformation
import Verif.Model.YamlFile
import Verif.Props.AlignCase
import Verif.Props.AlignChain
import Verif.Props.AlignDriver
import Verif.Props.AlignKalman
import Verif.Props.AlignRun
import Verif.Props.AlignTelescope
import Verif.Props.AngleFile
import Verif.Props.AngleHist
import Verif.Props.ApplyAlignment
import Verif.Props.ArrayDiff
import Verif.Props.ArrayTools
import Verif.Props.BeamAxis
import Verif.Props.Bits
import Verif.Props.Candidates
import Verif.Props.Chain
import Verif.Props.ChainAccuracy
import Verif.Props.ChainBlurred
import Verif.Props.ChainEff
import Verif.Props.ChainKalman
import Verif.Props.ChainKalmanRes
import Verif.Props.ChainResiduals
import Verif.Props.CheckFile
import Verif.Props.CheckPlot
import Verif.Props.ChunkReader
import Verif.Props.ClusterHits
import Verif.Props.ClusterShape
import Verif.Props.CompareFiles
import Verif.Props.ConvertCoordinates
import Verif.Props.Converters
import Verif.Props.Correlate
import Verif.Props.CorrelationPlot
import Verif.Props.DataSelection
import Verif.Props.DefaultShapes
import Verif.Props.Diamond
import Verif.Props.DiamondIndex
import Verif.Props.Digitize
import Verif.Props.Dut
import Verif.Props.EffectivePixels
import Verif.Props.Efficiency
import Verif.Props.EfficiencyArgs
import Verif.Props.EfficiencyInterval
import Verif.Props.EfficiencyReturns
import Verif.Props.EventArrays
import Verif.Props.EventRange
import Verif.Props.FindFile
import Verif.Props.FindTracks
import Verif.Props.FindTruth
import Verif.Props.FitArgs
import Verif.Props.FitTracks
import Verif.Props.Fixture
import Verif.Props.GaussFit
import Verif.Props.Geometry
import Verif.Props.GridTools
import Verif.Props.Hist
import Verif.Props.HitFiles
import Verif.Props.HoughPlot
import Verif.Props.InPixel
import Verif.Props.Kalman
import Verif.Props.KalmanAlign
import Verif.Props.KalmanAlignFixed
import Verif.Props.KalmanAlignOut
import Verif.Props.KalmanAlignShift
import Verif.Props.KalmanChi2
import Verif.Props.KalmanExact
import Verif.Props.KalmanFit
import Verif.Props.KalmanMoved
import Verif.Props.KalmanPath
import Verif.Props.LineFitError
import Verif.Props.LineTracks
import Verif.Props.MapPlot
import Verif.Props.MaskPixels
import Verif.Props.MergeClusters
import Verif.Props.Peak
import Verif.Props.PixelTree
import Verif.Props.PlotClusters
import Verif.Props.PlotMaps
import Verif.Props.PlotTracks
import Verif.Props.Prealign
import Verif.Props.PrealignChain
import Verif.Props.PrealignReduced
import Verif.Props.PrealignRobust
import Verif.Props.Purity
import Verif.Props.Ransac
import Verif.Props.RegionHist
import Verif.Props.ResCorr
import Verif.Props.ResidualFit
import Verif.Props.ResidualPlot
import Verif.Props.Residuals
import Verif.Props.SaveArguments
import Verif.Props.SelectArgs
import Verif.Props.ShapeHist
import Verif.Props.SimChain
import Verif.Props.SimData
import Verif.Props.Simulate
import Verif.Props.Smc
import Verif.Props.Telescope
import Verif.Props.TrackAngle
import Verif.Props.Transformation
import Verif.Props.YamlFile
import Verif.Spec.AlignChain
import Verif.Spec.AlignDriver
import Verif.Spec.AlignKalman
import Verif.Spec.AlignTelescope
import Verif.Spec.AngleFile
import Verif.Spec.ApplyAlignment
import Verif.Spec.ArrayDiff
import Verif.Spec.Chain
import Verif.Spec.ChainAccuracy
import Verif.Spec.ChainBlurred
import Verif.Spec.ChainEff
import Verif.Spec.ChainKalman
import Verif.Spec.ChainKalmanRes
import Verif.Spec.ChainResiduals
import Verif.Spec.CheckFile
import Verif.Spec.CheckPlot
import Verif.Spec.ClusterHits
import Verif.Spec.ClusterShape
import Verif.Spec.CompareFiles
import Verif.Spec.ConvertCoordinates
import Verif.Spec.Converters
import Verif.Spec.Correlate
import Verif.Spec.CorrelationPlot
import Verif.Spec.DefaultShapes
import Verif.Spec.Diamond
import Verif.Spec.EffectivePixels
import Verif.Spec.Efficiency
import Verif.Spec.EfficiencyArgs
import Verif.Spec.EfficiencyInterval
import Verif.Spec.Events
import Verif.Spec.FitArgs
import Verif.Spec.GaussFit
import Verif.Spec.Geometry
import Verif.Spec.HitFiles
import Verif.Spec.HoughPlot
import Verif.Spec.InPixel
import Verif.Spec.Kalman
import Verif.Spec.KalmanAlign
import Verif.Spec.KalmanAlignFixed
import Verif.Spec.KalmanAlignOut
import Verif.Spec.KalmanAlignShift
import Verif.Spec.KalmanChi2
import Verif.Spec.KalmanExact
import Verif.Spec.KalmanMoved
import Verif.Spec.KalmanPath
import Verif.Spec.LineFitError
import Verif.Spec.LineTracks
import Verif.Spec.MapPlot
import Verif.Spec.MaskPixels
import Verif.Spec.PixelTree
import Verif.Spec.PlotTracks
import Verif.Spec.Plots
import Verif.Spec.Prealign
import Verif.Spec.PrealignChain
import Verif.Spec.Purity
import Verif.Spec.Ransac
import Verif.Spec.ResCorr
import Verif.Spec.ResidualFit
import Verif.Spec.ResidualPlot
import Verif.Spec.Residuals
import Verif.Spec.SaveArguments
import Verif.Spec.SelectArgs
import Verif.Spec.Selection
import Verif.Spec.SimChain
import Verif.Spec.SimData
import Verif.Spec.Simulate
import Verif.Spec.Smc
import Verif.Spec.Statistics
import Verif.Spec.Telescope
import Verif.Spec.TrackTruth
import Verif.Spec.Tracks
import Verif.Spec.Transformation
import Verif.Spec.YamlFile
