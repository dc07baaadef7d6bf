import Verif.Lemmas.Accuracy
import Verif.Lemmas.AccuracyRun
import Verif.Lemmas.Balance
import Verif.Lemmas.BatchAny
import Verif.Lemmas.BatchOrder
import Verif.Lemmas.BatchUpdate
import Verif.Lemmas.Batches
import Verif.Lemmas.BoxNet
import Verif.Lemmas.BoxStep
import Verif.Lemmas.Build
import Verif.Lemmas.Codec
import Verif.Lemmas.Connected
import Verif.Lemmas.Console
import Verif.Lemmas.ConvOutside
import Verif.Lemmas.Convex
import Verif.Lemmas.Copies
import Verif.Lemmas.Cut
import Verif.Lemmas.CutLayer
import Verif.Lemmas.CutMatrix
import Verif.Lemmas.CutModel
import Verif.Lemmas.Dark
import Verif.Lemmas.DimN
import Verif.Lemmas.Double
import Verif.Lemmas.DoubleExact
import Verif.Lemmas.DoubleFloat
import Verif.Lemmas.ElementWise
import Verif.Lemmas.Entries
import Verif.Lemmas.Expr
import Verif.Lemmas.Fair
import Verif.Lemmas.FairRace
import Verif.Lemmas.FairValidate
import Verif.Lemmas.Family
import Verif.Lemmas.Feed
import Verif.Lemmas.Fill
import Verif.Lemmas.Float32
import Verif.Lemmas.Footprint
import Verif.Lemmas.FootprintRace
import Verif.Lemmas.FootprintRun
import Verif.Lemmas.FootprintStep
import Verif.Lemmas.FreshRun
import Verif.Lemmas.FullAlone
import Verif.Lemmas.Gauge
import Verif.Lemmas.GradClose
import Verif.Lemmas.GradEntry
import Verif.Lemmas.GradExact
import Verif.Lemmas.GradLayer
import Verif.Lemmas.GradModel
import Verif.Lemmas.GradOrder
import Verif.Lemmas.GradPerm
import Verif.Lemmas.GradTruth
import Verif.Lemmas.InOrder
import Verif.Lemmas.Iterate
import Verif.Lemmas.Kernel
import Verif.Lemmas.LabelOwn
import Verif.Lemmas.Labels
import Verif.Lemmas.LayerText
import Verif.Lemmas.Learns
import Verif.Lemmas.Limit
import Verif.Lemmas.LimitBuild
import Verif.Lemmas.LimitNet
import Verif.Lemmas.Linear
import Verif.Lemmas.Load
import Verif.Lemmas.Local
import Verif.Lemmas.Loop
import Verif.Lemmas.Lowers
import Verif.Lemmas.Make
import Verif.Lemmas.ManyFilters
import Verif.Lemmas.Map
import Verif.Lemmas.MapLayers
import Verif.Lemmas.MapNumbers
import Verif.Lemmas.MapRun
import Verif.Lemmas.MapTrain
import Verif.Lemmas.Margin
import Verif.Lemmas.MatrixText
import Verif.Lemmas.Merge
import Verif.Lemmas.Mixed
import Verif.Lemmas.MixedTrain
import Verif.Lemmas.Mnist
import Verif.Lemmas.NaNBody
import Verif.Lemmas.NaNLayer
import Verif.Lemmas.NaNPass
import Verif.Lemmas.NaNRun
import Verif.Lemmas.Nearest
import Verif.Lemmas.NetCalc
import Verif.Lemmas.NetDescent
import Verif.Lemmas.NetFresh
import Verif.Lemmas.NetLayer
import Verif.Lemmas.NetModel
import Verif.Lemmas.NetPass
import Verif.Lemmas.NetTotal
import Verif.Lemmas.NetTrain
import Verif.Lemmas.Network
import Verif.Lemmas.OffUnits
import Verif.Lemmas.OneLabel
import Verif.Lemmas.Online
import Verif.Lemmas.Overlap
import Verif.Lemmas.OverlapRun
import Verif.Lemmas.OverlapTrain
import Verif.Lemmas.OwnSchedule
import Verif.Lemmas.Params
import Verif.Lemmas.Partition
import Verif.Lemmas.PlainTwins
import Verif.Lemmas.PoolSize
import Verif.Lemmas.PoolSlot
import Verif.Lemmas.Pooling
import Verif.Lemmas.Progress
import Verif.Lemmas.Race
import Verif.Lemmas.RaceAbort
import Verif.Lemmas.RaceTrain
import Verif.Lemmas.Real
import Verif.Lemmas.Reduce
import Verif.Lemmas.Reproduce
import Verif.Lemmas.Resave
import Verif.Lemmas.Resume
import Verif.Lemmas.Rising
import Verif.Lemmas.Room
import Verif.Lemmas.RoundNet
import Verif.Lemmas.Rounding
import Verif.Lemmas.RoundingLayer
import Verif.Lemmas.RoundingModel
import Verif.Lemmas.RoundingSoftmax
import Verif.Lemmas.Scan
import Verif.Lemmas.Schedule
import Verif.Lemmas.ScheduleEnd
import Verif.Lemmas.ShapeBody
import Verif.Lemmas.ShapeBuild
import Verif.Lemmas.ShapeLayer
import Verif.Lemmas.ShapeModel
import Verif.Lemmas.ShapeRun
import Verif.Lemmas.Sharp
import Verif.Lemmas.ShortBatch
import Verif.Lemmas.Show
import Verif.Lemmas.Shows
import Verif.Lemmas.Shrink
import Verif.Lemmas.Silent
import Verif.Lemmas.SlotAlone
import Verif.Lemmas.SlotModel
import Verif.Lemmas.SlotRun
import Verif.Lemmas.SlotSame
import Verif.Lemmas.SlotUpdate
import Verif.Lemmas.Slots
import Verif.Lemmas.SmallBatch
import Verif.Lemmas.Softmax
import Verif.Lemmas.SortedNet
import Verif.Lemmas.Sources
import Verif.Lemmas.Span
import Verif.Lemmas.Stale
import Verif.Lemmas.StaleRounding
import Verif.Lemmas.StaleTrain
import Verif.Lemmas.StepBatch
import Verif.Lemmas.StepRounding
import Verif.Lemmas.StepTrain
import Verif.Lemmas.Still
import Verif.Lemmas.Stream
import Verif.Lemmas.Sums
import Verif.Lemmas.Surrogate
import Verif.Lemmas.Terminal
import Verif.Lemmas.Throws
import Verif.Lemmas.Twins
import Verif.Lemmas.Validate
import Verif.Lemmas.ValidateFootprint
import Verif.Lemmas.ValidateRace
import Verif.Lemmas.ValidateRun
import Verif.Lemmas.View
import Verif.Lemmas.Warm
import Verif.Model.Accuracy
import Verif.Model.Binary64
import Verif.Model.Codec
import Verif.Model.Console
import Verif.Model.Debug
import Verif.Model.Dim
import Verif.Model.DimN
import Verif.Model.Display
import Verif.Model.Double
import Verif.Model.Expr
import Verif.Model.Feed
import Verif.Model.FirstUse
import Verif.Model.Float32
import Verif.Model.Layers
import Verif.Model.Main
import Verif.Model.Matrix
import Verif.Model.Mnist
import Verif.Model.Nearest
import Verif.Model.Network
import Verif.Model.Overlap
import Verif.Model.Race
import Verif.Model.Res
import Verif.Model.Serialize
import Verif.Model.Show
import Verif.Model.Stream
import Verif.Model.Train
import Verif.Model.Validate
import Verif.Props.Accuracy
import Verif.Props.Activations
import Verif.Props.Balance
import Verif.Props.Connected
import Verif.Props.Console
import Verif.Props.Copies
import Verif.Props.CopiesLabel
import Verif.Props.CutFiles
import Verif.Props.Dark
import Verif.Props.Debug
import Verif.Props.Descent
import Verif.Props.DimN
import Verif.Props.Display
import Verif.Props.Expressions
import Verif.Props.Fair
import Verif.Props.Feed
import Verif.Props.FirstUse
import Verif.Props.Footprint
import Verif.Props.FreshTrain
import Verif.Props.GradRounding
import Verif.Props.Gradient
import Verif.Props.Hyperparameters
import Verif.Props.InOrder
import Verif.Props.Infinite
import Verif.Props.Kernel
import Verif.Props.LabelScan
import Verif.Props.Learns
import Verif.Props.Limit
import Verif.Props.Local
import Verif.Props.Lowers
import Verif.Props.Main
import Verif.Props.MainSaved
import Verif.Props.Make
import Verif.Props.ManyFilters
import Verif.Props.Merge
import Verif.Props.MergeOverlap
import Verif.Props.Mixed
import Verif.Props.Mnist
import Verif.Props.NaNOverlap
import Verif.Props.Network
import Verif.Props.NotANumber
import Verif.Props.OffUnits
import Verif.Props.OneLabel
import Verif.Props.Online
import Verif.Props.Overlap
import Verif.Props.OverlapDescent
import Verif.Props.Params
import Verif.Props.PlainOverlap
import Verif.Props.PlainTwins
import Verif.Props.Pooling
import Verif.Props.Products
import Verif.Props.Race
import Verif.Props.Reductions
import Verif.Props.Reproduce
import Verif.Props.Resave
import Verif.Props.Resume
import Verif.Props.Rounding
import Verif.Props.Safe
import Verif.Props.SavedLayers
import Verif.Props.SavedModels
import Verif.Props.Shipped
import Verif.Props.ShortBatch
import Verif.Props.Show
import Verif.Props.Silent
import Verif.Props.SlotUpdate
import Verif.Props.SmallBatch
import Verif.Props.SoftmaxLoss
import Verif.Props.SortedNet
import Verif.Props.SourceThrow
import Verif.Props.Span
import Verif.Props.Stale
import Verif.Props.StaleRounding
import Verif.Props.StepRounding
import Verif.Props.Still
import Verif.Props.Storage
import Verif.Props.Surrogate
import Verif.Props.Text
import Verif.Props.TextRange
import Verif.Props.Train
import Verif.Props.TrainLabels
import Verif.Props.TrainThrow
import Verif.Props.TrainUpdate
import Verif.Props.Twins
import Verif.Props.Validate
import Verif.Props.ValidateFootprint
import Verif.Props.Views
import Verif.Spec.Accuracy
import Verif.Spec.Balance
import Verif.Spec.Build
import Verif.Spec.Connected
import Verif.Spec.Console
import Verif.Spec.CutFile
import Verif.Spec.Dark
import Verif.Spec.Descent
import Verif.Spec.Double
import Verif.Spec.ElementWise
import Verif.Spec.Fair
import Verif.Spec.Feed
import Verif.Spec.Footprint
import Verif.Spec.Fresh
import Verif.Spec.GradRounding
import Verif.Spec.Iterate
import Verif.Spec.Kernel
import Verif.Spec.Limit
import Verif.Spec.Linear
import Verif.Spec.Local
import Verif.Spec.Lowers
import Verif.Spec.Main
import Verif.Spec.Make
import Verif.Spec.Mnist
import Verif.Spec.Net
import Verif.Spec.Network
import Verif.Spec.NotANumber
import Verif.Spec.OffUnits
import Verif.Spec.OneLabel
import Verif.Spec.OrderFree
import Verif.Spec.PlainTwins
import Verif.Spec.Pooling
import Verif.Spec.Radix
import Verif.Spec.Real
import Verif.Spec.Resave
import Verif.Spec.Rounding
import Verif.Spec.Safe
import Verif.Spec.Saved
import Verif.Spec.Show
import Verif.Spec.Shows
import Verif.Spec.Silent
import Verif.Spec.Slots
import Verif.Spec.Span
import Verif.Spec.Stale
import Verif.Spec.StaleRounding
import Verif.Spec.StepRounding
import Verif.Spec.Still
import Verif.Spec.Sums
import Verif.Spec.Surrogate
import Verif.Spec.Terminal
import Verif.Spec.Text
import Verif.Spec.Train
import Verif.Spec.Twins
import Verif.Spec.Validate
import Verif.Spec.ValidateFootprint
import Verif.Tests.Layers
import Verif.Tests.Matrix
import Verif.Audit
