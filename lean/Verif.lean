import Verif.Props.MergeConstraint
import Verif.Props.MergeGroup
import Verif.Props.Layout
import Verif.Props.LowerTranspose
import Verif.Props.ReshapeMap
import Verif.Props.Slice
import Verif.Props.SamePad
import Verif.Props.BnFold
import Verif.Props.Elementwise
import Verif.Props.TopoSort
import Verif.Props.TensorBuffers
import Verif.Props.QuantStore
import Verif.Props.HybridQuant
import Verif.Props.OpVersion
import Verif.Props.CatSplit
import Verif.Props.GroupConv
import Verif.Props.DeadNodes
import Verif.Props.GreedyPrune
import Verif.Props.IdentityPrune
import Verif.Props.ReshapeMask
import Verif.Props.PruneNet
import Verif.Props.GroupPrune
import Verif.Props.Masker
import Verif.Props.Flops
import Verif.Props.NetAdapt
import Verif.Props.CrossLayer
import Verif.Props.QatFold
import Verif.Props.FakeQuant
import Verif.Props.LlmQuant
import Verif.Props.Pool
import Verif.Props.Train
import Verif.Props.ConverterConfig
import Verif.Props.Subgraph
import Verif.Props.FuseEdges
import Verif.Props.TransposePass
import Verif.Props.TransposePass2
import Verif.Props.TransposePass3
import Verif.Props.TransposePass4
import Verif.Props.AtenSlice
import Verif.Props.AvgPool
import Verif.Props.Rnn
import Verif.Props.GruLower
import Verif.Props.AtenMove
import Verif.Props.PixelShuffle
import Verif.Props.GatherNd
import Verif.Props.AtenIndex
import Verif.Props.IndexPut
import Verif.Props.MaskedFill
import Verif.Props.Unfold
import Verif.Props.AtenExpand
import Verif.Props.Resize
import Verif.Props.ScalarOps
import Verif.Props.Norm
import Verif.Props.Matmul
import Verif.Props.BiasAbsorb
import Verif.Props.Eliminate
import Verif.Props.GroupTensors
import Verif.Props.ReshapePass
import Verif.Props.ConvLower
import Verif.Props.Inplace
import Verif.Props.QScalar
import Verif.Props.PadLower
import Verif.Props.ActLower
import Verif.Props.ReduceLower
import Verif.Props.QBias
import Verif.Props.Tracer
import Verif.Props.TracerElim
import Verif.Props.TracerSub
import Verif.Props.Fusable
import Verif.Props.GraphEdit
import Verif.Props.FuncRewrite
import Verif.Props.QModules
import Verif.Props.ShapeRewrite
import Verif.Props.Requant
import Verif.Props.FuseIo
import Verif.Props.ArgString
import Verif.Props.Noop
import Verif.Props.QRegion
import Verif.Props.KlRange
import Verif.Props.Gru
import Verif.Props.LlamaAttention
import Verif.Props.PruneConfig
import Verif.Props.Admm
import Verif.Props.HalfQuant
import Verif.Props.BnRestore
import Verif.Props.ErrorAnalysis
import Verif.Props.InPlace
import Verif.Props.CenterConstraint
import Verif.Props.InPlaceLive
import Verif.Props.BatchNorm
import Verif.Props.IoLayout
import Verif.Props.IoEdges
import Verif.Props.AxisArg
import Verif.Props.RewriteQ
import Verif.Props.InputStats
import Verif.Props.CatUnify
import Verif.Props.Rebuild
import Verif.Props.BmmAdd
import Verif.Props.WrappedReshape
import Verif.Props.Track
import Verif.Props.SplitArgs
import Verif.Props.Scores
import Verif.Props.Patches
import Verif.Props.Frozen
import Verif.Props.MoveAcross
import Verif.Props.BnComp
import Verif.Props.TrtCompare
import Verif.Props.Deconv3d
import Verif.Props.DimChoose
import Verif.Props.QConfigs
import Verif.Props.LstmWeights
import Verif.Props.OnnxExport
import Verif.Props.RestoreFloat
import Verif.Props.CtorLines
import Verif.Props.QatReport
import Verif.Props.PtqFakeQuant
import Verif.Props.StateIo
import Verif.Props.BranchExpand
import Verif.Props.RnnPrune
import Verif.Props.ActFold
import Verif.Props.CodeFiles
import Verif.Props.Modes
import Verif.Props.ReshapePrelu
import Verif.Props.Dequantize
import Verif.Props.Int16Lstm
import Verif.Props.FlatFile
import Verif.Props.PrepHooks
import Verif.Props.TrainLoop
import Verif.Props.QuantRuns
import Verif.Props.UnusedOutputs
import Verif.Props.TorchTables
import Verif.Props.OnnxLeaves
import Verif.Props.DropoutLower
import Verif.Props.TrtStubs
import Verif.Props.OnnxRepeat
import Verif.Props.QuantFc
import Verif.Props.Outermost
import Verif.Props.LayerExpr
import Verif.Props.OutShape
import Verif.Props.ConstUse
import Verif.Props.RnnProj
import Verif.Props.LstmStates
import Verif.Props.LazyArgs
import Verif.Props.FuseHooks
import Verif.Props.FusedBn
import Verif.Props.SizeReads
import Verif.Props.DtypeReads
import Verif.Props.FromState
import Verif.Props.GraphCall
import Verif.Props.BFloat
import Verif.Props.IdentityInit
import Verif.Props.ConvInputs
import Verif.Props.Topk
import Verif.Props.NetAdaptInit
import Verif.Props.ConvExport
import Verif.Props.PowLower
import Verif.Props.PrunerContext
import Verif.Props.CrossNet
