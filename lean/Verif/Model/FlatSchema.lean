import Verif.Spec.FlatFile
/-!
Written by a script from tinynn/converter/schemas/tflite/schema_generated.py (the slots and defaults of the `Add` functions; the number in each comment is the line) and
tinynn/converter/operators/tflite/generated_ops.py (for each operator class its lines, its code, the number of its options in the union, and the calls in its `build`: which function gets which attribute).
-/

namespace Verif.Model.FlatSchema
open Verif.Spec.FlatFile

/-- The arguments of a call `builder.Prepend<Kind>Slot(slot, x, default)`. -/
structure Slot where
  kind : Kind
  slot : ℕ
  dflt : Obj

/-- What is handed to an `Add` function: the attribute, what `create_numpy_array` makes of it (an array of int32, its default), or nothing as `create_numpy_array` fails
(base.py 414-425: there is no function to start such a vector). -/
inductive Src where
  | direct | int32s | fails
  deriving DecidableEq

/-- A class of generated_ops.py: name, operator, its number (`BuiltinOperator`), the number of its options (`BuiltinOptions`), `none` if it uses the `build` of `BaseOperator`, and the calls. -/
structure OpClass where
  name : String
  op : String
  code : ℤ
  union : Option ℤ
  adds : List (Slot × String × Src)

/-- 591 -/
def QuantizationParametersAddMin : Slot := ⟨.off, 0, .null⟩
/-- 593 -/
def QuantizationParametersAddMax : Slot := ⟨.off, 1, .null⟩
/-- 595 -/
def QuantizationParametersAddScale : Slot := ⟨.off, 2, .null⟩
/-- 597 -/
def QuantizationParametersAddZeroPoint : Slot := ⟨.off, 3, .null⟩
/-- 601 -/
def QuantizationParametersAddQuantizedDimension : Slot := ⟨.i32, 6, .int 0⟩
/-- 1187 -/
def TensorAddShape : Slot := ⟨.off, 0, .null⟩
/-- 1189 -/
def TensorAddType : Slot := ⟨.i8, 1, .int 0⟩
/-- 1190 -/
def TensorAddBuffer : Slot := ⟨.u32, 2, .int 0⟩
/-- 1191 -/
def TensorAddName : Slot := ⟨.off, 3, .null⟩
/-- 1192 -/
def TensorAddQuantization : Slot := ⟨.off, 4, .null⟩
/-- 1193 -/
def TensorAddIsVariable : Slot := ⟨.bool, 5, .bool false⟩
/-- 1268 -/
def Conv2DOptionsAddPadding : Slot := ⟨.i8, 0, .int 0⟩
/-- 1269 -/
def Conv2DOptionsAddStrideW : Slot := ⟨.i32, 1, .int 0⟩
/-- 1270 -/
def Conv2DOptionsAddStrideH : Slot := ⟨.i32, 2, .int 0⟩
/-- 1271 -/
def Conv2DOptionsAddFusedActivationFunction : Slot := ⟨.i8, 3, .int 0⟩
/-- 1272 -/
def Conv2DOptionsAddDilationWFactor : Slot := ⟨.i32, 4, .int 1⟩
/-- 1273 -/
def Conv2DOptionsAddDilationHFactor : Slot := ⟨.i32, 5, .int 1⟩
/-- 1356 -/
def Conv3DOptionsAddPadding : Slot := ⟨.i8, 0, .int 0⟩
/-- 1357 -/
def Conv3DOptionsAddStrideD : Slot := ⟨.i32, 1, .int 0⟩
/-- 1358 -/
def Conv3DOptionsAddStrideW : Slot := ⟨.i32, 2, .int 0⟩
/-- 1359 -/
def Conv3DOptionsAddStrideH : Slot := ⟨.i32, 3, .int 0⟩
/-- 1360 -/
def Conv3DOptionsAddFusedActivationFunction : Slot := ⟨.i8, 4, .int 0⟩
/-- 1361 -/
def Conv3DOptionsAddDilationDFactor : Slot := ⟨.i32, 5, .int 1⟩
/-- 1362 -/
def Conv3DOptionsAddDilationWFactor : Slot := ⟨.i32, 6, .int 1⟩
/-- 1363 -/
def Conv3DOptionsAddDilationHFactor : Slot := ⟨.i32, 7, .int 1⟩
/-- 1432 -/
def Pool2DOptionsAddPadding : Slot := ⟨.i8, 0, .int 0⟩
/-- 1433 -/
def Pool2DOptionsAddStrideW : Slot := ⟨.i32, 1, .int 0⟩
/-- 1434 -/
def Pool2DOptionsAddStrideH : Slot := ⟨.i32, 2, .int 0⟩
/-- 1435 -/
def Pool2DOptionsAddFilterWidth : Slot := ⟨.i32, 3, .int 0⟩
/-- 1436 -/
def Pool2DOptionsAddFilterHeight : Slot := ⟨.i32, 4, .int 0⟩
/-- 1437 -/
def Pool2DOptionsAddFusedActivationFunction : Slot := ⟨.i8, 5, .int 0⟩
/-- 1513 -/
def DepthwiseConv2DOptionsAddPadding : Slot := ⟨.i8, 0, .int 0⟩
/-- 1514 -/
def DepthwiseConv2DOptionsAddStrideW : Slot := ⟨.i32, 1, .int 0⟩
/-- 1515 -/
def DepthwiseConv2DOptionsAddStrideH : Slot := ⟨.i32, 2, .int 0⟩
/-- 1516 -/
def DepthwiseConv2DOptionsAddDepthMultiplier : Slot := ⟨.i32, 3, .int 0⟩
/-- 1517 -/
def DepthwiseConv2DOptionsAddFusedActivationFunction : Slot := ⟨.i8, 4, .int 0⟩
/-- 1518 -/
def DepthwiseConv2DOptionsAddDilationWFactor : Slot := ⟨.i32, 5, .int 1⟩
/-- 1519 -/
def DepthwiseConv2DOptionsAddDilationHFactor : Slot := ⟨.i32, 6, .int 1⟩
/-- 1607 -/
def ConcatEmbeddingsOptionsAddNumChannels : Slot := ⟨.i32, 0, .int 0⟩
/-- 1608 -/
def ConcatEmbeddingsOptionsAddNumColumnsPerChannel : Slot := ⟨.off, 1, .null⟩
/-- 1610 -/
def ConcatEmbeddingsOptionsAddEmbeddingDimPerChannel : Slot := ⟨.off, 2, .null⟩
/-- 1645 -/
def LSHProjectionOptionsAddType : Slot := ⟨.i8, 0, .int 0⟩
/-- 1693 -/
def SVDFOptionsAddRank : Slot := ⟨.i32, 0, .int 0⟩
/-- 1694 -/
def SVDFOptionsAddFusedActivationFunction : Slot := ⟨.i8, 1, .int 0⟩
/-- 1695 -/
def SVDFOptionsAddAsymmetricQuantizeInputs : Slot := ⟨.bool, 2, .bool false⟩
/-- 1736 -/
def RNNOptionsAddFusedActivationFunction : Slot := ⟨.i8, 0, .int 0⟩
/-- 1737 -/
def RNNOptionsAddAsymmetricQuantizeInputs : Slot := ⟨.bool, 1, .bool false⟩
/-- 1785 -/
def SequenceRNNOptionsAddTimeMajor : Slot := ⟨.bool, 0, .bool false⟩
/-- 1786 -/
def SequenceRNNOptionsAddFusedActivationFunction : Slot := ⟨.i8, 1, .int 0⟩
/-- 1787 -/
def SequenceRNNOptionsAddAsymmetricQuantizeInputs : Slot := ⟨.bool, 2, .bool false⟩
/-- 1842 -/
def BidirectionalSequenceRNNOptionsAddTimeMajor : Slot := ⟨.bool, 0, .bool false⟩
/-- 1843 -/
def BidirectionalSequenceRNNOptionsAddFusedActivationFunction : Slot := ⟨.i8, 1, .int 0⟩
/-- 1844 -/
def BidirectionalSequenceRNNOptionsAddMergeOutputs : Slot := ⟨.bool, 2, .bool false⟩
/-- 1845 -/
def BidirectionalSequenceRNNOptionsAddAsymmetricQuantizeInputs : Slot := ⟨.bool, 3, .bool false⟩
/-- 1900 -/
def FullyConnectedOptionsAddFusedActivationFunction : Slot := ⟨.i8, 0, .int 0⟩
/-- 1901 -/
def FullyConnectedOptionsAddWeightsFormat : Slot := ⟨.i8, 1, .int 0⟩
/-- 1902 -/
def FullyConnectedOptionsAddKeepNumDims : Slot := ⟨.bool, 2, .bool false⟩
/-- 1903 -/
def FullyConnectedOptionsAddAsymmetricQuantizeInputs : Slot := ⟨.bool, 3, .bool false⟩
/-- 1937 -/
def SoftmaxOptionsAddBeta : Slot := ⟨.f32, 0, .num 0⟩
/-- 1978 -/
def ConcatenationOptionsAddAxis : Slot := ⟨.i32, 0, .int 0⟩
/-- 1979 -/
def ConcatenationOptionsAddFusedActivationFunction : Slot := ⟨.i8, 1, .int 0⟩
/-- 2020 -/
def AddOptionsAddFusedActivationFunction : Slot := ⟨.i8, 0, .int 0⟩
/-- 2021 -/
def AddOptionsAddPotScaleInt16 : Slot := ⟨.bool, 1, .bool true⟩
/-- 2055 -/
def MulOptionsAddFusedActivationFunction : Slot := ⟨.i8, 0, .int 0⟩
/-- 2089 -/
def L2NormOptionsAddFusedActivationFunction : Slot := ⟨.i8, 0, .int 0⟩
/-- 2144 -/
def LocalResponseNormalizationOptionsAddRadius : Slot := ⟨.i32, 0, .int 0⟩
/-- 2145 -/
def LocalResponseNormalizationOptionsAddBias : Slot := ⟨.f32, 1, .num 0⟩
/-- 2146 -/
def LocalResponseNormalizationOptionsAddAlpha : Slot := ⟨.f32, 2, .num 0⟩
/-- 2147 -/
def LocalResponseNormalizationOptionsAddBeta : Slot := ⟨.f32, 3, .num 0⟩
/-- 2209 -/
def LSTMOptionsAddFusedActivationFunction : Slot := ⟨.i8, 0, .int 0⟩
/-- 2210 -/
def LSTMOptionsAddCellClip : Slot := ⟨.f32, 1, .num 0⟩
/-- 2211 -/
def LSTMOptionsAddProjClip : Slot := ⟨.f32, 2, .num 0⟩
/-- 2212 -/
def LSTMOptionsAddKernelType : Slot := ⟨.i8, 3, .int 0⟩
/-- 2213 -/
def LSTMOptionsAddAsymmetricQuantizeInputs : Slot := ⟨.bool, 4, .bool false⟩
/-- 2282 -/
def UnidirectionalSequenceLSTMOptionsAddFusedActivationFunction : Slot := ⟨.i8, 0, .int 0⟩
/-- 2283 -/
def UnidirectionalSequenceLSTMOptionsAddCellClip : Slot := ⟨.f32, 1, .num 0⟩
/-- 2284 -/
def UnidirectionalSequenceLSTMOptionsAddProjClip : Slot := ⟨.f32, 2, .num 0⟩
/-- 2285 -/
def UnidirectionalSequenceLSTMOptionsAddTimeMajor : Slot := ⟨.bool, 3, .bool false⟩
/-- 2286 -/
def UnidirectionalSequenceLSTMOptionsAddAsymmetricQuantizeInputs : Slot := ⟨.bool, 4, .bool false⟩
/-- 2287 -/
def UnidirectionalSequenceLSTMOptionsAddDiagonalRecurrentTensors : Slot := ⟨.bool, 5, .bool false⟩
/-- 2356 -/
def BidirectionalSequenceLSTMOptionsAddFusedActivationFunction : Slot := ⟨.i8, 0, .int 0⟩
/-- 2357 -/
def BidirectionalSequenceLSTMOptionsAddCellClip : Slot := ⟨.f32, 1, .num 0⟩
/-- 2358 -/
def BidirectionalSequenceLSTMOptionsAddProjClip : Slot := ⟨.f32, 2, .num 0⟩
/-- 2359 -/
def BidirectionalSequenceLSTMOptionsAddMergeOutputs : Slot := ⟨.bool, 3, .bool false⟩
/-- 2360 -/
def BidirectionalSequenceLSTMOptionsAddTimeMajor : Slot := ⟨.bool, 4, .bool true⟩
/-- 2361 -/
def BidirectionalSequenceLSTMOptionsAddAsymmetricQuantizeInputs : Slot := ⟨.bool, 5, .bool false⟩
/-- 2402 -/
def ResizeBilinearOptionsAddAlignCorners : Slot := ⟨.bool, 2, .bool false⟩
/-- 2403 -/
def ResizeBilinearOptionsAddHalfPixelCenters : Slot := ⟨.bool, 3, .bool false⟩
/-- 2444 -/
def ResizeNearestNeighborOptionsAddAlignCorners : Slot := ⟨.bool, 0, .bool false⟩
/-- 2445 -/
def ResizeNearestNeighborOptionsAddHalfPixelCenters : Slot := ⟨.bool, 1, .bool false⟩
/-- 2479 -/
def CallOptionsAddSubgraph : Slot := ⟨.u32, 0, .int 0⟩
/-- 2585 -/
def ReshapeOptionsAddNewShape : Slot := ⟨.off, 0, .null⟩
/-- 2686 -/
def SkipGramOptionsAddNgramSize : Slot := ⟨.i32, 0, .int 0⟩
/-- 2687 -/
def SkipGramOptionsAddMaxSkipSize : Slot := ⟨.i32, 1, .int 0⟩
/-- 2688 -/
def SkipGramOptionsAddIncludeAllNgrams : Slot := ⟨.bool, 2, .bool false⟩
/-- 2722 -/
def SpaceToDepthOptionsAddBlockSize : Slot := ⟨.i32, 0, .int 0⟩
/-- 2756 -/
def DepthToSpaceOptionsAddBlockSize : Slot := ⟨.i32, 0, .int 0⟩
/-- 2797 -/
def SubOptionsAddFusedActivationFunction : Slot := ⟨.i8, 0, .int 0⟩
/-- 2798 -/
def SubOptionsAddPotScaleInt16 : Slot := ⟨.bool, 1, .bool true⟩
/-- 2832 -/
def DivOptionsAddFusedActivationFunction : Slot := ⟨.i8, 0, .int 0⟩
/-- 2892 -/
def EmbeddingLookupSparseOptionsAddCombiner : Slot := ⟨.i8, 0, .int 0⟩
/-- 2933 -/
def GatherOptionsAddAxis : Slot := ⟨.i32, 0, .int 0⟩
/-- 2934 -/
def GatherOptionsAddBatchDims : Slot := ⟨.i32, 1, .int 0⟩
/-- 3046 -/
def ReducerOptionsAddKeepDims : Slot := ⟨.bool, 0, .bool false⟩
/-- 3100 -/
def SqueezeOptionsAddSqueezeDims : Slot := ⟨.off, 0, .null⟩
/-- 3135 -/
def SplitOptionsAddNumSplits : Slot := ⟨.i32, 0, .int 0⟩
/-- 3169 -/
def SplitVOptionsAddNumSplits : Slot := ⟨.i32, 0, .int 0⟩
/-- 3231 -/
def StridedSliceOptionsAddBeginMask : Slot := ⟨.i32, 0, .int 0⟩
/-- 3232 -/
def StridedSliceOptionsAddEndMask : Slot := ⟨.i32, 1, .int 0⟩
/-- 3233 -/
def StridedSliceOptionsAddEllipsisMask : Slot := ⟨.i32, 2, .int 0⟩
/-- 3234 -/
def StridedSliceOptionsAddNewAxisMask : Slot := ⟨.i32, 3, .int 0⟩
/-- 3235 -/
def StridedSliceOptionsAddShrinkAxisMask : Slot := ⟨.i32, 4, .int 0⟩
/-- 3302 -/
def CastOptionsAddInDataType : Slot := ⟨.i8, 0, .int 0⟩
/-- 3303 -/
def CastOptionsAddOutDataType : Slot := ⟨.i8, 1, .int 0⟩
/-- 3415 -/
def ArgMaxOptionsAddOutputType : Slot := ⟨.i8, 0, .int 0⟩
/-- 3449 -/
def ArgMinOptionsAddOutputType : Slot := ⟨.i8, 0, .int 0⟩
/-- 3686 -/
def TransposeConvOptionsAddPadding : Slot := ⟨.i8, 0, .int 0⟩
/-- 3687 -/
def TransposeConvOptionsAddStrideW : Slot := ⟨.i32, 1, .int 0⟩
/-- 3688 -/
def TransposeConvOptionsAddStrideH : Slot := ⟨.i32, 2, .int 0⟩
/-- 3689 -/
def TransposeConvOptionsAddFusedActivationFunction : Slot := ⟨.i8, 3, .int 0⟩
/-- 3749 -/
def SparseToDenseOptionsAddValidateIndices : Slot := ⟨.bool, 0, .bool false⟩
/-- 3835 -/
def ShapeOptionsAddOutType : Slot := ⟨.i8, 0, .int 0⟩
/-- 3942 -/
def FakeQuantOptionsAddMin : Slot := ⟨.f32, 0, .num 0⟩
/-- 3943 -/
def FakeQuantOptionsAddMax : Slot := ⟨.f32, 1, .num 0⟩
/-- 3944 -/
def FakeQuantOptionsAddNumBits : Slot := ⟨.i32, 2, .int 0⟩
/-- 3945 -/
def FakeQuantOptionsAddNarrowRange : Slot := ⟨.bool, 3, .bool false⟩
/-- 3986 -/
def PackOptionsAddValuesCount : Slot := ⟨.i32, 0, .int 0⟩
/-- 3987 -/
def PackOptionsAddAxis : Slot := ⟨.i32, 1, .int 0⟩
/-- 4047 -/
def OneHotOptionsAddAxis : Slot := ⟨.i32, 0, .int 0⟩
/-- 4192 -/
def UnpackOptionsAddNum : Slot := ⟨.i32, 0, .int 0⟩
/-- 4193 -/
def UnpackOptionsAddAxis : Slot := ⟨.i32, 1, .int 0⟩
/-- 4383 -/
def LeakyReluOptionsAddAlpha : Slot := ⟨.f32, 0, .num 0⟩
/-- 4443 -/
def MirrorPadOptionsAddMode : Slot := ⟨.i8, 0, .int 0⟩
/-- 4477 -/
def UniqueOptionsAddIdxOutType : Slot := ⟨.i8, 0, .int 2⟩
/-- 4622 -/
def ReverseSequenceOptionsAddSeqDim : Slot := ⟨.i32, 0, .int 0⟩
/-- 4623 -/
def ReverseSequenceOptionsAddBatchDim : Slot := ⟨.i32, 1, .int 0⟩
/-- 4742 -/
def IfOptionsAddThenSubgraphIndex : Slot := ⟨.i32, 0, .int 0⟩
/-- 4743 -/
def IfOptionsAddElseSubgraphIndex : Slot := ⟨.i32, 1, .int 0⟩
/-- 4777 -/
def CallOnceOptionsAddInitSubgraphIndex : Slot := ⟨.i32, 0, .int 0⟩
/-- 4818 -/
def WhileOptionsAddCondSubgraphIndex : Slot := ⟨.i32, 0, .int 0⟩
/-- 4819 -/
def WhileOptionsAddBodySubgraphIndex : Slot := ⟨.i32, 1, .int 0⟩
/-- 5023 -/
def BatchMatMulOptionsAddAdjX : Slot := ⟨.bool, 0, .bool false⟩
/-- 5024 -/
def BatchMatMulOptionsAddAdjY : Slot := ⟨.bool, 1, .bool false⟩
/-- 5025 -/
def BatchMatMulOptionsAddAsymmetricQuantizeInputs : Slot := ⟨.bool, 2, .bool false⟩
/-- 5066 -/
def CumsumOptionsAddExclusive : Slot := ⟨.bool, 0, .bool false⟩
/-- 5067 -/
def CumsumOptionsAddReverse : Slot := ⟨.bool, 1, .bool false⟩
/-- 5167 -/
def HashtableOptionsAddTableId : Slot := ⟨.i32, 0, .int 0⟩
/-- 5168 -/
def HashtableOptionsAddKeyDtype : Slot := ⟨.i8, 1, .int 0⟩
/-- 5169 -/
def HashtableOptionsAddValueDtype : Slot := ⟨.i8, 2, .int 0⟩
/-- 5288 -/
def VarHandleOptionsAddContainer : Slot := ⟨.off, 0, .null⟩
/-- 5289 -/
def VarHandleOptionsAddSharedName : Slot := ⟨.off, 1, .null⟩
/-- 5382 -/
def RandomOptionsAddSeed : Slot := ⟨.i64, 0, .int 0⟩
/-- 5383 -/
def RandomOptionsAddSeed2 : Slot := ⟨.i64, 1, .int 0⟩
/-- 5437 -/
def BucketizeOptionsAddBoundaries : Slot := ⟨.off, 0, .null⟩
/-- 5472 -/
def GeluOptionsAddApproximate : Slot := ⟨.bool, 0, .bool false⟩
/-- 5709 -/
def OperatorCodeAddDeprecatedBuiltinCode : Slot := ⟨.i8, 0, .int 0⟩
/-- 5710 -/
def OperatorCodeAddCustomCode : Slot := ⟨.off, 1, .null⟩
/-- 5711 -/
def OperatorCodeAddVersion : Slot := ⟨.i32, 2, .int 1⟩
/-- 5712 -/
def OperatorCodeAddBuiltinCode : Slot := ⟨.i32, 3, .int 0⟩
/-- 5905 -/
def OperatorAddOpcodeIndex : Slot := ⟨.u32, 0, .int 0⟩
/-- 5906 -/
def OperatorAddInputs : Slot := ⟨.off, 1, .null⟩
/-- 5908 -/
def OperatorAddOutputs : Slot := ⟨.off, 2, .null⟩
/-- 5910 -/
def OperatorAddBuiltinOptionsType : Slot := ⟨.u8, 3, .int 0⟩
/-- 5911 -/
def OperatorAddBuiltinOptions : Slot := ⟨.off, 4, .null⟩
/-- 5912 -/
def OperatorAddCustomOptions : Slot := ⟨.off, 5, .null⟩
/-- 5914 -/
def OperatorAddCustomOptionsFormat : Slot := ⟨.i8, 6, .int 0⟩
/-- 5917 -/
def OperatorAddIntermediates : Slot := ⟨.off, 8, .null⟩
/-- 6054 -/
def SubGraphAddTensors : Slot := ⟨.off, 0, .null⟩
/-- 6056 -/
def SubGraphAddInputs : Slot := ⟨.off, 1, .null⟩
/-- 6058 -/
def SubGraphAddOutputs : Slot := ⟨.off, 2, .null⟩
/-- 6060 -/
def SubGraphAddOperators : Slot := ⟨.off, 3, .null⟩
/-- 6062 -/
def SubGraphAddName : Slot := ⟨.off, 4, .null⟩
/-- 6116 -/
def BufferAddData : Slot := ⟨.off, 0, .null⟩
/-- 6483 -/
def ModelAddVersion : Slot := ⟨.u32, 0, .int 0⟩
/-- 6484 -/
def ModelAddOperatorCodes : Slot := ⟨.off, 1, .null⟩
/-- 6486 -/
def ModelAddSubgraphs : Slot := ⟨.off, 2, .null⟩
/-- 6488 -/
def ModelAddDescription : Slot := ⟨.off, 3, .null⟩
/-- 6489 -/
def ModelAddBuffers : Slot := ⟨.off, 4, .null⟩

/-- `PLACEHOLDER_FOR_GREATER_OP_CODES` -/
def placeholder : ℤ := 127

/-- `BuiltinOperator.CUSTOM`, `CustomOptionsFormat.FLEXBUFFERS` -/
def custom : ℤ := 32
def flexbuffers : ℤ := 0

/-- `numpy_tflite_dtype_mappings`, base.py 454-464. -/
def dtypes : List (String × ℤ) := [("bool", 6), ("int16", 7), ("int32", 2), ("int64", 4), ("int8", 9), ("uint8", 3), ("float16", 1), ("float32", 0), ("float64", 10)]

/-- The classes of generated_ops.py, except `CustomOperator`. -/
def opClasses : List OpClass := [
  -- 7-36
  ⟨"AddOperator", "ADD", 0, some 11, [(AddOptionsAddFusedActivationFunction, "fusedActivationFunction", .direct), (AddOptionsAddPotScaleInt16, "potScaleInt16", .direct)]⟩,
  -- 37-82
  ⟨"AveragePool2dOperator", "AVERAGE_POOL_2D", 1, some 5, [(Pool2DOptionsAddPadding, "padding", .direct), (Pool2DOptionsAddStrideW, "strideW", .direct), (Pool2DOptionsAddStrideH, "strideH", .direct), (Pool2DOptionsAddFilterWidth, "filterWidth", .direct), (Pool2DOptionsAddFilterHeight, "filterHeight", .direct), (Pool2DOptionsAddFusedActivationFunction, "fusedActivationFunction", .direct)]⟩,
  -- 83-110
  ⟨"ConcatenationOperator", "CONCATENATION", 2, some 10, [(ConcatenationOptionsAddAxis, "axis", .direct), (ConcatenationOptionsAddFusedActivationFunction, "fusedActivationFunction", .direct)]⟩,
  -- 111-156
  ⟨"Conv2dOperator", "CONV_2D", 3, some 1, [(Conv2DOptionsAddPadding, "padding", .direct), (Conv2DOptionsAddStrideW, "strideW", .direct), (Conv2DOptionsAddStrideH, "strideH", .direct), (Conv2DOptionsAddFusedActivationFunction, "fusedActivationFunction", .direct), (Conv2DOptionsAddDilationWFactor, "dilationWFactor", .direct), (Conv2DOptionsAddDilationHFactor, "dilationHFactor", .direct)]⟩,
  -- 157-205
  ⟨"DepthwiseConv2dOperator", "DEPTHWISE_CONV_2D", 4, some 2, [(DepthwiseConv2DOptionsAddPadding, "padding", .direct), (DepthwiseConv2DOptionsAddStrideW, "strideW", .direct), (DepthwiseConv2DOptionsAddStrideH, "strideH", .direct), (DepthwiseConv2DOptionsAddDepthMultiplier, "depthMultiplier", .direct), (DepthwiseConv2DOptionsAddFusedActivationFunction, "fusedActivationFunction", .direct), (DepthwiseConv2DOptionsAddDilationWFactor, "dilationWFactor", .direct), (DepthwiseConv2DOptionsAddDilationHFactor, "dilationHFactor", .direct)]⟩,
  -- 206-231
  ⟨"DepthToSpaceOperator", "DEPTH_TO_SPACE", 5, some 94, [(DepthToSpaceOptionsAddBlockSize, "blockSize", .direct)]⟩,
  -- 232-259
  ⟨"DequantizeOperator", "DEQUANTIZE", 6, some 38, []⟩,
  -- 260-264
  ⟨"EmbeddingLookupOperator", "EMBEDDING_LOOKUP", 7, none, []⟩,
  -- 265-269
  ⟨"FloorOperator", "FLOOR", 8, none, []⟩,
  -- 270-309
  ⟨"FullyConnectedOperator", "FULLY_CONNECTED", 9, some 8, [(FullyConnectedOptionsAddFusedActivationFunction, "fusedActivationFunction", .direct), (FullyConnectedOptionsAddWeightsFormat, "weightsFormat", .direct), (FullyConnectedOptionsAddKeepNumDims, "keepNumDims", .direct), (FullyConnectedOptionsAddAsymmetricQuantizeInputs, "asymmetricQuantizeInputs", .direct)]⟩,
  -- 310-314
  ⟨"HashtableLookupOperator", "HASHTABLE_LOOKUP", 10, none, []⟩,
  -- 315-340
  ⟨"L2NormalizationOperator", "L2_NORMALIZATION", 11, some 12, [(L2NormOptionsAddFusedActivationFunction, "fusedActivationFunction", .direct)]⟩,
  -- 341-386
  ⟨"L2Pool2dOperator", "L2_POOL_2D", 12, some 5, [(Pool2DOptionsAddPadding, "padding", .direct), (Pool2DOptionsAddStrideW, "strideW", .direct), (Pool2DOptionsAddStrideH, "strideH", .direct), (Pool2DOptionsAddFilterWidth, "filterWidth", .direct), (Pool2DOptionsAddFilterHeight, "filterHeight", .direct), (Pool2DOptionsAddFusedActivationFunction, "fusedActivationFunction", .direct)]⟩,
  -- 387-418
  ⟨"LocalResponseNormalizationOperator", "LOCAL_RESPONSE_NORMALIZATION", 13, some 13, [(LocalResponseNormalizationOptionsAddRadius, "radius", .direct), (LocalResponseNormalizationOptionsAddBias, "bias", .direct), (LocalResponseNormalizationOptionsAddAlpha, "alpha", .direct), (LocalResponseNormalizationOptionsAddBeta, "beta", .direct)]⟩,
  -- 419-423
  ⟨"LogisticOperator", "LOGISTIC", 14, none, []⟩,
  -- 424-449
  ⟨"LshProjectionOperator", "LSH_PROJECTION", 15, some 4, [(LSHProjectionOptionsAddType, "type", .direct)]⟩,
  -- 450-492
  ⟨"LstmOperator", "LSTM", 16, some 14, [(LSTMOptionsAddFusedActivationFunction, "fusedActivationFunction", .direct), (LSTMOptionsAddCellClip, "cellClip", .direct), (LSTMOptionsAddProjClip, "projClip", .direct), (LSTMOptionsAddKernelType, "kernelType", .direct), (LSTMOptionsAddAsymmetricQuantizeInputs, "asymmetricQuantizeInputs", .direct)]⟩,
  -- 493-538
  ⟨"MaxPool2dOperator", "MAX_POOL_2D", 17, some 5, [(Pool2DOptionsAddPadding, "padding", .direct), (Pool2DOptionsAddStrideW, "strideW", .direct), (Pool2DOptionsAddStrideH, "strideH", .direct), (Pool2DOptionsAddFilterWidth, "filterWidth", .direct), (Pool2DOptionsAddFilterHeight, "filterHeight", .direct), (Pool2DOptionsAddFusedActivationFunction, "fusedActivationFunction", .direct)]⟩,
  -- 539-564
  ⟨"MulOperator", "MUL", 18, some 21, [(MulOptionsAddFusedActivationFunction, "fusedActivationFunction", .direct)]⟩,
  -- 565-569
  ⟨"ReluOperator", "RELU", 19, none, []⟩,
  -- 570-574
  ⟨"ReluN1To1Operator", "RELU_N1_TO_1", 20, none, []⟩,
  -- 575-579
  ⟨"Relu6Operator", "RELU6", 21, none, []⟩,
  -- 580-606
  ⟨"ReshapeOperator", "RESHAPE", 22, some 17, [(ReshapeOptionsAddNewShape, "newShape", .int32s)]⟩,
  -- 607-634
  ⟨"ResizeBilinearOperator", "RESIZE_BILINEAR", 23, some 15, [(ResizeBilinearOptionsAddAlignCorners, "alignCorners", .direct), (ResizeBilinearOptionsAddHalfPixelCenters, "halfPixelCenters", .direct)]⟩,
  -- 635-668
  ⟨"RnnOperator", "RNN", 24, some 7, [(RNNOptionsAddFusedActivationFunction, "fusedActivationFunction", .direct), (RNNOptionsAddAsymmetricQuantizeInputs, "asymmetricQuantizeInputs", .direct)]⟩,
  -- 669-694
  ⟨"SoftmaxOperator", "SOFTMAX", 25, some 9, [(SoftmaxOptionsAddBeta, "beta", .direct)]⟩,
  -- 695-720
  ⟨"SpaceToDepthOperator", "SPACE_TO_DEPTH", 26, some 19, [(SpaceToDepthOptionsAddBlockSize, "blockSize", .direct)]⟩,
  -- 721-757
  ⟨"SvdfOperator", "SVDF", 27, some 6, [(SVDFOptionsAddRank, "rank", .direct), (SVDFOptionsAddFusedActivationFunction, "fusedActivationFunction", .direct), (SVDFOptionsAddAsymmetricQuantizeInputs, "asymmetricQuantizeInputs", .direct)]⟩,
  -- 758-762
  ⟨"TanhOperator", "TANH", 28, none, []⟩,
  -- 763-798
  ⟨"ConcatEmbeddingsOperator", "CONCAT_EMBEDDINGS", 29, some 3, [(ConcatEmbeddingsOptionsAddNumChannels, "numChannels", .direct), (ConcatEmbeddingsOptionsAddNumColumnsPerChannel, "numColumnsPerChannel", .int32s), (ConcatEmbeddingsOptionsAddEmbeddingDimPerChannel, "embeddingDimPerChannel", .int32s)]⟩,
  -- 799-828
  ⟨"SkipGramOperator", "SKIP_GRAM", 30, some 18, [(SkipGramOptionsAddNgramSize, "ngramSize", .direct), (SkipGramOptionsAddMaxSkipSize, "maxSkipSize", .direct), (SkipGramOptionsAddIncludeAllNgrams, "includeAllNgrams", .direct)]⟩,
  -- 829-854
  ⟨"CallOperator", "CALL", 31, some 16, [(CallOptionsAddSubgraph, "subgraph", .direct)]⟩,
  -- 885-910
  ⟨"EmbeddingLookupSparseOperator", "EMBEDDING_LOOKUP_SPARSE", 33, some 20, [(EmbeddingLookupSparseOptionsAddCombiner, "combiner", .direct)]⟩,
  -- 911-938
  ⟨"PadOperator", "PAD", 34, some 22, []⟩,
  -- 939-975
  ⟨"UnidirectionalSequenceRnnOperator", "UNIDIRECTIONAL_SEQUENCE_RNN", 35, some 31, [(SequenceRNNOptionsAddTimeMajor, "timeMajor", .direct), (SequenceRNNOptionsAddFusedActivationFunction, "fusedActivationFunction", .direct), (SequenceRNNOptionsAddAsymmetricQuantizeInputs, "asymmetricQuantizeInputs", .direct)]⟩,
  -- 976-1003
  ⟨"GatherOperator", "GATHER", 36, some 23, [(GatherOptionsAddAxis, "axis", .direct), (GatherOptionsAddBatchDims, "batchDims", .direct)]⟩,
  -- 1004-1031
  ⟨"BatchToSpaceNdOperator", "BATCH_TO_SPACE_ND", 37, some 24, []⟩,
  -- 1032-1059
  ⟨"SpaceToBatchNdOperator", "SPACE_TO_BATCH_ND", 38, some 25, []⟩,
  -- 1060-1087
  ⟨"TransposeOperator", "TRANSPOSE", 39, some 26, []⟩,
  -- 1088-1113
  ⟨"MeanOperator", "MEAN", 40, some 27, [(ReducerOptionsAddKeepDims, "keepDims", .direct)]⟩,
  -- 1114-1143
  ⟨"SubOperator", "SUB", 41, some 28, [(SubOptionsAddFusedActivationFunction, "fusedActivationFunction", .direct), (SubOptionsAddPotScaleInt16, "potScaleInt16", .direct)]⟩,
  -- 1144-1169
  ⟨"DivOperator", "DIV", 42, some 29, [(DivOptionsAddFusedActivationFunction, "fusedActivationFunction", .direct)]⟩,
  -- 1170-1196
  ⟨"SqueezeOperator", "SQUEEZE", 43, some 30, [(SqueezeOptionsAddSqueezeDims, "squeezeDims", .int32s)]⟩,
  -- 1197-1242
  ⟨"UnidirectionalSequenceLstmOperator", "UNIDIRECTIONAL_SEQUENCE_LSTM", 44, some 71, [(UnidirectionalSequenceLSTMOptionsAddFusedActivationFunction, "fusedActivationFunction", .direct), (UnidirectionalSequenceLSTMOptionsAddCellClip, "cellClip", .direct), (UnidirectionalSequenceLSTMOptionsAddProjClip, "projClip", .direct), (UnidirectionalSequenceLSTMOptionsAddTimeMajor, "timeMajor", .direct), (UnidirectionalSequenceLSTMOptionsAddAsymmetricQuantizeInputs, "asymmetricQuantizeInputs", .direct), (UnidirectionalSequenceLSTMOptionsAddDiagonalRecurrentTensors, "diagonalRecurrentTensors", .direct)]⟩,
  -- 1243-1278
  ⟨"StridedSliceOperator", "STRIDED_SLICE", 45, some 32, [(StridedSliceOptionsAddBeginMask, "beginMask", .direct), (StridedSliceOptionsAddEndMask, "endMask", .direct), (StridedSliceOptionsAddEllipsisMask, "ellipsisMask", .direct), (StridedSliceOptionsAddNewAxisMask, "newAxisMask", .direct), (StridedSliceOptionsAddShrinkAxisMask, "shrinkAxisMask", .direct)]⟩,
  -- 1279-1318
  ⟨"BidirectionalSequenceRnnOperator", "BIDIRECTIONAL_SEQUENCE_RNN", 46, some 70, [(BidirectionalSequenceRNNOptionsAddTimeMajor, "timeMajor", .direct), (BidirectionalSequenceRNNOptionsAddFusedActivationFunction, "fusedActivationFunction", .direct), (BidirectionalSequenceRNNOptionsAddMergeOutputs, "mergeOutputs", .direct), (BidirectionalSequenceRNNOptionsAddAsymmetricQuantizeInputs, "asymmetricQuantizeInputs", .direct)]⟩,
  -- 1319-1346
  ⟨"ExpOperator", "EXP", 47, some 33, []⟩,
  -- 1347-1374
  ⟨"TopkV2Operator", "TOPK_V2", 48, some 34, []⟩,
  -- 1375-1400
  ⟨"SplitOperator", "SPLIT", 49, some 35, [(SplitOptionsAddNumSplits, "numSplits", .direct)]⟩,
  -- 1401-1428
  ⟨"LogSoftmaxOperator", "LOG_SOFTMAX", 50, some 36, []⟩,
  -- 1429-1433
  ⟨"DelegateOperator", "DELEGATE", 51, none, []⟩,
  -- 1434-1479
  ⟨"BidirectionalSequenceLstmOperator", "BIDIRECTIONAL_SEQUENCE_LSTM", 52, some 69, [(BidirectionalSequenceLSTMOptionsAddFusedActivationFunction, "fusedActivationFunction", .direct), (BidirectionalSequenceLSTMOptionsAddCellClip, "cellClip", .direct), (BidirectionalSequenceLSTMOptionsAddProjClip, "projClip", .direct), (BidirectionalSequenceLSTMOptionsAddMergeOutputs, "mergeOutputs", .direct), (BidirectionalSequenceLSTMOptionsAddTimeMajor, "timeMajor", .direct), (BidirectionalSequenceLSTMOptionsAddAsymmetricQuantizeInputs, "asymmetricQuantizeInputs", .direct)]⟩,
  -- 1480-1509
  ⟨"CastOperator", "CAST", 53, some 37, [(CastOptionsAddInDataType, "inDataType", .direct), (CastOptionsAddOutDataType, "outDataType", .direct)]⟩,
  -- 1510-1514
  ⟨"PreluOperator", "PRELU", 54, none, []⟩,
  -- 1515-1542
  ⟨"MaximumOperator", "MAXIMUM", 55, some 39, []⟩,
  -- 1543-1568
  ⟨"ArgMaxOperator", "ARG_MAX", 56, some 40, [(ArgMaxOptionsAddOutputType, "outputType", .direct)]⟩,
  -- 1569-1596
  ⟨"MinimumOperator", "MINIMUM", 57, some 39, []⟩,
  -- 1597-1624
  ⟨"LessOperator", "LESS", 58, some 41, []⟩,
  -- 1625-1652
  ⟨"NegOperator", "NEG", 59, some 42, []⟩,
  -- 1653-1680
  ⟨"Padv2Operator", "PADV2", 60, some 43, []⟩,
  -- 1681-1708
  ⟨"GreaterOperator", "GREATER", 61, some 44, []⟩,
  -- 1709-1736
  ⟨"GreaterEqualOperator", "GREATER_EQUAL", 62, some 45, []⟩,
  -- 1737-1764
  ⟨"LessEqualOperator", "LESS_EQUAL", 63, some 46, []⟩,
  -- 1765-1792
  ⟨"SelectOperator", "SELECT", 64, some 47, []⟩,
  -- 1793-1820
  ⟨"SliceOperator", "SLICE", 65, some 48, []⟩,
  -- 1821-1825
  ⟨"SinOperator", "SIN", 66, none, []⟩,
  -- 1826-1865
  ⟨"TransposeConvOperator", "TRANSPOSE_CONV", 67, some 49, [(TransposeConvOptionsAddPadding, "padding", .direct), (TransposeConvOptionsAddStrideW, "strideW", .direct), (TransposeConvOptionsAddStrideH, "strideH", .direct), (TransposeConvOptionsAddFusedActivationFunction, "fusedActivationFunction", .direct)]⟩,
  -- 1866-1891
  ⟨"SparseToDenseOperator", "SPARSE_TO_DENSE", 68, some 50, [(SparseToDenseOptionsAddValidateIndices, "validateIndices", .direct)]⟩,
  -- 1892-1919
  ⟨"TileOperator", "TILE", 69, some 51, []⟩,
  -- 1920-1947
  ⟨"ExpandDimsOperator", "EXPAND_DIMS", 70, some 52, []⟩,
  -- 1948-1975
  ⟨"EqualOperator", "EQUAL", 71, some 53, []⟩,
  -- 1976-2003
  ⟨"NotEqualOperator", "NOT_EQUAL", 72, some 54, []⟩,
  -- 2004-2008
  ⟨"LogOperator", "LOG", 73, none, []⟩,
  -- 2009-2034
  ⟨"SumOperator", "SUM", 74, some 27, [(ReducerOptionsAddKeepDims, "keepDims", .direct)]⟩,
  -- 2035-2039
  ⟨"SqrtOperator", "SQRT", 75, none, []⟩,
  -- 2040-2044
  ⟨"RsqrtOperator", "RSQRT", 76, none, []⟩,
  -- 2045-2070
  ⟨"ShapeOperator", "SHAPE", 77, some 55, [(ShapeOptionsAddOutType, "outType", .direct)]⟩,
  -- 2071-2098
  ⟨"PowOperator", "POW", 78, some 56, []⟩,
  -- 2099-2124
  ⟨"ArgMinOperator", "ARG_MIN", 79, some 57, [(ArgMinOptionsAddOutputType, "outputType", .direct)]⟩,
  -- 2125-2156
  ⟨"FakeQuantOperator", "FAKE_QUANT", 80, some 58, [(FakeQuantOptionsAddMin, "min", .direct), (FakeQuantOptionsAddMax, "max", .direct), (FakeQuantOptionsAddNumBits, "numBits", .direct), (FakeQuantOptionsAddNarrowRange, "narrowRange", .direct)]⟩,
  -- 2157-2182
  ⟨"ReduceProdOperator", "REDUCE_PROD", 81, some 27, [(ReducerOptionsAddKeepDims, "keepDims", .direct)]⟩,
  -- 2183-2208
  ⟨"ReduceMaxOperator", "REDUCE_MAX", 82, some 27, [(ReducerOptionsAddKeepDims, "keepDims", .direct)]⟩,
  -- 2209-2236
  ⟨"PackOperator", "PACK", 83, some 59, [(PackOptionsAddValuesCount, "valuesCount", .direct), (PackOptionsAddAxis, "axis", .direct)]⟩,
  -- 2237-2264
  ⟨"LogicalOrOperator", "LOGICAL_OR", 84, some 60, []⟩,
  -- 2265-2290
  ⟨"OneHotOperator", "ONE_HOT", 85, some 61, [(OneHotOptionsAddAxis, "axis", .direct)]⟩,
  -- 2291-2318
  ⟨"LogicalAndOperator", "LOGICAL_AND", 86, some 62, []⟩,
  -- 2319-2346
  ⟨"LogicalNotOperator", "LOGICAL_NOT", 87, some 63, []⟩,
  -- 2347-2374
  ⟨"UnpackOperator", "UNPACK", 88, some 64, [(UnpackOptionsAddNum, "num", .direct), (UnpackOptionsAddAxis, "axis", .direct)]⟩,
  -- 2375-2400
  ⟨"ReduceMinOperator", "REDUCE_MIN", 89, some 27, [(ReducerOptionsAddKeepDims, "keepDims", .direct)]⟩,
  -- 2401-2428
  ⟨"FloorDivOperator", "FLOOR_DIV", 90, some 65, []⟩,
  -- 2429-2454
  ⟨"ReduceAnyOperator", "REDUCE_ANY", 91, some 27, [(ReducerOptionsAddKeepDims, "keepDims", .direct)]⟩,
  -- 2455-2482
  ⟨"SquareOperator", "SQUARE", 92, some 66, []⟩,
  -- 2483-2510
  ⟨"ZerosLikeOperator", "ZEROS_LIKE", 93, some 67, []⟩,
  -- 2511-2538
  ⟨"FillOperator", "FILL", 94, some 68, []⟩,
  -- 2539-2566
  ⟨"FloorModOperator", "FLOOR_MOD", 95, some 72, []⟩,
  -- 2567-2594
  ⟨"RangeOperator", "RANGE", 96, some 73, []⟩,
  -- 2595-2622
  ⟨"ResizeNearestNeighborOperator", "RESIZE_NEAREST_NEIGHBOR", 97, some 74, [(ResizeNearestNeighborOptionsAddAlignCorners, "alignCorners", .direct), (ResizeNearestNeighborOptionsAddHalfPixelCenters, "halfPixelCenters", .direct)]⟩,
  -- 2623-2648
  ⟨"LeakyReluOperator", "LEAKY_RELU", 98, some 75, [(LeakyReluOptionsAddAlpha, "alpha", .direct)]⟩,
  -- 2649-2676
  ⟨"SquaredDifferenceOperator", "SQUARED_DIFFERENCE", 99, some 76, []⟩,
  -- 2677-2702
  ⟨"MirrorPadOperator", "MIRROR_PAD", 100, some 77, [(MirrorPadOptionsAddMode, "mode", .direct)]⟩,
  -- 2703-2730
  ⟨"AbsOperator", "ABS", 101, some 78, []⟩,
  -- 2731-2756
  ⟨"SplitVOperator", "SPLIT_V", 102, some 79, [(SplitVOptionsAddNumSplits, "numSplits", .direct)]⟩,
  -- 2757-2782
  ⟨"UniqueOperator", "UNIQUE", 103, some 80, [(UniqueOptionsAddIdxOutType, "idxOutType", .direct)]⟩,
  -- 2783-2787
  ⟨"CeilOperator", "CEIL", 104, none, []⟩,
  -- 2788-2815
  ⟨"ReverseV2Operator", "REVERSE_V2", 105, some 81, []⟩,
  -- 2816-2843
  ⟨"AddNOperator", "ADD_N", 106, some 82, []⟩,
  -- 2844-2871
  ⟨"GatherNdOperator", "GATHER_ND", 107, some 83, []⟩,
  -- 2872-2899
  ⟨"CosOperator", "COS", 108, some 84, []⟩,
  -- 2900-2927
  ⟨"WhereOperator", "WHERE", 109, some 85, []⟩,
  -- 2928-2955
  ⟨"RankOperator", "RANK", 110, some 86, []⟩,
  -- 2956-2960
  ⟨"EluOperator", "ELU", 111, none, []⟩,
  -- 2961-2988
  ⟨"ReverseSequenceOperator", "REVERSE_SEQUENCE", 112, some 87, [(ReverseSequenceOptionsAddSeqDim, "seqDim", .direct), (ReverseSequenceOptionsAddBatchDim, "batchDim", .direct)]⟩,
  -- 2989-3016
  ⟨"MatrixDiagOperator", "MATRIX_DIAG", 113, some 88, []⟩,
  -- 3017-3044
  ⟨"QuantizeOperator", "QUANTIZE", 114, some 89, []⟩,
  -- 3045-3072
  ⟨"MatrixSetDiagOperator", "MATRIX_SET_DIAG", 115, some 90, []⟩,
  -- 3073-3077
  ⟨"RoundOperator", "ROUND", 116, none, []⟩,
  -- 3078-3105
  ⟨"HardSwishOperator", "HARD_SWISH", 117, some 91, []⟩,
  -- 3106-3133
  ⟨"IfOperator", "IF", 118, some 92, [(IfOptionsAddThenSubgraphIndex, "thenSubgraphIndex", .direct), (IfOptionsAddElseSubgraphIndex, "elseSubgraphIndex", .direct)]⟩,
  -- 3134-3161
  ⟨"WhileOperator", "WHILE", 119, some 93, [(WhileOptionsAddCondSubgraphIndex, "condSubgraphIndex", .direct), (WhileOptionsAddBodySubgraphIndex, "bodySubgraphIndex", .direct)]⟩,
  -- 3162-3189
  ⟨"NonMaxSuppressionV4Operator", "NON_MAX_SUPPRESSION_V4", 120, some 95, []⟩,
  -- 3190-3217
  ⟨"NonMaxSuppressionV5Operator", "NON_MAX_SUPPRESSION_V5", 121, some 96, []⟩,
  -- 3218-3245
  ⟨"ScatterNdOperator", "SCATTER_ND", 122, some 97, []⟩,
  -- 3246-3273
  ⟨"SelectV2Operator", "SELECT_V2", 123, some 98, []⟩,
  -- 3274-3301
  ⟨"DensifyOperator", "DENSIFY", 124, some 99, []⟩,
  -- 3302-3329
  ⟨"SegmentSumOperator", "SEGMENT_SUM", 125, some 100, []⟩,
  -- 3330-3359
  ⟨"BatchMatmulOperator", "BATCH_MATMUL", 126, some 101, [(BatchMatMulOptionsAddAdjX, "adjX", .direct), (BatchMatMulOptionsAddAdjY, "adjY", .direct), (BatchMatMulOptionsAddAsymmetricQuantizeInputs, "asymmetricQuantizeInputs", .direct)]⟩,
  -- 3360-3364
  ⟨"PlaceholderForGreaterOpCodesOperator", "PLACEHOLDER_FOR_GREATER_OP_CODES", 127, none, []⟩,
  -- 3365-3392
  ⟨"CumsumOperator", "CUMSUM", 128, some 102, [(CumsumOptionsAddExclusive, "exclusive", .direct), (CumsumOptionsAddReverse, "reverse", .direct)]⟩,
  -- 3393-3418
  ⟨"CallOnceOperator", "CALL_ONCE", 129, some 103, [(CallOnceOptionsAddInitSubgraphIndex, "initSubgraphIndex", .direct)]⟩,
  -- 3419-3446
  ⟨"BroadcastToOperator", "BROADCAST_TO", 130, some 104, []⟩,
  -- 3447-3474
  ⟨"Rfft2dOperator", "RFFT2D", 131, some 105, []⟩,
  -- 3475-3526
  ⟨"Conv3dOperator", "CONV_3D", 132, some 106, [(Conv3DOptionsAddPadding, "padding", .direct), (Conv3DOptionsAddStrideD, "strideD", .direct), (Conv3DOptionsAddStrideW, "strideW", .direct), (Conv3DOptionsAddStrideH, "strideH", .direct), (Conv3DOptionsAddFusedActivationFunction, "fusedActivationFunction", .direct), (Conv3DOptionsAddDilationDFactor, "dilationDFactor", .direct), (Conv3DOptionsAddDilationWFactor, "dilationWFactor", .direct), (Conv3DOptionsAddDilationHFactor, "dilationHFactor", .direct)]⟩,
  -- 3527-3531
  ⟨"ImagOperator", "IMAG", 133, none, []⟩,
  -- 3532-3536
  ⟨"RealOperator", "REAL", 134, none, []⟩,
  -- 3537-3541
  ⟨"ComplexAbsOperator", "COMPLEX_ABS", 135, none, []⟩,
  -- 3542-3573
  ⟨"HashtableOperator", "HASHTABLE", 136, some 107, [(HashtableOptionsAddTableId, "tableId", .direct), (HashtableOptionsAddKeyDtype, "keyDtype", .direct), (HashtableOptionsAddValueDtype, "valueDtype", .direct)]⟩,
  -- 3574-3601
  ⟨"HashtableFindOperator", "HASHTABLE_FIND", 137, some 108, []⟩,
  -- 3602-3629
  ⟨"HashtableImportOperator", "HASHTABLE_IMPORT", 138, some 109, []⟩,
  -- 3630-3657
  ⟨"HashtableSizeOperator", "HASHTABLE_SIZE", 139, some 110, []⟩,
  -- 3658-3683
  ⟨"ReduceAllOperator", "REDUCE_ALL", 140, some 27, [(ReducerOptionsAddKeepDims, "keepDims", .direct)]⟩,
  -- 3684-3735
  ⟨"Conv3dTransposeOperator", "CONV_3D_TRANSPOSE", 141, some 106, [(Conv3DOptionsAddPadding, "padding", .direct), (Conv3DOptionsAddStrideD, "strideD", .direct), (Conv3DOptionsAddStrideW, "strideW", .direct), (Conv3DOptionsAddStrideH, "strideH", .direct), (Conv3DOptionsAddFusedActivationFunction, "fusedActivationFunction", .direct), (Conv3DOptionsAddDilationDFactor, "dilationDFactor", .direct), (Conv3DOptionsAddDilationWFactor, "dilationWFactor", .direct), (Conv3DOptionsAddDilationHFactor, "dilationHFactor", .direct)]⟩,
  -- 3736-3765
  ⟨"VarHandleOperator", "VAR_HANDLE", 142, some 111, [(VarHandleOptionsAddContainer, "container", .fails), (VarHandleOptionsAddSharedName, "sharedName", .fails)]⟩,
  -- 3766-3793
  ⟨"ReadVariableOperator", "READ_VARIABLE", 143, some 112, []⟩,
  -- 3794-3821
  ⟨"AssignVariableOperator", "ASSIGN_VARIABLE", 144, some 113, []⟩,
  -- 3822-3826
  ⟨"BroadcastArgsOperator", "BROADCAST_ARGS", 145, none, []⟩,
  -- 3827-3854
  ⟨"RandomStandardNormalOperator", "RANDOM_STANDARD_NORMAL", 146, some 114, [(RandomOptionsAddSeed, "seed", .direct), (RandomOptionsAddSeed2, "seed2", .direct)]⟩,
  -- 3855-3881
  ⟨"BucketizeOperator", "BUCKETIZE", 147, some 115, [(BucketizeOptionsAddBoundaries, "boundaries", .int32s)]⟩,
  -- 3882-3909
  ⟨"RandomUniformOperator", "RANDOM_UNIFORM", 148, some 114, [(RandomOptionsAddSeed, "seed", .direct), (RandomOptionsAddSeed2, "seed2", .direct)]⟩,
  -- 3910-3937
  ⟨"MultinomialOperator", "MULTINOMIAL", 149, some 114, [(RandomOptionsAddSeed, "seed", .direct), (RandomOptionsAddSeed2, "seed2", .direct)]⟩,
  -- 3938-3963
  ⟨"GeluOperator", "GELU", 150, some 116, [(GeluOptionsAddApproximate, "approximate", .direct)]⟩,
  -- 3964-3991
  ⟨"DynamicUpdateSliceOperator", "DYNAMIC_UPDATE_SLICE", 151, some 117, []⟩,
  -- 3992-3996
  ⟨"Relu0To1Operator", "RELU_0_TO_1", 152, none, []⟩,
  -- 3997-4024
  ⟨"UnsortedSegmentProdOperator", "UNSORTED_SEGMENT_PROD", 153, some 118, []⟩,
  -- 4025-4052
  ⟨"UnsortedSegmentMaxOperator", "UNSORTED_SEGMENT_MAX", 154, some 119, []⟩,
  -- 4053-4080
  ⟨"UnsortedSegmentSumOperator", "UNSORTED_SEGMENT_SUM", 155, some 121, []⟩,
  -- 4081-4108
  ⟨"Atan2Operator", "ATAN2", 156, some 122, []⟩,
  -- 4109-4136
  ⟨"UnsortedSegmentMinOperator", "UNSORTED_SEGMENT_MIN", 157, some 120, []⟩,
  -- 4137-4163
  ⟨"SignOperator", "SIGN", 158, some 123, []⟩]

end Verif.Model.FlatSchema
