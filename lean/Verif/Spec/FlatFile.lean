import Mathlib.Data.Rat.Defs
/-!
TFLite files as a reader sees them: objects referring to each other, and tables with numbered fields, where fields that were left out have a default.  Field numbers, operator and options numbers are
those of TensorFlow's schema.fbs (the version with the operators up to SIGN), written down independently of the code in `/repo`.
-/

namespace Verif.Spec.FlatFile

/-- Objects of a file: scalars, and what an offset can refer to; `null`: no object. -/
inductive Obj where
  | int (x : ℤ) | num (x : ℚ) | bool (b : Bool) | null
  | str (s : String) | ints (l : List ℤ) | nums (l : List ℚ) | bytes (l : List ℕ)
  | objs (l : List Obj) | table (l : List (ℕ × Obj))

/-- Types of fields: scalars and references. -/
inductive Kind where
  | bool | i8 | u8 | i32 | u32 | i64 | f32 | off | ints | nums | str
  deriving DecidableEq

/-- A field of a table in the schema. -/
structure Field where
  name : String
  id : ℕ
  kind : Kind
  dflt : Obj

/-- Reading a field. -/
def get (o : Obj) (id : ℕ) (dflt : Obj) : Obj :=
  match o with
  | .table t => (t.lookup id).getD dflt
  | _ => dflt

/-- The letters and digits of a name, in lower case. -/
def letters (s : String) : List Char := (s.toList.filter fun c => decide (c ≠ '_')).map Char.toLower

/-- What a field can hold. -/
def Fits : Kind → Obj → Prop
  | .bool, .bool _ => True
  | .i8, .int x => -128 ≤ x ∧ x ≤ 127
  | .u8, .int x => 0 ≤ x ∧ x ≤ 255
  | .i32, .int x => -2147483648 ≤ x ∧ x ≤ 2147483647
  | .u32, .int x => 0 ≤ x ∧ x ≤ 4294967295
  | .i64, .int x => -9223372036854775808 ≤ x ∧ x ≤ 9223372036854775807
  | .f32, .num _ => True
  | .ints, .ints l => ∀ x ∈ l, -2147483648 ≤ x ∧ x ≤ 2147483647
  | .nums, .nums _ => True
  | .str, .str _ => True
  | _, _ => False

/-- What is left of a value in a field of the given type, with `f32` rounding to single precision. -/
def kept (f32 : ℚ → ℚ) : Obj → Obj
  | .num x => .num (f32 x)
  | .nums l => .nums (l.map f32)
  | o => o

/-- The parts of a file. -/
structure QuantRec where
  scale : List ℚ
  zp : List ℤ
  dim : ℤ
  deriving DecidableEq

structure TensorRec where
  shape : List ℤ
  type : ℤ
  buffer : ℤ
  name : String
  quant : Option QuantRec
  isVariable : Bool
  deriving DecidableEq

structure CodeRec where
  code : ℤ
  version : ℤ
  custom : Option String
  deriving DecidableEq

structure OpRec where
  index : ℤ
  inputs : List ℤ
  outputs : List ℤ
  intermediates : List ℤ
  union : ℤ
  options : Obj
  customOptions : Option (List ℕ)

structure ModelRec where
  version : ℤ
  codes : List CodeRec
  tensors : List TensorRec
  inputs : List ℤ
  outputs : List ℤ
  ops : List OpRec
  buffers : List (List ℕ)

/-- `QuantizationParameters`: min 0, max 1, scale 2, zero_point 3, details 4 and 5, quantized_dimension 6. -/
def readQuant (o : Obj) : Option (Option QuantRec) :=
  match o with
  | .null => some none
  | o => match get o 2 .null, get o 3 .null, get o 6 (.int 0) with
    | .nums s, .ints z, .int d => some (some ⟨s, z, d⟩)
    | _, _, _ => none

/-- `Tensor`: shape 0, type 1, buffer 2, name 3, quantization 4, is_variable 5. -/
def readTensor (o : Obj) : Option TensorRec :=
  match get o 0 .null, get o 1 (.int 0), get o 2 (.int 0), get o 3 .null, readQuant (get o 4 .null), get o 5 (.bool false) with
  | .ints s, .int t, .int b, .str n, some q, .bool v => some ⟨s, t, b, n, q, v⟩
  | _, _, _, _, _, _ => none

/-- `OperatorCode`: deprecated_builtin_code 0, custom_code 1, version 2, builtin_code 3; the code is the larger one of the two. -/
def readCode (o : Obj) : Option CodeRec :=
  match get o 0 (.int 0), get o 1 .null, get o 2 (.int 1), get o 3 (.int 0) with
  | .int d, .null, .int v, .int c => some ⟨max d c, v, none⟩
  | .int d, .str s, .int v, .int c => some ⟨max d c, v, some s⟩
  | _, _, _, _ => none

/-- `Operator`: opcode_index 0, inputs 1, outputs 2, builtin_options type 3 and value 4, custom_options 5, custom_options_format 6, mutating_variable_inputs 7, intermediates 8. -/
def readOp (o : Obj) : Option OpRec :=
  match get o 0 (.int 0), get o 1 .null, get o 2 .null, get o 8 .null, get o 3 (.int 0), get o 5 .null with
  | .int i, .ints a, .ints b, .ints c, .int u, .null => some ⟨i, a, b, c, u, get o 4 .null, none⟩
  | .int i, .ints a, .ints b, .ints c, .int u, .bytes x => some ⟨i, a, b, c, u, get o 4 .null, some x⟩
  | _, _, _, _, _, _ => none

/-- `Buffer`: data 0. -/
def readBuffer (o : Obj) : Option (List ℕ) :=
  match get o 0 .null with
  | .null => some []
  | .bytes l => some l
  | _ => none

/-- `Model`: version 0, operator_codes 1, subgraphs 2, description 3, buffers 4; `SubGraph`: tensors 0, inputs 1, outputs 2, operators 3, name 4.  Files with one subgraph. -/
def readModel (o : Obj) : Option ModelRec :=
  match get o 0 (.int 0), get o 1 .null, get o 2 .null, get o 4 .null with
  | .int v, .objs cs, .objs [g], .objs bs =>
    match get g 0 .null, get g 1 .null, get g 2 .null, get g 3 .null with
    | .objs ts, .ints i, .ints out, .objs ops =>
      (cs.mapM readCode).bind fun cs => (ts.mapM readTensor).bind fun ts => (ops.mapM readOp).bind fun ops => (bs.mapM readBuffer).map fun bs => ⟨v, cs, ts, i, out, ops, bs⟩
    | _, _, _, _ => none
  | _, _, _, _ => none

/-- `TensorType`. -/
def tensorTypes : List (String × ℤ) := [("float32", 0), ("float16", 1), ("int32", 2), ("uint8", 3), ("int64", 4), ("bool", 6), ("int16", 7), ("int8", 9), ("float64", 10)]

/-- `BuiltinOperator` and the options that belong to each operator. -/
def operators : List (String × ℤ × String) := [
  ("ADD", 0, "AddOptions"), ("AVERAGE_POOL_2D", 1, "Pool2DOptions"), ("CONCATENATION", 2, "ConcatenationOptions"),
  ("CONV_2D", 3, "Conv2DOptions"), ("DEPTHWISE_CONV_2D", 4, "DepthwiseConv2DOptions"), ("DEPTH_TO_SPACE", 5, "DepthToSpaceOptions"),
  ("DEQUANTIZE", 6, "DequantizeOptions"), ("EMBEDDING_LOOKUP", 7, "NONE"), ("FLOOR", 8, "NONE"),
  ("FULLY_CONNECTED", 9, "FullyConnectedOptions"), ("HASHTABLE_LOOKUP", 10, "NONE"), ("L2_NORMALIZATION", 11, "L2NormOptions"),
  ("L2_POOL_2D", 12, "Pool2DOptions"), ("LOCAL_RESPONSE_NORMALIZATION", 13, "LocalResponseNormalizationOptions"), ("LOGISTIC", 14, "NONE"),
  ("LSH_PROJECTION", 15, "LSHProjectionOptions"), ("LSTM", 16, "LSTMOptions"), ("MAX_POOL_2D", 17, "Pool2DOptions"),
  ("MUL", 18, "MulOptions"), ("RELU", 19, "NONE"), ("RELU_N1_TO_1", 20, "NONE"),
  ("RELU6", 21, "NONE"), ("RESHAPE", 22, "ReshapeOptions"), ("RESIZE_BILINEAR", 23, "ResizeBilinearOptions"),
  ("RNN", 24, "RNNOptions"), ("SOFTMAX", 25, "SoftmaxOptions"), ("SPACE_TO_DEPTH", 26, "SpaceToDepthOptions"),
  ("SVDF", 27, "SVDFOptions"), ("TANH", 28, "NONE"), ("CONCAT_EMBEDDINGS", 29, "ConcatEmbeddingsOptions"),
  ("SKIP_GRAM", 30, "SkipGramOptions"), ("CALL", 31, "CallOptions"), ("CUSTOM", 32, "NONE"),
  ("EMBEDDING_LOOKUP_SPARSE", 33, "EmbeddingLookupSparseOptions"), ("PAD", 34, "PadOptions"), ("UNIDIRECTIONAL_SEQUENCE_RNN", 35, "SequenceRNNOptions"),
  ("GATHER", 36, "GatherOptions"), ("BATCH_TO_SPACE_ND", 37, "BatchToSpaceNDOptions"), ("SPACE_TO_BATCH_ND", 38, "SpaceToBatchNDOptions"),
  ("TRANSPOSE", 39, "TransposeOptions"), ("MEAN", 40, "ReducerOptions"), ("SUB", 41, "SubOptions"),
  ("DIV", 42, "DivOptions"), ("SQUEEZE", 43, "SqueezeOptions"), ("UNIDIRECTIONAL_SEQUENCE_LSTM", 44, "UnidirectionalSequenceLSTMOptions"),
  ("STRIDED_SLICE", 45, "StridedSliceOptions"), ("BIDIRECTIONAL_SEQUENCE_RNN", 46, "BidirectionalSequenceRNNOptions"), ("EXP", 47, "ExpOptions"),
  ("TOPK_V2", 48, "TopKV2Options"), ("SPLIT", 49, "SplitOptions"), ("LOG_SOFTMAX", 50, "LogSoftmaxOptions"),
  ("DELEGATE", 51, "NONE"), ("BIDIRECTIONAL_SEQUENCE_LSTM", 52, "BidirectionalSequenceLSTMOptions"), ("CAST", 53, "CastOptions"),
  ("PRELU", 54, "NONE"), ("MAXIMUM", 55, "MaximumMinimumOptions"), ("ARG_MAX", 56, "ArgMaxOptions"),
  ("MINIMUM", 57, "MaximumMinimumOptions"), ("LESS", 58, "LessOptions"), ("NEG", 59, "NegOptions"),
  ("PADV2", 60, "PadV2Options"), ("GREATER", 61, "GreaterOptions"), ("GREATER_EQUAL", 62, "GreaterEqualOptions"),
  ("LESS_EQUAL", 63, "LessEqualOptions"), ("SELECT", 64, "SelectOptions"), ("SLICE", 65, "SliceOptions"),
  ("SIN", 66, "NONE"), ("TRANSPOSE_CONV", 67, "TransposeConvOptions"), ("SPARSE_TO_DENSE", 68, "SparseToDenseOptions"),
  ("TILE", 69, "TileOptions"), ("EXPAND_DIMS", 70, "ExpandDimsOptions"), ("EQUAL", 71, "EqualOptions"),
  ("NOT_EQUAL", 72, "NotEqualOptions"), ("LOG", 73, "NONE"), ("SUM", 74, "ReducerOptions"),
  ("SQRT", 75, "NONE"), ("RSQRT", 76, "NONE"), ("SHAPE", 77, "ShapeOptions"),
  ("POW", 78, "PowOptions"), ("ARG_MIN", 79, "ArgMinOptions"), ("FAKE_QUANT", 80, "FakeQuantOptions"),
  ("REDUCE_PROD", 81, "ReducerOptions"), ("REDUCE_MAX", 82, "ReducerOptions"), ("PACK", 83, "PackOptions"),
  ("LOGICAL_OR", 84, "LogicalOrOptions"), ("ONE_HOT", 85, "OneHotOptions"), ("LOGICAL_AND", 86, "LogicalAndOptions"),
  ("LOGICAL_NOT", 87, "LogicalNotOptions"), ("UNPACK", 88, "UnpackOptions"), ("REDUCE_MIN", 89, "ReducerOptions"),
  ("FLOOR_DIV", 90, "FloorDivOptions"), ("REDUCE_ANY", 91, "ReducerOptions"), ("SQUARE", 92, "SquareOptions"),
  ("ZEROS_LIKE", 93, "ZerosLikeOptions"), ("FILL", 94, "FillOptions"), ("FLOOR_MOD", 95, "FloorModOptions"),
  ("RANGE", 96, "RangeOptions"), ("RESIZE_NEAREST_NEIGHBOR", 97, "ResizeNearestNeighborOptions"), ("LEAKY_RELU", 98, "LeakyReluOptions"),
  ("SQUARED_DIFFERENCE", 99, "SquaredDifferenceOptions"), ("MIRROR_PAD", 100, "MirrorPadOptions"), ("ABS", 101, "AbsOptions"),
  ("SPLIT_V", 102, "SplitVOptions"), ("UNIQUE", 103, "UniqueOptions"), ("CEIL", 104, "NONE"),
  ("REVERSE_V2", 105, "ReverseV2Options"), ("ADD_N", 106, "AddNOptions"), ("GATHER_ND", 107, "GatherNdOptions"),
  ("COS", 108, "CosOptions"), ("WHERE", 109, "WhereOptions"), ("RANK", 110, "RankOptions"),
  ("ELU", 111, "NONE"), ("REVERSE_SEQUENCE", 112, "ReverseSequenceOptions"), ("MATRIX_DIAG", 113, "MatrixDiagOptions"),
  ("QUANTIZE", 114, "QuantizeOptions"), ("MATRIX_SET_DIAG", 115, "MatrixSetDiagOptions"), ("ROUND", 116, "NONE"),
  ("HARD_SWISH", 117, "HardSwishOptions"), ("IF", 118, "IfOptions"), ("WHILE", 119, "WhileOptions"),
  ("NON_MAX_SUPPRESSION_V4", 120, "NonMaxSuppressionV4Options"), ("NON_MAX_SUPPRESSION_V5", 121, "NonMaxSuppressionV5Options"), ("SCATTER_ND", 122, "ScatterNdOptions"),
  ("SELECT_V2", 123, "SelectV2Options"), ("DENSIFY", 124, "DensifyOptions"), ("SEGMENT_SUM", 125, "SegmentSumOptions"),
  ("BATCH_MATMUL", 126, "BatchMatMulOptions"), ("PLACEHOLDER_FOR_GREATER_OP_CODES", 127, "NONE"), ("CUMSUM", 128, "CumsumOptions"),
  ("CALL_ONCE", 129, "CallOnceOptions"), ("BROADCAST_TO", 130, "BroadcastToOptions"), ("RFFT2D", 131, "Rfft2dOptions"),
  ("CONV_3D", 132, "Conv3DOptions"), ("IMAG", 133, "NONE"), ("REAL", 134, "NONE"),
  ("COMPLEX_ABS", 135, "NONE"), ("HASHTABLE", 136, "HashtableOptions"), ("HASHTABLE_FIND", 137, "HashtableFindOptions"),
  ("HASHTABLE_IMPORT", 138, "HashtableImportOptions"), ("HASHTABLE_SIZE", 139, "HashtableSizeOptions"), ("REDUCE_ALL", 140, "ReducerOptions"),
  ("CONV_3D_TRANSPOSE", 141, "Conv3DOptions"), ("VAR_HANDLE", 142, "VarHandleOptions"), ("READ_VARIABLE", 143, "ReadVariableOptions"),
  ("ASSIGN_VARIABLE", 144, "AssignVariableOptions"), ("BROADCAST_ARGS", 145, "NONE"), ("RANDOM_STANDARD_NORMAL", 146, "RandomOptions"),
  ("BUCKETIZE", 147, "BucketizeOptions"), ("RANDOM_UNIFORM", 148, "RandomOptions"), ("MULTINOMIAL", 149, "RandomOptions"),
  ("GELU", 150, "GeluOptions"), ("DYNAMIC_UPDATE_SLICE", 151, "DynamicUpdateSliceOptions"), ("RELU_0_TO_1", 152, "NONE"),
  ("UNSORTED_SEGMENT_PROD", 153, "UnsortedSegmentProdOptions"), ("UNSORTED_SEGMENT_MAX", 154, "UnsortedSegmentMaxOptions"), ("UNSORTED_SEGMENT_SUM", 155, "UnsortedSegmentSumOptions"),
  ("ATAN2", 156, "ATan2Options"), ("UNSORTED_SEGMENT_MIN", 157, "UnsortedSegmentMinOptions"), ("SIGN", 158, "SignOptions")]

/-- `BuiltinOptions`, in order. -/
def unions : List String := [
  "NONE", "Conv2DOptions", "DepthwiseConv2DOptions", "ConcatEmbeddingsOptions", "LSHProjectionOptions", "Pool2DOptions",
  "SVDFOptions", "RNNOptions", "FullyConnectedOptions", "SoftmaxOptions", "ConcatenationOptions", "AddOptions",
  "L2NormOptions", "LocalResponseNormalizationOptions", "LSTMOptions", "ResizeBilinearOptions", "CallOptions", "ReshapeOptions",
  "SkipGramOptions", "SpaceToDepthOptions", "EmbeddingLookupSparseOptions", "MulOptions", "PadOptions", "GatherOptions",
  "BatchToSpaceNDOptions", "SpaceToBatchNDOptions", "TransposeOptions", "ReducerOptions", "SubOptions", "DivOptions",
  "SqueezeOptions", "SequenceRNNOptions", "StridedSliceOptions", "ExpOptions", "TopKV2Options", "SplitOptions",
  "LogSoftmaxOptions", "CastOptions", "DequantizeOptions", "MaximumMinimumOptions", "ArgMaxOptions", "LessOptions",
  "NegOptions", "PadV2Options", "GreaterOptions", "GreaterEqualOptions", "LessEqualOptions", "SelectOptions",
  "SliceOptions", "TransposeConvOptions", "SparseToDenseOptions", "TileOptions", "ExpandDimsOptions", "EqualOptions",
  "NotEqualOptions", "ShapeOptions", "PowOptions", "ArgMinOptions", "FakeQuantOptions", "PackOptions",
  "LogicalOrOptions", "OneHotOptions", "LogicalAndOptions", "LogicalNotOptions", "UnpackOptions", "FloorDivOptions",
  "SquareOptions", "ZerosLikeOptions", "FillOptions", "BidirectionalSequenceLSTMOptions", "BidirectionalSequenceRNNOptions", "UnidirectionalSequenceLSTMOptions",
  "FloorModOptions", "RangeOptions", "ResizeNearestNeighborOptions", "LeakyReluOptions", "SquaredDifferenceOptions", "MirrorPadOptions",
  "AbsOptions", "SplitVOptions", "UniqueOptions", "ReverseV2Options", "AddNOptions", "GatherNdOptions",
  "CosOptions", "WhereOptions", "RankOptions", "ReverseSequenceOptions", "MatrixDiagOptions", "QuantizeOptions",
  "MatrixSetDiagOptions", "HardSwishOptions", "IfOptions", "WhileOptions", "DepthToSpaceOptions", "NonMaxSuppressionV4Options",
  "NonMaxSuppressionV5Options", "ScatterNdOptions", "SelectV2Options", "DensifyOptions", "SegmentSumOptions", "BatchMatMulOptions",
  "CumsumOptions", "CallOnceOptions", "BroadcastToOptions", "Rfft2dOptions", "Conv3DOptions", "HashtableOptions",
  "HashtableFindOptions", "HashtableImportOptions", "HashtableSizeOptions", "VarHandleOptions", "ReadVariableOptions", "AssignVariableOptions",
  "RandomOptions", "BucketizeOptions", "GeluOptions", "DynamicUpdateSliceOptions", "UnsortedSegmentProdOptions", "UnsortedSegmentMaxOptions",
  "UnsortedSegmentMinOptions", "UnsortedSegmentSumOptions", "ATan2Options", "SignOptions"]

/-- The fields of the options; tables that are not listed have none. -/
def fields : List (String × List Field) := [
  ("Conv2DOptions", [⟨"padding", 0, .i8, .int 0⟩, ⟨"strideW", 1, .i32, .int 0⟩, ⟨"strideH", 2, .i32, .int 0⟩, ⟨"fusedActivationFunction", 3, .i8, .int 0⟩, ⟨"dilationWFactor", 4, .i32, .int 1⟩, ⟨"dilationHFactor", 5, .i32, .int 1⟩]),
  ("Conv3DOptions", [⟨"padding", 0, .i8, .int 0⟩, ⟨"strideD", 1, .i32, .int 0⟩, ⟨"strideW", 2, .i32, .int 0⟩, ⟨"strideH", 3, .i32, .int 0⟩, ⟨"fusedActivationFunction", 4, .i8, .int 0⟩, ⟨"dilationDFactor", 5, .i32, .int 1⟩, ⟨"dilationWFactor", 6, .i32, .int 1⟩, ⟨"dilationHFactor", 7, .i32, .int 1⟩]),
  ("Pool2DOptions", [⟨"padding", 0, .i8, .int 0⟩, ⟨"strideW", 1, .i32, .int 0⟩, ⟨"strideH", 2, .i32, .int 0⟩, ⟨"filterWidth", 3, .i32, .int 0⟩, ⟨"filterHeight", 4, .i32, .int 0⟩, ⟨"fusedActivationFunction", 5, .i8, .int 0⟩]),
  ("DepthwiseConv2DOptions", [⟨"padding", 0, .i8, .int 0⟩, ⟨"strideW", 1, .i32, .int 0⟩, ⟨"strideH", 2, .i32, .int 0⟩, ⟨"depthMultiplier", 3, .i32, .int 0⟩, ⟨"fusedActivationFunction", 4, .i8, .int 0⟩, ⟨"dilationWFactor", 5, .i32, .int 1⟩, ⟨"dilationHFactor", 6, .i32, .int 1⟩]),
  ("ConcatEmbeddingsOptions", [⟨"numChannels", 0, .i32, .int 0⟩, ⟨"numColumnsPerChannel", 1, .ints, .null⟩, ⟨"embeddingDimPerChannel", 2, .ints, .null⟩]),
  ("LSHProjectionOptions", [⟨"type", 0, .i8, .int 0⟩]),
  ("SVDFOptions", [⟨"rank", 0, .i32, .int 0⟩, ⟨"fusedActivationFunction", 1, .i8, .int 0⟩, ⟨"asymmetricQuantizeInputs", 2, .bool, .bool false⟩]),
  ("RNNOptions", [⟨"fusedActivationFunction", 0, .i8, .int 0⟩, ⟨"asymmetricQuantizeInputs", 1, .bool, .bool false⟩]),
  ("SequenceRNNOptions", [⟨"timeMajor", 0, .bool, .bool false⟩, ⟨"fusedActivationFunction", 1, .i8, .int 0⟩, ⟨"asymmetricQuantizeInputs", 2, .bool, .bool false⟩]),
  ("BidirectionalSequenceRNNOptions", [⟨"timeMajor", 0, .bool, .bool false⟩, ⟨"fusedActivationFunction", 1, .i8, .int 0⟩, ⟨"mergeOutputs", 2, .bool, .bool false⟩, ⟨"asymmetricQuantizeInputs", 3, .bool, .bool false⟩]),
  ("FullyConnectedOptions", [⟨"fusedActivationFunction", 0, .i8, .int 0⟩, ⟨"weightsFormat", 1, .i8, .int 0⟩, ⟨"keepNumDims", 2, .bool, .bool false⟩, ⟨"asymmetricQuantizeInputs", 3, .bool, .bool false⟩]),
  ("SoftmaxOptions", [⟨"beta", 0, .f32, .num 0⟩]),
  ("ConcatenationOptions", [⟨"axis", 0, .i32, .int 0⟩, ⟨"fusedActivationFunction", 1, .i8, .int 0⟩]),
  ("AddOptions", [⟨"fusedActivationFunction", 0, .i8, .int 0⟩, ⟨"potScaleInt16", 1, .bool, .bool true⟩]),
  ("MulOptions", [⟨"fusedActivationFunction", 0, .i8, .int 0⟩]),
  ("L2NormOptions", [⟨"fusedActivationFunction", 0, .i8, .int 0⟩]),
  ("LocalResponseNormalizationOptions", [⟨"radius", 0, .i32, .int 0⟩, ⟨"bias", 1, .f32, .num 0⟩, ⟨"alpha", 2, .f32, .num 0⟩, ⟨"beta", 3, .f32, .num 0⟩]),
  ("LSTMOptions", [⟨"fusedActivationFunction", 0, .i8, .int 0⟩, ⟨"cellClip", 1, .f32, .num 0⟩, ⟨"projClip", 2, .f32, .num 0⟩, ⟨"kernelType", 3, .i8, .int 0⟩, ⟨"asymmetricQuantizeInputs", 4, .bool, .bool false⟩]),
  ("UnidirectionalSequenceLSTMOptions", [⟨"fusedActivationFunction", 0, .i8, .int 0⟩, ⟨"cellClip", 1, .f32, .num 0⟩, ⟨"projClip", 2, .f32, .num 0⟩, ⟨"timeMajor", 3, .bool, .bool false⟩, ⟨"asymmetricQuantizeInputs", 4, .bool, .bool false⟩, ⟨"diagonalRecurrentTensors", 5, .bool, .bool false⟩]),
  ("BidirectionalSequenceLSTMOptions", [⟨"fusedActivationFunction", 0, .i8, .int 0⟩, ⟨"cellClip", 1, .f32, .num 0⟩, ⟨"projClip", 2, .f32, .num 0⟩, ⟨"mergeOutputs", 3, .bool, .bool false⟩, ⟨"timeMajor", 4, .bool, .bool true⟩, ⟨"asymmetricQuantizeInputs", 5, .bool, .bool false⟩]),
  ("ResizeBilinearOptions", [⟨"alignCorners", 2, .bool, .bool false⟩, ⟨"halfPixelCenters", 3, .bool, .bool false⟩]),
  ("ResizeNearestNeighborOptions", [⟨"alignCorners", 0, .bool, .bool false⟩, ⟨"halfPixelCenters", 1, .bool, .bool false⟩]),
  ("CallOptions", [⟨"subgraph", 0, .u32, .int 0⟩]),
  ("ReshapeOptions", [⟨"newShape", 0, .ints, .null⟩]),
  ("SkipGramOptions", [⟨"ngramSize", 0, .i32, .int 0⟩, ⟨"maxSkipSize", 1, .i32, .int 0⟩, ⟨"includeAllNgrams", 2, .bool, .bool false⟩]),
  ("SpaceToDepthOptions", [⟨"blockSize", 0, .i32, .int 0⟩]),
  ("DepthToSpaceOptions", [⟨"blockSize", 0, .i32, .int 0⟩]),
  ("SubOptions", [⟨"fusedActivationFunction", 0, .i8, .int 0⟩, ⟨"potScaleInt16", 1, .bool, .bool true⟩]),
  ("DivOptions", [⟨"fusedActivationFunction", 0, .i8, .int 0⟩]),
  ("EmbeddingLookupSparseOptions", [⟨"combiner", 0, .i8, .int 0⟩]),
  ("GatherOptions", [⟨"axis", 0, .i32, .int 0⟩, ⟨"batchDims", 1, .i32, .int 0⟩]),
  ("ReducerOptions", [⟨"keepDims", 0, .bool, .bool false⟩]),
  ("SqueezeOptions", [⟨"squeezeDims", 0, .ints, .null⟩]),
  ("SplitOptions", [⟨"numSplits", 0, .i32, .int 0⟩]),
  ("SplitVOptions", [⟨"numSplits", 0, .i32, .int 0⟩]),
  ("StridedSliceOptions", [⟨"beginMask", 0, .i32, .int 0⟩, ⟨"endMask", 1, .i32, .int 0⟩, ⟨"ellipsisMask", 2, .i32, .int 0⟩, ⟨"newAxisMask", 3, .i32, .int 0⟩, ⟨"shrinkAxisMask", 4, .i32, .int 0⟩]),
  ("CastOptions", [⟨"inDataType", 0, .i8, .int 0⟩, ⟨"outDataType", 1, .i8, .int 0⟩]),
  ("ArgMaxOptions", [⟨"outputType", 0, .i8, .int 0⟩]),
  ("ArgMinOptions", [⟨"outputType", 0, .i8, .int 0⟩]),
  ("TransposeConvOptions", [⟨"padding", 0, .i8, .int 0⟩, ⟨"strideW", 1, .i32, .int 0⟩, ⟨"strideH", 2, .i32, .int 0⟩, ⟨"fusedActivationFunction", 3, .i8, .int 0⟩]),
  ("SparseToDenseOptions", [⟨"validateIndices", 0, .bool, .bool false⟩]),
  ("ShapeOptions", [⟨"outType", 0, .i8, .int 0⟩]),
  ("FakeQuantOptions", [⟨"min", 0, .f32, .num 0⟩, ⟨"max", 1, .f32, .num 0⟩, ⟨"numBits", 2, .i32, .int 0⟩, ⟨"narrowRange", 3, .bool, .bool false⟩]),
  ("PackOptions", [⟨"valuesCount", 0, .i32, .int 0⟩, ⟨"axis", 1, .i32, .int 0⟩]),
  ("OneHotOptions", [⟨"axis", 0, .i32, .int 0⟩]),
  ("UnpackOptions", [⟨"num", 0, .i32, .int 0⟩, ⟨"axis", 1, .i32, .int 0⟩]),
  ("LeakyReluOptions", [⟨"alpha", 0, .f32, .num 0⟩]),
  ("MirrorPadOptions", [⟨"mode", 0, .i8, .int 0⟩]),
  ("UniqueOptions", [⟨"idxOutType", 0, .i8, .int 2⟩]),
  ("ReverseSequenceOptions", [⟨"seqDim", 0, .i32, .int 0⟩, ⟨"batchDim", 1, .i32, .int 0⟩]),
  ("IfOptions", [⟨"thenSubgraphIndex", 0, .i32, .int 0⟩, ⟨"elseSubgraphIndex", 1, .i32, .int 0⟩]),
  ("WhileOptions", [⟨"condSubgraphIndex", 0, .i32, .int 0⟩, ⟨"bodySubgraphIndex", 1, .i32, .int 0⟩]),
  ("BatchMatMulOptions", [⟨"adjX", 0, .bool, .bool false⟩, ⟨"adjY", 1, .bool, .bool false⟩, ⟨"asymmetricQuantizeInputs", 2, .bool, .bool false⟩]),
  ("CumsumOptions", [⟨"exclusive", 0, .bool, .bool false⟩, ⟨"reverse", 1, .bool, .bool false⟩]),
  ("CallOnceOptions", [⟨"initSubgraphIndex", 0, .i32, .int 0⟩]),
  ("HashtableOptions", [⟨"tableId", 0, .i32, .int 0⟩, ⟨"keyDtype", 1, .i8, .int 0⟩, ⟨"valueDtype", 2, .i8, .int 0⟩]),
  ("VarHandleOptions", [⟨"container", 0, .str, .null⟩, ⟨"sharedName", 1, .str, .null⟩]),
  ("RandomOptions", [⟨"seed", 0, .i64, .int 0⟩, ⟨"seed2", 1, .i64, .int 0⟩]),
  ("BucketizeOptions", [⟨"boundaries", 0, .nums, .null⟩]),
  ("GeluOptions", [⟨"approximate", 0, .bool, .bool false⟩])]

end Verif.Spec.FlatFile
