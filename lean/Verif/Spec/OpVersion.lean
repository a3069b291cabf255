/-!
TFLite's operator versioning table, as `/repo/tinynn/converter/operators/op_version.py` documents it (its comment refers to
`GetBuiltinOperatorVersion` of TensorFlow): for every operator a list of rules `(condition, version)`, the first rule that
applies gives the version, and 1 is the default.  Keyed on the operator code throughout.
-/

namespace Verif.Spec

/-- Builtin operators; `OTHER` stands for every operator the table does not mention. -/
inductive Builtin
  | CONV_2D | DEPTHWISE_CONV_2D | FAKE_QUANT | FULLY_CONNECTED | GATHER | SVDF | MUL | TRANSPOSE | TRANSPOSE_CONV | LSTM | UNIDIRECTIONAL_SEQUENCE_LSTM | SPLIT | SPARSE_TO_DENSE | SLICE | UNPACK | DEQUANTIZE | FLOOR_DIV | L2_NORMALIZATION | RELU | GELU | STRIDED_SLICE | REVERSE_V2 | RESIZE_BILINEAR | MINIMUM | MAXIMUM | PACK | TILE | SPACE_TO_BATCH_ND | BATCH_TO_SPACE_ND | SUB
  | AVERAGE_POOL_2D | ADD | CONCATENATION | MAX_POOL_2D | PAD | PADV2 | SOFTMAX | SPACE_TO_DEPTH | SPLIT_V | MEAN | SUM | REDUCE_MAX | REDUCE_MIN | RELU6 | RESIZE_NEAREST_NEIGHBOR | TANH | LOGISTIC | LOG_SOFTMAX | TOPK_V2 | ARG_MAX | ARG_MIN | EQUAL | NOT_EQUAL | GREATER | GREATER_EQUAL | LESS | LESS_EQUAL | SELECT
  | OTHER
  deriving DecidableEq, Repr

inductive DType | float32 | float16 | int8 | uint8 | int16 | int32 | int64 | bool | string | other
  deriving DecidableEq, Repr

inductive LstmKernel | full | basic
  deriving DecidableEq, Repr

/-- What the version depends on: operand types and ranks and a few attributes. -/
structure OpSig where
  inTypes : List DType
  outType : DType
  inRanks : List Nat
  dilated : Bool
  narrowRange : Bool
  keepNumDims : Bool
  shuffledWeights : Bool
  lstmKernel : LstmKernel
  halfPixelCenters : Bool
  /-- MUL: all three operands are quantized with non-zero scale and `s0 * s1 / sOut >= 1`. -/
  rescaleGeOne : Bool

namespace OpSig
def in0 (s : OpSig) : DType := s.inTypes.getD 0 .other
def in1 (s : OpSig) : DType := s.inTypes.getD 1 .other
def in2 (s : OpSig) : DType := s.inTypes.getD 2 .other
def rank0 (s : OpSig) : Nat := s.inRanks.getD 0 0
def rank1 (s : OpSig) : Nat := s.inRanks.getD 1 0

/-- Everything signed 8 bit. -/
def int8 (s : OpSig) : Bool := s.in0 == .int8 && s.in1 == .int8 && s.outType == .int8
/-- Float activations with 8-bit weights. -/
def hybrid (s : OpSig) : Bool := s.in0 == .float32 && s.in1 == .int8 && s.outType == .float32
def hybridLstm (s : OpSig) : Bool := s.in0 == .float32 && s.in2 == .int8 && s.outType == .float32
def in0Int8 (s : OpSig) : Bool := s.in0 == .int8
def in0Byte (s : OpSig) : Bool := s.in0 == .int8 || s.in0 == .uint8
def int16InOut (s : OpSig) : Bool := s.in0 == .int16 && s.outType == .int16
/-- Broadcasting between operands of different rank, one of them above 4. -/
def highRankBroadcast (s : OpSig) : Bool := s.rank0 != s.rank1 && decide (4 < max s.rank0 s.rank1)
end OpSig

/-- The first rule that applies, 1 if none does. -/
def firstRule : List (Bool × Nat) → Nat
  | [] => 1
  | (c, v) :: r => if c then v else firstRule r

/-- The table. -/
def versionRules (s : OpSig) : Builtin → List (Bool × Nat)
  | .CONV_2D => [(s.int8, 3), (s.hybrid, 2)]
  | .DEPTHWISE_CONV_2D => [(s.hybrid, 4), (s.int8, 3), (s.dilated, 2)]
  | .FAKE_QUANT => [(s.narrowRange, 2)]
  | .FULLY_CONNECTED => [(s.inTypes.length == 2, 6), (s.keepNumDims, 5), (s.int8, 4), (s.hybrid, 3), (s.shuffledWeights, 2)]
  | .GATHER => [(s.in0 == .bool, 3), (s.in0Int8, 2)]
  | .SVDF => [(s.in0Int8, 3), (s.hybrid, 2)]
  | .MUL => [(s.rescaleGeOne, 3), (s.in0Int8, 2)]
  | .TRANSPOSE | .STRIDED_SLICE => [(decide (4 < s.rank0), 4), (s.in0 == .bool, 3), (s.in0Int8, 2)]
  | .TRANSPOSE_CONV => [(s.in0Int8, 2)]
  | .LSTM => [(s.lstmKernel == .full && s.hybridLstm, 3), (s.lstmKernel == .basic, 2)]
  | .UNIDIRECTIONAL_SEQUENCE_LSTM => [(s.hybridLstm, 2)]
  | .SPLIT => [(s.in1 == .int32, 3), (s.in1 == .int8, 2)]
  | .SPARSE_TO_DENSE => [(s.in2 == .int8 || s.in2 == .uint8, 3), (s.in2 == .int64, 2)]
  | .SLICE => [(s.in0 == .string, 3), (s.in0Int8, 2)]
  | .UNPACK => [(s.in0 == .int16 || s.outType == .int16, 4), (s.in0 == .bool, 3), (s.in0Byte, 2)]
  | .DEQUANTIZE => [(s.in0 == .int16 || s.in0 == .float16, 3), (s.in0Int8, 2)]
  | .FLOOR_DIV => [(s.in0 == .float32, 2)]
  | .L2_NORMALIZATION => [(s.outType == .int8, 2)]
  | .RELU | .GELU => [(s.in0Byte, 2)]
  | .REVERSE_V2 => [(s.outType == .bool, 2)]
  | .RESIZE_BILINEAR => [(s.halfPixelCenters, 3), (s.in0Int8, 2)]
  | .MINIMUM | .MAXIMUM => [(s.int16InOut, 4), (s.highRankBroadcast, 3), (s.in0Int8, 2)]
  | .PACK => [(s.int16InOut, 3), (s.in0Int8, 2)]
  | .TILE => [(s.in0 == .string, 2)]
  | .SPACE_TO_BATCH_ND | .BATCH_TO_SPACE_ND => [(s.rank0 != 4, 3), (s.in0Int8, 2)]
  | .SUB => [(s.highRankBroadcast, 3), (s.in0Int8, 2)]
  | .OTHER => []
  | _ => [(s.in0Int8, 2)]

/-- The version the runtime's table asks for. -/
def requiredVersion (op : Builtin) (s : OpSig) : Nat := firstRule (versionRules s op)

end Verif.Spec
