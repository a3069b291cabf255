import Verif.Spec.OpVersion

/-!
Model of `OPVersioner.process_op` and `process`, `/repo/tinynn/converter/operators/op_version.py` 19-315.  `version` is the value
of `op.op.version` on entry.  `str(dtype)` comparisons are comparisons of `DType`.
-/

namespace Verif.Model
open Verif.Spec

/-- The numbers of `ExtendedOperator` that the code compares `op.op.version` with (schema_generated.py 85, 86, 89, 117). -/
def codeTILE : Nat := 69
def codeSPACE_TO_BATCH_ND : Nat := 38
def codeBATCH_TO_SPACE_ND : Nat := 37
def codeSUB : Nat := 41

/-- op_version.py 280-309. -/
def lastList : List Builtin := [
  .AVERAGE_POOL_2D, .ADD, .CONCATENATION, .MAX_POOL_2D, .PAD, .PADV2, .SOFTMAX, .SPACE_TO_DEPTH, .SPLIT_V, .MEAN, .SUM, .REDUCE_MAX, .REDUCE_MIN, .RELU6, .RESIZE_NEAREST_NEIGHBOR, .TANH, .LOGISTIC, .LOG_SOFTMAX, .TOPK_V2, .ARG_MAX, .ARG_MIN, .EQUAL, .NOT_EQUAL, .GREATER, .GREATER_EQUAL, .LESS, .LESS_EQUAL, .SELECT]

/-- `process_op`, op_version.py 25-315: the new `op.op.version`. -/
def processOp (code : Builtin) (s : OpSig) (version : Nat) : Nat :=
  let i0 := s.inTypes.getD 0 .other
  let i1 := s.inTypes.getD 1 .other
  let i2 := s.inTypes.getD 2 .other
  let out := s.outType
  let r0 := s.inRanks.getD 0 0
  let r1 := s.inRanks.getD 1 0
  if code = .CONV_2D then                                        -- 34-48
    if i0 = .int8 ∧ i1 = .int8 ∧ out = .int8 then 3
    else if i0 = .float32 ∧ i1 = .int8 ∧ out = .float32 then 2
    else 1
  else if code = .DEPTHWISE_CONV_2D then                         -- 49-65
    if i0 = .float32 ∧ i1 = .int8 ∧ out = .float32 then 4
    else if i0 = .int8 ∧ i1 = .int8 ∧ out = .int8 then 3
    else if s.dilated then 2
    else 1
  else if code = .FAKE_QUANT then if s.narrowRange then 2 else 1  -- 66-70
  else if code = .FULLY_CONNECTED then                           -- 71-91
    if s.inTypes.length = 2 then 6
    else if s.keepNumDims then 5
    else if i0 = .int8 ∧ i1 = .int8 ∧ out = .int8 then 4
    else if i0 = .float32 ∧ i1 = .int8 ∧ out = .float32 then 3
    else if s.shuffledWeights then 2
    else 1
  else if code = .GATHER then                                    -- 92-98
    if i0 = .bool then 3 else if i0 = .int8 then 2 else 1
  else if code = .SVDF then                                      -- 99-109
    if i0 = .int8 then 3
    else if i0 = .float32 ∧ i1 = .int8 ∧ out = .float32 then 2
    else 1
  else if code = .MUL then                                       -- 110-125
    if s.rescaleGeOne then 3 else if i0 = .int8 then 2 else 1
  else if code = .TRANSPOSE then                                 -- 126-134
    if r0 > 4 then 4 else if i0 = .bool then 3 else if i0 = .int8 then 2 else 1
  else if code = .TRANSPOSE_CONV then if i0 = .int8 then 2 else 1 -- 135-139
  else if code = .LSTM then                                      -- 140-151
    if s.lstmKernel = .full ∧ i0 = .float32 ∧ i2 = .int8 ∧ out = .float32 then 3
    else if s.lstmKernel = .basic then 2
    else 1
  else if code = .UNIDIRECTIONAL_SEQUENCE_LSTM then              -- 152-160
    if i0 = .float32 ∧ i2 = .int8 ∧ out = .float32 then 2 else 1
  else if code = .SPLIT then                                     -- 161-167
    if i1 = .int32 then 3 else if i1 = .int8 then 2 else 1
  else if code = .SPARSE_TO_DENSE then                           -- 168-174
    if i2 = .int8 ∨ i2 = .uint8 then 3 else if i2 = .int64 then 2 else 1
  else if code = .SLICE then                                     -- 175-181
    if i0 = .string then 3 else if i0 = .int8 then 2 else 1
  else if code = .UNPACK then                                    -- 182-190
    if i0 = .int16 ∨ out = .int16 then 4
    else if i0 = .bool then 3
    else if i0 = .int8 ∨ i0 = .uint8 then 2
    else 1
  else if code = .DEQUANTIZE then                                -- 191-197
    if i0 = .int16 ∨ i0 = .float16 then 3 else if i0 = .int8 then 2 else 1
  else if code = .FLOOR_DIV then if i0 = .float32 then 2 else 1  -- 198-202
  else if code = .L2_NORMALIZATION then if out = .int8 then 2 else 1 -- 203-207
  else if code = .RELU then if i0 = .int8 ∨ i0 = .uint8 then 2 else 1 -- 208-212
  else if code = .GELU then if i0 = .int8 ∨ i0 = .uint8 then 2 else 1 -- 213-217
  else if code = .STRIDED_SLICE then                             -- 218-226
    if r0 > 4 then 4 else if i0 = .bool then 3 else if i0 = .int8 then 2 else 1
  else if code = .REVERSE_V2 then if out = .bool then 2 else 1   -- 227-231
  else if code = .RESIZE_BILINEAR then                           -- 232-238
    if s.halfPixelCenters then 3 else if i0 = .int8 then 2 else 1
  else if code = .MINIMUM ∨ code = .MAXIMUM then                 -- 239-250
    if i0 = .int16 ∧ out = .int16 then 4
    else if r0 ≠ r1 ∧ max r0 r1 > 4 then 3
    else if i0 = .int8 then 2
    else 1
  else if code = .PACK then                                      -- 251-257
    if i0 = .int16 ∧ out = .int16 then 3 else if i0 = .int8 then 2 else 1
  else if version = codeTILE then                                -- 258-262: tests `op.op.version`
    if i0 = .string then 2 else 1
  else if version = codeSPACE_TO_BATCH_ND ∨ version = codeBATCH_TO_SPACE_ND then -- 263-269
    if r0 ≠ 4 then 3 else if i0 = .int8 then 2 else 1
  else if version = codeSUB then                                 -- 270-279
    if r0 ≠ r1 ∧ max r0 r1 > 4 then 3 else if i0 = .int8 then 2 else 1
  else if code ∈ lastList then if i0 = .int8 then 2 else 1        -- 280-313
  else 1                                                          -- 314-315

/-- A node of the graph: a real operator (`node_type >= 0`), or a special node without version. -/
inductive VNode
  | special
  | op (code : Builtin) (sig : OpSig) (version : Nat)

/-- `process`, op_version.py 19-23. -/
def processGraph (nodes : List VNode) : List VNode :=
  nodes.map (fun n => match n with
    | .special => .special
    | .op c s v => .op c s (processOp c s v))

end Verif.Model
