OPS="ADD AVERAGE_POOL_2D CONCATENATION CONV_2D DEPTHWISE_CONV_2D DEPTH_TO_SPACE DEQUANTIZE EMBEDDING_LOOKUP FLOOR FULLY_CONNECTED HASHTABLE_LOOKUP L2_NORMALIZATION L2_POOL_2D LOCAL_RESPONSE_NORMALIZATION LOGISTIC LSH_PROJECTION LSTM MAX_POOL_2D MUL RELU RELU_N1_TO_1 RELU6 RESHAPE RESIZE_BILINEAR RNN SOFTMAX SPACE_TO_DEPTH SVDF TANH CONCAT_EMBEDDINGS SKIP_GRAM CALL CUSTOM EMBEDDING_LOOKUP_SPARSE PAD UNIDIRECTIONAL_SEQUENCE_RNN GATHER BATCH_TO_SPACE_ND SPACE_TO_BATCH_ND TRANSPOSE MEAN SUB DIV SQUEEZE UNIDIRECTIONAL_SEQUENCE_LSTM STRIDED_SLICE BIDIRECTIONAL_SEQUENCE_RNN EXP TOPK_V2 SPLIT LOG_SOFTMAX DELEGATE BIDIRECTIONAL_SEQUENCE_LSTM CAST PRELU MAXIMUM ARG_MAX MINIMUM LESS NEG PADV2 GREATER GREATER_EQUAL LESS_EQUAL SELECT SLICE SIN TRANSPOSE_CONV SPARSE_TO_DENSE TILE EXPAND_DIMS EQUAL NOT_EQUAL LOG SUM SQRT RSQRT SHAPE POW ARG_MIN FAKE_QUANT REDUCE_PROD REDUCE_MAX PACK LOGICAL_OR ONE_HOT LOGICAL_AND LOGICAL_NOT UNPACK REDUCE_MIN FLOOR_DIV REDUCE_ANY SQUARE ZEROS_LIKE FILL FLOOR_MOD RANGE RESIZE_NEAREST_NEIGHBOR LEAKY_RELU SQUARED_DIFFERENCE MIRROR_PAD ABS SPLIT_V UNIQUE CEIL REVERSE_V2 ADD_N GATHER_ND COS WHERE RANK ELU REVERSE_SEQUENCE MATRIX_DIAG QUANTIZE MATRIX_SET_DIAG ROUND HARD_SWISH IF WHILE NON_MAX_SUPPRESSION_V4 NON_MAX_SUPPRESSION_V5 SCATTER_ND SELECT_V2 DENSIFY SEGMENT_SUM BATCH_MATMUL PLACEHOLDER_FOR_GREATER_OP_CODES CUMSUM CALL_ONCE BROADCAST_TO RFFT2D CONV_3D IMAG REAL COMPLEX_ABS HASHTABLE HASHTABLE_FIND HASHTABLE_IMPORT HASHTABLE_SIZE REDUCE_ALL CONV_3D_TRANSPOSE VAR_HANDLE READ_VARIABLE ASSIGN_VARIABLE BROADCAST_ARGS RANDOM_STANDARD_NORMAL BUCKETIZE RANDOM_UNIFORM MULTINOMIAL GELU DYNAMIC_UPDATE_SLICE RELU_0_TO_1 UNSORTED_SEGMENT_PROD UNSORTED_SEGMENT_MAX UNSORTED_SEGMENT_SUM ATAN2 UNSORTED_SEGMENT_MIN SIGN".split()
UNI="NONE Conv2DOptions DepthwiseConv2DOptions ConcatEmbeddingsOptions LSHProjectionOptions Pool2DOptions SVDFOptions RNNOptions FullyConnectedOptions SoftmaxOptions ConcatenationOptions AddOptions L2NormOptions LocalResponseNormalizationOptions LSTMOptions ResizeBilinearOptions CallOptions ReshapeOptions SkipGramOptions SpaceToDepthOptions EmbeddingLookupSparseOptions MulOptions PadOptions GatherOptions BatchToSpaceNDOptions SpaceToBatchNDOptions TransposeOptions ReducerOptions SubOptions DivOptions SqueezeOptions SequenceRNNOptions StridedSliceOptions ExpOptions TopKV2Options SplitOptions LogSoftmaxOptions CastOptions DequantizeOptions MaximumMinimumOptions ArgMaxOptions LessOptions NegOptions PadV2Options GreaterOptions GreaterEqualOptions LessEqualOptions SelectOptions SliceOptions TransposeConvOptions SparseToDenseOptions TileOptions ExpandDimsOptions EqualOptions NotEqualOptions ShapeOptions PowOptions ArgMinOptions FakeQuantOptions PackOptions LogicalOrOptions OneHotOptions LogicalAndOptions LogicalNotOptions UnpackOptions FloorDivOptions SquareOptions ZerosLikeOptions FillOptions BidirectionalSequenceLSTMOptions BidirectionalSequenceRNNOptions UnidirectionalSequenceLSTMOptions FloorModOptions RangeOptions ResizeNearestNeighborOptions LeakyReluOptions SquaredDifferenceOptions MirrorPadOptions AbsOptions SplitVOptions UniqueOptions ReverseV2Options AddNOptions GatherNdOptions CosOptions WhereOptions RankOptions ReverseSequenceOptions MatrixDiagOptions QuantizeOptions MatrixSetDiagOptions HardSwishOptions IfOptions WhileOptions DepthToSpaceOptions NonMaxSuppressionV4Options NonMaxSuppressionV5Options ScatterNdOptions SelectV2Options DensifyOptions SegmentSumOptions BatchMatMulOptions CumsumOptions CallOnceOptions BroadcastToOptions Rfft2dOptions Conv3DOptions HashtableOptions HashtableFindOptions HashtableImportOptions HashtableSizeOptions VarHandleOptions ReadVariableOptions AssignVariableOptions RandomOptions BucketizeOptions GeluOptions DynamicUpdateSliceOptions UnsortedSegmentProdOptions UnsortedSegmentMaxOptions UnsortedSegmentMinOptions UnsortedSegmentSumOptions ATan2Options SignOptions".split()
# options of operators whose name does not give them
SP=dict(AVERAGE_POOL_2D='Pool2DOptions',MAX_POOL_2D='Pool2DOptions',L2_POOL_2D='Pool2DOptions',L2_NORMALIZATION='L2NormOptions',UNIDIRECTIONAL_SEQUENCE_RNN='SequenceRNNOptions',MAXIMUM='MaximumMinimumOptions',MINIMUM='MaximumMinimumOptions',CONV_3D_TRANSPOSE='Conv3DOptions',MULTINOMIAL='RandomOptions',RANDOM_UNIFORM='RandomOptions',RANDOM_STANDARD_NORMAL='RandomOptions')
for r in 'MEAN SUM REDUCE_PROD REDUCE_MAX REDUCE_MIN REDUCE_ANY REDUCE_ALL'.split(): SP[r]='ReducerOptions'
NOOPT='EMBEDDING_LOOKUP FLOOR HASHTABLE_LOOKUP LOGISTIC RELU RELU_N1_TO_1 RELU6 TANH CUSTOM DELEGATE PRELU SIN LOG SQRT RSQRT CEIL ELU ROUND PLACEHOLDER_FOR_GREATER_OP_CODES IMAG REAL COMPLEX_ABS BROADCAST_ARGS RELU_0_TO_1'.split()
low={u.lower():u for u in UNI}
def uni(op):
    if op in SP: return SP[op]
    if op in NOOPT: return 'NONE'
    return low[op.replace('_','').lower()+'options']
act='fusedActivationFunction:i8'
asy='asymmetricQuantizeInputs:bool'
F={
'Conv2DOptions':f'padding:i8 strideW:i32 strideH:i32 {act} dilationWFactor:i32=1 dilationHFactor:i32=1',
'Conv3DOptions':f'padding:i8 strideD:i32 strideW:i32 strideH:i32 {act} dilationDFactor:i32=1 dilationWFactor:i32=1 dilationHFactor:i32=1',
'Pool2DOptions':f'padding:i8 strideW:i32 strideH:i32 filterWidth:i32 filterHeight:i32 {act}',
'DepthwiseConv2DOptions':f'padding:i8 strideW:i32 strideH:i32 depthMultiplier:i32 {act} dilationWFactor:i32=1 dilationHFactor:i32=1',
'ConcatEmbeddingsOptions':'numChannels:i32 numColumnsPerChannel:ints embeddingDimPerChannel:ints',
'LSHProjectionOptions':'type:i8',
'SVDFOptions':f'rank:i32 {act} {asy}',
'RNNOptions':f'{act} {asy}',
'SequenceRNNOptions':f'timeMajor:bool {act} {asy}',
'BidirectionalSequenceRNNOptions':f'timeMajor:bool {act} mergeOutputs:bool {asy}',
'FullyConnectedOptions':f'{act} weightsFormat:i8 keepNumDims:bool {asy}',
'SoftmaxOptions':'beta:f32',
'ConcatenationOptions':f'axis:i32 {act}',
'AddOptions':f'{act} potScaleInt16:bool=true',
'MulOptions':act,'L2NormOptions':act,
'LocalResponseNormalizationOptions':'radius:i32 bias:f32 alpha:f32 beta:f32',
'LSTMOptions':f'{act} cellClip:f32 projClip:f32 kernelType:i8 {asy}',
'UnidirectionalSequenceLSTMOptions':f'{act} cellClip:f32 projClip:f32 timeMajor:bool {asy} diagonalRecurrentTensors:bool',
'BidirectionalSequenceLSTMOptions':f'{act} cellClip:f32 projClip:f32 mergeOutputs:bool timeMajor:bool=true {asy}',
'ResizeBilinearOptions':'_ _ alignCorners:bool halfPixelCenters:bool',
'ResizeNearestNeighborOptions':'alignCorners:bool halfPixelCenters:bool',
'CallOptions':'subgraph:u32',
'ReshapeOptions':'newShape:ints',
'SkipGramOptions':'ngramSize:i32 maxSkipSize:i32 includeAllNgrams:bool',
'SpaceToDepthOptions':'blockSize:i32','DepthToSpaceOptions':'blockSize:i32',
'SubOptions':f'{act} potScaleInt16:bool=true','DivOptions':act,
'EmbeddingLookupSparseOptions':'combiner:i8',
'GatherOptions':'axis:i32 batchDims:i32',
'ReducerOptions':'keepDims:bool',
'SqueezeOptions':'squeezeDims:ints',
'SplitOptions':'numSplits:i32','SplitVOptions':'numSplits:i32',
'StridedSliceOptions':'beginMask:i32 endMask:i32 ellipsisMask:i32 newAxisMask:i32 shrinkAxisMask:i32',
'CastOptions':'inDataType:i8 outDataType:i8',
'ArgMaxOptions':'outputType:i8','ArgMinOptions':'outputType:i8',
'TransposeConvOptions':f'padding:i8 strideW:i32 strideH:i32 {act}',
'SparseToDenseOptions':'validateIndices:bool',
'ShapeOptions':'outType:i8',
'FakeQuantOptions':'min:f32 max:f32 numBits:i32 narrowRange:bool',
'PackOptions':'valuesCount:i32 axis:i32','OneHotOptions':'axis:i32','UnpackOptions':'num:i32 axis:i32',
'LeakyReluOptions':'alpha:f32','MirrorPadOptions':'mode:i8','UniqueOptions':'idxOutType:i8=2',
'ReverseSequenceOptions':'seqDim:i32 batchDim:i32',
'IfOptions':'thenSubgraphIndex:i32 elseSubgraphIndex:i32','WhileOptions':'condSubgraphIndex:i32 bodySubgraphIndex:i32',
'BatchMatMulOptions':f'adjX:bool adjY:bool {asy}','CumsumOptions':'exclusive:bool reverse:bool',
'CallOnceOptions':'initSubgraphIndex:i32','HashtableOptions':'tableId:i32 keyDtype:i8 valueDtype:i8',
'VarHandleOptions':'container:str sharedName:str','RandomOptions':'seed:i64 seed2:i64','BucketizeOptions':'boundaries:nums','GeluOptions':'approximate:bool',
}
def fld(i,s):
    n,k=s.split(':'); dv=None
    if '=' in k: k,dv=k.split('=')
    if k=='bool': d='.bool '+(dv or 'false'); kk='.bool'
    elif k=='f32': d='.num 0'; kk='.f32'
    elif k in('ints','nums','str'): d='.null'; kk='.'+k
    else: d='.int '+(dv or '0'); kk='.'+k
    return f'⟨"{n}", {i}, {kk}, {d}⟩'
def gen():
    rows=[]
    for i,o in enumerate(OPS): rows.append(f'("{o}", {i}, "{uni(o)}")')
    fr=[]
    for k,v in F.items():
        assert k in UNI,k
        fr.append(f'  ("{k}", [{", ".join(fld(i,s) for i,s in enumerate(v.split()) if s!="_")}])')
    return rows,fr
if __name__=='__main__':
    r,f=gen(); print(len(r),len(f))
    import sys; sys.path.insert(0,'/root/w/gs')
    from ext import enums,ops
    for i,o in enumerate(OPS): assert enums['BuiltinOperator'][o]==i
    for i,o in enumerate(UNI): assert enums['BuiltinOptions'][o]==i
    for o in ops: 
        if (o['opt'] or 'NONE')!=uni(o['code']): print(o['name'],o['opt'],uni(o['code']))
