{"id": "C01", "title": "Consecutive transposes collapse to one equivalent transpose", "statement": "When the converter replaces a chain of TRANSPOSE operators by a single one, the single transpose produces, for every input tensor, exactly the tensor the chain produced; when the fused permutation is the identity and the chain is dropped, the tensor is unchanged.", "quantifier": "every rank, shape, element type, chain length and every sequence of valid permutations", "why_tests_cant": "the set of ranks, shapes, permutations and chain lengths is unbounded; a test fixes a handful of them", "anchors": ["tinynn/converter/operators/optimize.py:fuse_transpose_perms", "tinynn/converter/operators/optimize.py:fuse_simple_transpose_pass"]}
{"id": "C02", "title": "Layout wrapping is invisible", "statement": "The transposes the converter wraps around an operator to feed it NHWC data (and the move-axis-last wrapping) cancel: undoing after doing gives back every element at its original coordinates.", "quantifier": "every tensor of the wrapped rank, every axis", "why_tests_cant": "must hold for every shape and every element position", "anchors": ["tinynn/converter/operators/tflite/transformable.py:wrap_ops_with_nhwc_nchw_transposes", "tinynn/converter/operators/torch/base.py:wrap_ops_with_nhwc_nchw_transposes", "tinynn/converter/operators/torch/base.py:wrap_ops_with_last_dim_transposes"]}
{"id": "C03", "title": "Transpose turned into reshape keeps the data", "statement": "Whenever the converter decides that a TRANSPOSE can be emitted as a RESHAPE, both produce the same tensor.", "quantifier": "every shape and every permutation on which the decision is taken", "why_tests_cant": "the decision is a predicate over unbounded shapes and permutations", "anchors": ["tinynn/converter/operators/optimize.py:transpose_to_reshape_pass", "tinynn/converter/operators/optimize.py:is_transpose_same_to_reshape_op"]}
{"id": "C04", "title": "Lowering the rank of a transpose keeps the data", "statement": "When a transpose of rank above the target's limit is rewritten as reshape, lower-rank transpose, reshape, the result equals the original transpose.", "quantifier": "every shape and permutation of any rank", "why_tests_cant": "only specific permutations are exercised by tests; the property is about all of them", "anchors": ["tinynn/converter/operators/optimize.py:lower_transpose_dim_pass"]}
{"id": "C05", "title": "Consecutive reshapes collapse and preserve data", "statement": "Replacing a chain of RESHAPE operators by the last one (or by nothing when the shape returns to the start) does not change any element.", "quantifier": "every chain of shapes with equal element counts and every tensor", "why_tests_cant": "unbounded shapes and chain lengths", "anchors": ["tinynn/converter/operators/optimize.py:fuse_simple_reshape_pass"]}
{"id": "C06", "title": "Simple-reshape detection is exact", "statement": "The converter treats a reshape as merely inserting or removing size-1 axes exactly when the two shapes have the same sequence of sizes other than 1, and the axis correspondence it returns pairs axes of equal size in increasing order.", "quantifier": "all pairs of shapes", "why_tests_cant": "the scan has interacting cases for unbounded shape lists", "anchors": ["tinynn/converter/operators/optimize.py:is_simple_reshape"]}
{"id": "C07", "title": "Reshape axis grouping is a faithful factorisation", "statement": "For two shapes of positive sizes with the same element count the axis grouping never aborts, its groups are consecutive, cover all axes of both shapes in order, and matching groups have equal products.", "quantifier": "all pairs of positive shapes with equal element count", "why_tests_cant": "a two-pointer loop with accumulators over unbounded lists; tests sample few shapes", "anchors": ["tinynn/converter/operators/optimize.py:reshape_mapping"]}
{"id": "C08", "title": "Consecutive slices collapse to one equivalent strided slice", "statement": "Replacing a chain of SLICE/STRIDED_SLICE operators by one STRIDED_SLICE selects exactly the same elements in the same order along every axis.", "quantifier": "every axis length, chain length and every sequence of in-range starts, sizes/ends and positive strides", "why_tests_cant": "arithmetic over unbounded offsets and strides", "anchors": ["tinynn/converter/operators/optimize.py:fuse_slices", "tinynn/converter/operators/optimize.py:fuse_simple_slice_pass"]}
{"id": "C09", "title": "Consecutive gathers collapse to one equivalent gather", "statement": "Replacing a chain of GATHER operators on one axis by a single gather, or by nothing, selects exactly the same elements in the same order.", "quantifier": "every sequence of index vectors that are valid for the tensor", "why_tests_cant": "index vectors are unbounded; the removal decision depends on all of them", "anchors": ["tinynn/converter/operators/optimize.py:fuse_simple_gather_pass", "tinynn/converter/operators/optimize.py:fuse_transpose_perms"]}
{"id": "C10", "title": "SAME padding arguments match TensorFlow's definition", "statement": "The explicit padding for which the converter switches an operator to SAME padding is exactly the padding TensorFlow's SAME rule inserts, and the resulting output length is ceil(input/stride).", "quantifier": "every input length, filter size, stride and dilation that are positive", "why_tests_cant": "arithmetic identity over all positive integers", "anchors": ["tinynn/converter/operators/optimize.py:get_same_padding_args", "tinynn/converter/operators/optimize.py:fuse_same_padding"]}
{"id": "C11", "title": "Zero padding is only absorbed where it is equivalent", "statement": "When the converter removes an explicit padding operator and lets the following operator pad implicitly, the numerical result is the same.", "quantifier": "every input tensor and every pad/consumer pair accepted by the fusion predicate", "why_tests_cant": "depends on all input values, in particular negative ones", "anchors": ["tinynn/converter/operators/optimize.py:is_padding_fusable_edge", "tinynn/converter/operators/optimize.py:fuse_same_padding"]}
{"id": "C12", "title": "Batch-norm folding into the preceding convolution is exact", "statement": "Folding an inference-mode batch norm into the convolution or fully-connected layer before it gives the same output for every input, in exact arithmetic, with and without bias, for ordinary and transposed convolutions.", "quantifier": "all weights, biases, statistics with positive variance plus epsilon, and inputs", "why_tests_cant": "an algebraic identity over all real parameters", "anchors": ["tinynn/converter/operators/optimize.py:fuse_bn_weight", "tinynn/converter/operators/optimize.py:fuse_bn_bias", "tinynn/converter/operators/optimize.py:fuse_conv_fc_bn"]}
{"id": "C13", "title": "Batch-norm folding into the following convolution is exact", "statement": "Folding an inference-mode batch norm into the convolution after it gives the same output at every position for every input, in exact arithmetic.", "quantifier": "all weights, statistics, paddings and inputs accepted by the fusion predicate", "why_tests_cant": "holds or fails only at particular positions and parameter values; needs a proof over all of them", "anchors": ["tinynn/converter/operators/optimize.py:fuse_rev_bn_weight", "tinynn/converter/operators/optimize.py:fuse_rev_bn_bias", "tinynn/converter/operators/optimize.py:fuse_bn_conv", "tinynn/converter/operators/optimize.py:is_rev_bn_fusable_edge"]}
{"id": "C14", "title": "Channel gathers around a convolution are absorbed correctly", "statement": "Absorbing a channel-selecting gather into the adjacent convolution's weights gives the same output for every input.", "quantifier": "all weights, inputs and index vectors accepted by the fusion predicate", "why_tests_cant": "quantifies over all index vectors, including ones with repetitions", "anchors": ["tinynn/converter/operators/optimize.py:fuse_conv2d_gather", "tinynn/converter/operators/optimize.py:fuse_gather_conv2d"]}
{"id": "C15", "title": "Dropping a tile before a broadcasting operator is safe", "statement": "Removing a TILE whose result feeds a broadcasting elementwise operator leaves the operator's result unchanged.", "quantifier": "all shapes, tile counts and values accepted by the predicate", "why_tests_cant": "unbounded shapes and broadcast combinations", "anchors": ["tinynn/converter/operators/optimize.py:remove_tile_before_binary_elementwise_ops"]}
{"id": "C16", "title": "Reciprocal square root fusion computes the same quotient", "statement": "Rewriting a division by a square root as a multiplication with RSQRT computes the same value for every pair of operands.", "quantifier": "all operand values and all operand orders accepted by the fusion predicate", "why_tests_cant": "depends on the order in which the operands feed the division", "anchors": ["tinynn/converter/operators/optimize.py:is_reciprocal_sqrt_edge", "tinynn/converter/operators/optimize.py:fuse_reciprocal_sqrt"]}
{"id": "C17", "title": "Operators are emitted in dependency order", "statement": "Every operator reachable from constants and inputs appears exactly once in the exported model, after the producers of all its inputs.", "quantifier": "every finite acyclic graph, in any node and edge numbering", "why_tests_cant": "all graphs and numberings cannot be enumerated", "anchors": ["tinynn/converter/operators/graph.py:topological_sort", "tinynn/converter/operators/graph.py:collect_operators"]}
{"id": "C18", "title": "Exported tensor and buffer indices are consistent", "statement": "In the exported model every tensor name gets one index, indices are consecutive, operator inputs and outputs refer to the tensor they were built with, optional inputs are -1, and only constants own a non-empty buffer.", "quantifier": "every list of operators and tensors", "why_tests_cant": "quantifies over all models", "anchors": ["tinynn/converter/operators/graph.py:collect_tensor_buffers"]}
{"id": "C19", "title": "Changing the quantized storage type keeps the represented values", "statement": "Re-encoding an 8-bit quantized tensor between signed and unsigned storage, or into 16 bit, keeps the real value of every element.", "quantifier": "all quantized values, scales and zero points the constructor accepts", "why_tests_cant": "all 8-bit values times all zero points, per-tensor and per-channel", "anchors": ["tinynn/converter/operators/tflite/base.py:Tensor.__init__", "tinynn/converter/operators/tflite/base.py:reinterpret_as"]}
{"id": "C20", "title": "Weight-only quantization error is at most half a step", "statement": "For hybrid quantization every dequantized weight differs from the original by at most half a quantization step, zero stays exactly zero and no value saturates.", "quantifier": "every weight tensor, per tensor and per channel", "why_tests_cant": "quantifies over all real weights", "anchors": ["tinynn/converter/operators/hybrid_quantizer.py:quantize"]}
{"id": "C21", "title": "Operator versions follow the runtime's versioning table", "statement": "The version stamped on each exported operator is the one TFLite's versioning table requires for its operand types.", "quantifier": "all operator codes and operand types and ranks", "why_tests_cant": "a finite but large decision table, whose dead branches tests do not reveal", "anchors": ["tinynn/converter/operators/op_version.py:process_op"]}
{"id": "C22", "title": "Splitting wide concatenations is equivalent", "statement": "Rewriting a concatenation of many inputs into a tree of concatenations of at most ten inputs terminates and yields the same tensor, in the same order.", "quantifier": "every number of inputs and every tensor contents", "why_tests_cant": "unbounded number of inputs", "anchors": ["tinynn/converter/operators/optimize.py:cat_split_pass"]}
{"id": "C23", "title": "Grouped convolutions are decomposed correctly", "statement": "Rewriting a grouped convolution as split, per-group convolutions and concatenation gives the same output.", "quantifier": "all group counts, channel counts, weights and inputs", "why_tests_cant": "unbounded sizes and real values", "anchors": ["tinynn/converter/operators/optimize.py:group_conv_rewrite_pass"]}
{"id": "C24", "title": "Dead-node cleanup keeps everything the outputs need", "statement": "Removing unused nodes from the exported graph never removes a node from which a model output can be reached, and removes every operator that no output depends on.", "quantifier": "every finite directed graph", "why_tests_cant": "all graphs", "anchors": ["tinynn/converter/operators/optimize.py:cleanup_dead_nodes"]}
{"id": "C25", "title": "Channel dependency merging yields the connected components", "statement": "Merging channel constraints returns pairwise disjoint sets, and two channels end up in one set exactly when a chain of overlapping constraints links them.", "quantifier": "every list of finite index sets, in any iteration order", "why_tests_cant": "unbounded lists of sets and iteration orders", "anchors": ["tinynn/graph/modifier.py:merge_constraint"]}
{"id": "C26", "title": "Channel groups are the common refinement", "statement": "Merging channel groups terminates and returns pairwise disjoint sets covering the same indices such that every given group is a union of returned sets.", "quantifier": "every list of finite index sets", "why_tests_cant": "the loop rewrites the list it iterates over; termination and result concern all lists", "anchors": ["tinynn/graph/modifier.py:merge_group"]}
{"id": "C27", "title": "Least-important selection is correct", "statement": "Selecting the k least important indices returns k distinct, increasing, in-range (shifted) indices and no unselected index is less important than a selected one.", "quantifier": "every importance vector, k and offset", "why_tests_cant": "all vectors including ties", "anchors": ["tinynn/graph/modifier.py:get_smallest_k"]}
{"id": "C28", "title": "Pruning never removes every channel", "statement": "With a requested sparsity below one, each prunable group of channels keeps at least one channel and at least the requested fraction rounded up to whole dependency sets is removed, least important first.", "quantifier": "all importance values, dependency sets and sparsities in (0,1)", "why_tests_cant": "all dependency structures", "anchors": ["tinynn/graph/modifier.py:calc_prune_idx_by_center_importance"]}
{"id": "C29", "title": "Channel-multiple rounding keeps as many removable channels as possible", "statement": "With a channel multiple m, the identity pruner removes the largest multiple of m channels not exceeding the number of dead channels.", "quantifier": "all sets of dead channels and all m", "why_tests_cant": "fails only for particular remainders", "anchors": ["tinynn/graph/modifier.py:calc_prune_idx_by_bn_variance", "tinynn/prune/identity_pruner.py:IdentityChannelPruner"]}
{"id": "C30", "title": "Constant shapes are rewritten to the pruned size", "statement": "After pruning, a constant shape argument of reshape or view on the pruned axis equals the number of channels that remain.", "quantifier": "all axis lengths and all numbers of pruned channels", "why_tests_cant": "depends on all size/sparsity pairs including floating-point rounding", "anchors": ["tinynn/graph/modifier.py:ReshapeModifier.apply_mask", "tinynn/graph/modifier.py:Modifier.get_pruned_idx"]}
{"id": "C31", "title": "Physically pruning equals masking", "statement": "Removing the pruned channels from consecutive layers gives, on the remaining channels and for every input, the output of the masked network.", "quantifier": "all weights, inputs, channel counts and pruned sets", "why_tests_cant": "all real weights and all subsets of channels", "anchors": ["tinynn/graph/modifier.py:complementary_list", "tinynn/graph/modifier.py:ConvChannelModifier", "tinynn/graph/modifier.py:LinearChannelModifier", "tinynn/graph/modifier.py:NormChannelModifier"]}
{"id": "C32", "title": "Recurrent-layer gate indices are expanded correctly", "statement": "The rows removed from stacked gate weights are exactly the rows of the removed hidden units in every gate, and for bidirectional layers each direction's indices are shifted into that direction's own range.", "quantifier": "all hidden sizes, gate counts, directions and removed unit sets", "why_tests_cant": "all index sets", "anchors": ["tinynn/graph/modifier.py:RNNChannelModifier.tile_indices_with_gate_size", "tinynn/graph/modifier.py:RNNChannelModifier.split_indices_with_directions"]}
{"id": "C33", "title": "Pruned-network FLOPs are those of the smaller network", "statement": "The FLOPs the pruner reports for a masked model equal the FLOPs of the physically pruned model, and never exceed those of the original.", "quantifier": "all layer sizes and numbers of pruned input and output channels", "why_tests_cant": "integer arithmetic with floor divisions over all sizes", "anchors": ["tinynn/prune/base_pruner.py:calc_flops"]}
{"id": "C34", "title": "NetAdapt search terminates within budget", "statement": "Every NetAdapt round strictly lowers the model's FLOPs, so the search ends, and it ends below the budget unless no candidate exists or the round limit is hit.", "quantifier": "all candidate tables, budgets and accuracy functions", "why_tests_cant": "termination over all search histories", "anchors": ["tinynn/prune/netadapt_pruner.py:prune", "tinynn/prune/netadapt_pruner.py:find_prune_plan"]}
{"id": "C35", "title": "Cross-layer equalization preserves the network function", "statement": "Equalizing two consecutive layers separated by positively homogeneous activations does not change the network's output for any input, in exact arithmetic, and balances each channel's weight range.", "quantifier": "all weights, biases, inputs, thresholds and channel counts", "why_tests_cant": "all real weights including all-zero channels", "anchors": ["tinynn/graph/quantization/algorithm/cross_layer_equalization.py:equalize", "tinynn/graph/quantization/algorithm/cross_layer_equalization.py:_weight_equal_helper"]}
{"id": "C36", "title": "Quantization-aware batch-norm folding is exact", "statement": "The weight and bias produced when batch norm is folded with a convolution during quantization-aware training define the same affine function as convolution followed (or preceded) by batch norm.", "quantifier": "all weights, statistics and inputs, ordinary, transposed and depthwise convolutions", "why_tests_cant": "algebra over all reals and shape cases", "anchors": ["tinynn/graph/quantization/utils.py:fuse_conv_bn_weights", "tinynn/graph/quantization/utils.py:fuse_bn_conv_weights"]}
{"id": "C37", "title": "TFLite-style fake quantization rounds halves away from zero and leaves its switches alone", "statement": "The fake-quantize module used for TFLite rounds exact ties away from zero, other values to nearest, and after a forward pass its observer and fake-quant switches are what they were before.", "quantifier": "all inputs, scales and switch settings", "why_tests_cant": "all reals near ties", "anchors": ["tinynn/graph/quantization/fake_quantize.py:FakeQuantizeTFLite"]}
{"id": "C38", "title": "Integer weight compression loses at most half a step", "statement": "Compressing LLM weights or activations to b-bit integers loses at most half a quantization step per element and stays in the symmetric integer range.", "quantifier": "all bit widths, rows and values with a non-zero maximum", "why_tests_cant": "all reals", "anchors": ["tinynn/llm_quant/modules.py:compress_int"]}
{"id": "C39", "title": "4-bit packing round-trips", "statement": "Packing two 4-bit weights in a byte and unpacking them gives both back.", "quantifier": "all signed 4-bit pairs, all even-length rows", "why_tests_cant": "unbounded row lengths; sign extension in every case", "anchors": ["tinynn/llm_quant/modules.py:QLinear.__init__", "tinynn/llm_quant/modules.py:QLinear.forward"]}
{"id": "C40", "title": "Dynamic quantized linear layers apply the bias once, unscaled", "statement": "The simulated dynamically-quantized linear layer returns the rescaled integer product plus the bias.", "quantifier": "all inputs, scales and biases", "why_tests_cant": "all reals", "anchors": ["tinynn/llm_quant/modules.py:QLinear.forward", "tinynn/llm_quant/modules.py:TDQLinear_noinit.forward"]}
{"id": "C41", "title": "Training returns the best epoch's model", "statement": "After training, the model holds the weights of the first epoch reaching the maximum validation accuracy, and quantization freezes happen once each, in order.", "quantifier": "every history of validation accuracies and every number of epochs", "why_tests_cant": "all histories", "anchors": ["tinynn/util/train_util.py:train"]}
{"id": "C42", "title": "Running averages are exact", "statement": "After any sequence of updates the meter's average is the weighted mean of the recorded values since the last reset.", "quantifier": "all histories of updates and resets", "why_tests_cant": "all histories", "anchors": ["tinynn/util/train_util.py:AverageMeter"]}
{"id": "C43", "title": "Converter configuration round-trips", "statement": "Parsing a generated converter configuration gives back the model paths, one transpose flag per input and output, and inputs of the original shapes.", "quantifier": "all numbers of inputs and outputs and all flag settings", "why_tests_cant": "all input/output counts", "anchors": ["tinynn/util/converter_util.py:generate_converter_config", "tinynn/util/converter_util.py:parse_config"]}
{"id": "C44", "title": "Converter option validation is complete", "statement": "Constructing a converter fails exactly for the unsupported option combinations and otherwise the accepted options are stored unchanged.", "quantifier": "all combinations of quantization options", "why_tests_cant": "combinatorially many option combinations", "anchors": ["tinynn/converter/base.py:TFLiteConverter.__init__"]}
{"id": "C45", "title": "Ceil-mode pooling keeps its output size and values", "statement": "A max pooling with ceil_mode converted with explicit extra padding has the output size PyTorch computes.", "quantifier": "all input sizes, kernels, strides and paddings PyTorch accepts", "why_tests_cant": "integer arithmetic over all sizes", "anchors": ["tinynn/converter/operators/torch/base.py:handle_padding", "tinynn/converter/operators/torch/base.py:get_pool_ceil_padding"]}
{"id": "C46", "title": "Quantized scalar constants are represented exactly", "statement": "A non-quantized scalar combined with a quantized tensor is stored with a scale and zero point that represent its value exactly.", "quantifier": "all real scalars and storage types", "why_tests_cant": "all reals", "anchors": ["tinynn/converter/operators/torch/base.py:quantize_scalar_tensor"]}
{"id": "C47", "title": "Moving a transpose across an operator keeps the result", "statement": "Moving transposes from the inputs of an elementwise, axis-wise, padding, slicing, reducing, packing or unpacking operator to its outputs, with the operator's axis arguments remapped, keeps the result for every input.", "quantifier": "all ranks, permutations, axes and tensors", "why_tests_cant": "all permutations and axes", "anchors": ["tinynn/converter/operators/optimize.py:elementwise_op_transpose_passthrough_pass"]}
{"id": "C48", "title": "Mask indices accumulate", "statement": "Registering removed channels several times leaves the sorted accumulation of everything registered, and pickling state keeps them.", "quantifier": "all sequences of registrations", "why_tests_cant": "all histories", "anchors": ["tinynn/graph/masker.py:ChannelMasker"]}
{"id": "C49", "title": "Overlapping dependency subgraphs are merged", "statement": "After subgraph division, any two pruning centres that reach a common operator's inputs are in the same subgraph, no operator is lost, and the lookup of redirected centres always terminates.", "quantifier": "every assignment of centres to operators", "why_tests_cant": "union-find style redirection over all assignments", "anchors": ["tinynn/graph/modifier.py:SubGraphDivider.divide_subgraph"]}
{"id": "C50", "title": "Chains of fusable operators are found completely", "statement": "Given pairwise fusable edges, the converter returns maximal chains, each edge in exactly one chain, in order.", "quantifier": "all sets of edges forming simple paths", "why_tests_cant": "all path lengths and edge orders", "anchors": ["tinynn/converter/operators/optimize.py:fuse_connected_edges"]}
{"id": "C53", "title": "Identity pruner removes only channels that are dead in every use", "statement": "The identity pruner removes a channel of a layer only if every batch norm that reads the channel has a zero scale and zero shift for it.", "quantifier": "all networks of batch norms over a centre's channels, all weights and biases, all channel maps", "why_tests_cant": "every map from centre channels to leaf channels, every dictionary order", "anchors": ["tinynn/prune/identity_pruner.py:IdentityChannelPruner", "tinynn/graph/modifier.py:calc_prune_idx_by_bn_variance"]}
{"id": "C54", "title": "Grouped convolutions lose exactly each group's own channels", "statement": "When input channels of a grouped convolution are pruned, every group's weight loses exactly the removed channels that belong to it.", "quantifier": "all group counts, channel counts and sets of removed channels", "why_tests_cant": "all distributions of the removed channels over the groups", "anchors": ["tinynn/graph/modifier.py:ConvChannelModifier.modify_input"]}
{"id": "C55", "title": "Pruned recurrent layers keep gate and unit order", "statement": "The rows kept in a recurrent layer's stacked gate weights are, gate after gate, the kept hidden units in ascending order.", "quantifier": "all hidden sizes, gate counts and sets of removed units", "why_tests_cant": "the order depends on the hash-set layout for every size and set", "anchors": ["tinynn/graph/modifier.py:RNNChannelModifier.modify_output", "tinynn/graph/modifier.py:complementary_list"]}
{"id": "C51", "title": "Slices with run-time bounds keep following them", "statement": "When consecutive slices are merged, a bound that the model computes at run time still follows its run-time value in the merged operator.", "quantifier": "all chains of two slices, all traced and run-time bounds", "why_tests_cant": "the bound takes every value at run time, a test sees the traced one", "anchors": ["tinynn/converter/operators/optimize.py:is_slice_fusable_edge", "tinynn/converter/operators/optimize.py:fuse_slices"]}
{"id": "C52", "title": "x[start:end:step] selects the same positions after conversion", "statement": "For every start, end and step PyTorch accepts, the emitted slice operator is valid and selects exactly the positions PyTorch selects.", "quantifier": "all axis sizes, all integer or missing start and end, all positive steps, all ranks and axes", "why_tests_cant": "unbounded integers including out-of-range values", "anchors": ["tinynn/converter/operators/torch/aten.py:ATenSliceOperator"]}
{"id": "C56", "title": "Bias absorption keeps the function of the two layers", "statement": "High bias absorption moves a positive amount from a layer's bias through the ReLU into the next layer without changing the output wherever the ReLU input stays at or above that amount.", "quantifier": "all weights, biases, batch-norm statistics, inputs", "why_tests_cant": "all reals, all channel counts", "anchors": ["tinynn/graph/quantization/algorithm/cross_layer_equalization.py:hba_helper"]}
{"id": "C57", "title": "Average and adaptive pooling divide by the right count", "statement": "A converted average pooling equals PyTorch's for every kernel, stride, padding, count_include_pad and divisor_override the converter accepts, and a converted adaptive pooling equals PyTorch's windows.", "quantifier": "all sizes, kernels, strides, paddings, flags and inputs", "why_tests_cant": "unbounded sizes and window positions", "anchors": ["tinynn/converter/operators/torch/aten.py:ATenAvgPool2dOperator", "tinynn/converter/operators/torch/aten.py:ATenAdaptiveAvgPool2dOperator", "tinynn/converter/operators/torch/aten.py:ATenAdaptiveMaxPool2dOperator"]}
{"id": "C58", "title": "An LSTM layer keeps its recurrence", "statement": "The operators emitted for an LSTM (unrolled or fused, both gate layouts, one or two directions, any number of layers) compute PyTorch's LSTM output and final states for every input.", "quantifier": "all sequence lengths, hidden sizes, layers, weights, initial states and inputs", "why_tests_cant": "induction over time steps and layers", "anchors": ["tinynn/converter/operators/torch/aten.py:ATenLstmOperator"]}
{"id": "C59", "title": "A GRU layer keeps its recurrence", "statement": "The operators emitted for a GRU compute PyTorch's GRU output and final states for every input.", "quantifier": "all sequence lengths, hidden sizes, layers, weights, initial states and inputs", "why_tests_cant": "induction over time steps and layers", "anchors": ["tinynn/converter/operators/torch/aten.py:ATenGruOperator"]}
{"id": "C60", "title": "Resizing reads the same source pixels", "statement": "A converted nearest-neighbour or bilinear upsampling gives, for every output pixel, the value PyTorch gives.", "quantifier": "all input sizes, output sizes and scale factors", "why_tests_cant": "all sizes and scale factors", "anchors": ["tinynn/converter/operators/torch/aten.py:ATenUpsampleNearest2dOperator"]}
{"id": "C61", "title": "Rolling, flipping, chunking and selecting move the right elements", "statement": "torch.roll, flip, chunk, split, select, stack and unbind are converted into operators that move exactly the elements PyTorch moves.", "quantifier": "all shapes, axes, shifts, chunk counts and inputs", "why_tests_cant": "all shifts including negative and larger than the axis", "anchors": ["tinynn/converter/operators/torch/aten.py:ATenRollOperator", "tinynn/converter/operators/torch/aten.py:ATenChunkOperator", "tinynn/converter/operators/torch/aten.py:ATenFlipOperator", "tinynn/converter/operators/torch/aten.py:ATenSelectOperator"]}
{"id": "C62", "title": "Pixel shuffle and unshuffle keep every pixel's place", "statement": "Converted pixel_shuffle and pixel_unshuffle put every element where PyTorch puts it.", "quantifier": "all channel counts, block sizes, image sizes and inputs", "why_tests_cant": "all sizes", "anchors": ["tinynn/converter/operators/torch/aten.py:ATenPixelShuffleOperator", "tinynn/converter/operators/torch/aten.py:ATenPixelUnshuffleOperator"]}
{"id": "C63", "title": "gather and scatter address the same elements", "statement": "Converted torch.gather reads and converted torch.scatter writes exactly the elements PyTorch does.", "quantifier": "all shapes, axes, index tensors and values", "why_tests_cant": "all index tensors including repeated indices", "anchors": ["tinynn/converter/operators/torch/aten.py:ATenGatherOperator", "tinynn/converter/operators/torch/aten.py:ATenScatterOperator"]}
{"id": "C64", "title": "Indexing with tensors selects the same elements", "statement": "x[i, j, ...] and x[i, j, ...] = v with index tensors address exactly the elements PyTorch addresses.", "quantifier": "all index shapes that broadcast, all indices including negative ones", "why_tests_cant": "all shapes and indices", "anchors": ["tinynn/converter/operators/torch/aten.py:ATenIndexOperator", "tinynn/converter/operators/torch/aten.py:ATenIndexPutOperator"]}
{"id": "C65", "title": "Masked filling and where keep the unmasked values", "statement": "Converted masked_fill and where give the fill value where the mask is set and the other operand elsewhere.", "quantifier": "all values including infinities, all masks", "why_tests_cant": "IEEE special values", "anchors": ["tinynn/converter/operators/torch/aten.py:ATenMaskedFillOperator", "tinynn/converter/operators/torch/aten.py:ATenWhereOperator"]}
{"id": "C66", "title": "Unfold reads the same patches", "statement": "Converted unfold (im2col) gives every patch element PyTorch gives, and converted fold (col2im) every sum.", "quantifier": "all image sizes, kernels, strides, dilations and paddings", "why_tests_cant": "all sizes", "anchors": ["tinynn/converter/operators/torch/aten.py:ATenIm2colOperator"]}
{"id": "C67", "title": "Arithmetic with a Python scalar uses the scalar's value", "statement": "Converted tensor-scalar arithmetic and comparison give PyTorch's result for every element type.", "quantifier": "all scalars, all elements, integer and float tensors", "why_tests_cant": "all numbers", "anchors": ["tinynn/converter/operators/torch/base.py:elementwise_binary", "tinynn/converter/operators/torch/aten.py:ATenMulOperator"]}
{"id": "C68", "title": "Normalisation layers compute PyTorch's statistics", "statement": "Converted layer norm, instance norm, group norm, var and std equal PyTorch's formulas.", "quantifier": "all shapes, groups, weights and inputs", "why_tests_cant": "all shapes and reals", "anchors": ["tinynn/converter/operators/torch/aten.py:ATenLayerNormOperator", "tinynn/converter/operators/torch/aten.py:ATenGroupNormOperator", "tinynn/converter/operators/torch/aten.py:ATenInstanceNormOperator", "tinynn/converter/operators/torch/aten.py:ATenVarOperator"]}
{"id": "C69", "title": "Matrix products use every operand", "statement": "Converted addmm, addbmm and baddbmm equal beta * input + alpha * product, and matmul is converted for every rank it accepts.", "quantifier": "all alpha, beta, shapes and matrices", "why_tests_cant": "all reals and ranks", "anchors": ["tinynn/converter/operators/torch/aten.py:ATenAddmmOperator", "tinynn/converter/operators/torch/aten.py:ATenBaddbmmOperator", "tinynn/converter/operators/torch/aten.py:ATenMatmulOperator"]}
{"id": "C70", "title": "Convolutions keep their result in the channels-last layout", "statement": "The emitted transposes, weight permutation and convolution operator compute PyTorch's convolution for every input.", "quantifier": "all channel counts, groups, kernels, strides, paddings, dilations and inputs", "why_tests_cant": "all sizes", "anchors": ["tinynn/converter/operators/tflite/transformable.py:GenericConvOperator.transform"]}
{"id": "C71", "title": "Expanding and repeating copy the right elements", "statement": "Converted expand, repeat and repeat_interleave give PyTorch's elements.", "quantifier": "all shapes, target shapes, repeats and inputs", "why_tests_cant": "all shapes", "anchors": ["tinynn/converter/operators/torch/aten.py:ATenExpandOperator", "tinynn/converter/operators/torch/aten.py:ATenRepeatOperator", "tinynn/converter/operators/torch/aten.py:ATenRepeatInterleaveOperator"]}
{"id": "C72", "title": "Removing operators from the graph keeps every other value", "statement": "When the converter removes a run of operators and reconnects its neighbours, every remaining operator and every graph output still reads the value it read before, provided the removed run computes the identity.", "quantifier": "all graphs, all runs of removed operators, all operator semantics", "why_tests_cant": "all graph shapes", "anchors": ["tinynn/converter/operators/optimize.py:elinimate_sequences"]}
{"id": "C73", "title": "Sharing equal constants keeps every operator's inputs", "statement": "After equal constant tensors are merged, every operator still reads a constant with the same content, type and quantization.", "quantifier": "all sets of operators and constants", "why_tests_cant": "all hash and order interactions", "anchors": ["tinynn/converter/operators/optimize.py:group_tensors_pass"]}
{"id": "C74", "title": "Moving a reshape across an operator keeps the result", "statement": "Moving reshapes from the inputs of an elementwise, concatenating, slicing, reducing or gathering operator to its outputs, with remapped arguments, keeps the result.", "quantifier": "all shapes, reshapes and axes", "why_tests_cant": "all factorisations", "anchors": ["tinynn/converter/operators/optimize.py:elementwise_op_reshape_passthrough_pass"]}
{"id": "C75", "title": "In-place updates keep their effect", "statement": "A model that updates tensors in place (x += 1, buf[...] = v) gives the same outputs after conversion, for every input and not only for the dummy input the conversion ran on.", "quantifier": "all traced programs of allocating, viewing and in-place operations of any length, all inputs, all dummy inputs", "why_tests_cant": "aliasing between any two tensors of any program; the dummy input is the only one a conversion test sees", "anchors": ["tinynn/converter/operators/torch/base.py:OperatorConverter.run", "tinynn/converter/operators/torch/base.py:OperatorConverter.find_or_create_input", "tinynn/converter/base.py:TFLiteConverter.init_operations"]}
{"id": "C76", "title": "Quantized arithmetic with a Python scalar keeps the result", "statement": "Multiplying or adding a quantized tensor by a Python number gives, after conversion, PyTorch's quantized result.", "quantifier": "all scalars, scales, zero points and quantized values", "why_tests_cant": "all reals and integers, every rounding boundary", "anchors": ["tinynn/converter/operators/torch/quantized.py:QuantizedMulScalarOperator", "tinynn/converter/operators/torch/quantized.py:QuantizedAddScalarOperator", "tinynn/converter/operators/torch/base.py:OperatorConverter.quantize_scalar_tensor"]}
{"id": "C77", "title": "Padding places the input and fills the border", "statement": "Converted constant and reflection padding give PyTorch's padded tensor.", "quantifier": "all shapes, padding amounts, fill values, element types and inputs", "why_tests_cant": "unbounded sizes and paddings, all element types", "anchors": ["tinynn/converter/operators/torch/aten.py:ATenConstantPadNdOperator", "tinynn/converter/operators/torch/aten.py:ATenPadOperator", "tinynn/converter/operators/torch/aten.py:ATenReflectionPad2dOperator", "tinynn/converter/operators/torch/aten.py:ATenReflectionPad1dOperator"]}
{"id": "C78", "title": "Activation functions keep their parameters", "statement": "Converted activations (clamp, hardtanh, elu, softplus, gelu, hardsigmoid, hardswish, silu, mish, leaky relu, prelu, glu) compute PyTorch's function with the module's parameters.", "quantifier": "all real inputs, all parameters the converter accepts, all quantization parameters", "why_tests_cant": "all reals", "anchors": ["tinynn/converter/operators/torch/aten.py:ATenHardtanhOperator", "tinynn/converter/operators/torch/aten.py:ATenGeluOperator", "tinynn/converter/operators/torch/aten.py:ATenSoftplusOperator", "tinynn/converter/operators/torch/aten.py:ATenPreluOperator", "tinynn/converter/operators/torch/quantized.py:QuantizedEluOperator"]}
{"id": "C79", "title": "Reductions reduce the requested axes", "statement": "Converted sum, mean, prod, min, max, any, argmin, argmax and norm reduce exactly the axes PyTorch reduces, with and without kept dimensions.", "quantifier": "all shapes, axis lists (negative, unordered, missing), keepdim flags, inputs", "why_tests_cant": "all ranks and axis sets", "anchors": ["tinynn/converter/operators/torch/base.py:OperatorConverter.handle_reduce", "tinynn/converter/operators/torch/aten.py:ATenMeanOperator", "tinynn/converter/operators/torch/aten.py:ATenNormOperator"]}
{"id": "C80", "title": "Quantized layers keep their bias", "statement": "The bias of a quantized convolution or linear layer reaches the converted operator with PyTorch's value to within half a step of the accumulator scale.", "quantifier": "all biases, scales, layer kinds, target types", "why_tests_cant": "all reals, all scales", "anchors": ["tinynn/converter/operators/torch/quantized.py:QuantizedConv2dOperator.parse_common", "tinynn/converter/operators/torch/base.py:OperatorConverter.rescale_weight_scale_for_qnnpack", "tinynn/converter/operators/torch/base.py:OperatorConverter.quantize_numpy"]}
{"id": "C81", "title": "Generated code equals the traced model", "statement": "For every model whose forward runs functions, submodules (possibly shared), parameters and literal tensors, tracing it and generating code gives a new model that returns, for every input, exactly the outputs of the original model; tracing succeeds for every such model and no two recorded operations share a name.", "quantifier": "all straight-line forward functions (any length, any nesting of results up to lists of lists, calls that return their own argument), all name assignments, all inputs and all meanings of the functions", "why_tests_cant": "A test traces a few models; the names given to nodes, the dropping of dead variables and the tables from tensor objects to nodes depend on the whole history of calls, and name clashes need an unlucky combination.", "anchors": ["tinynn/graph/tracer.py: TraceGraph.init, TraceNode.__init__, TraceFunction.__init__, add_forward_node, add_input_node, add_output_node, add_constant_node, constant_handler, noop_handler, TraceGraph.__gen_init_code, TraceGraph.__gen_forward_code, recompute_forward_order"]}
{"id": "C83", "title": "Dead-graph elimination removes exactly what no output depends on", "statement": "After tracing with eliminate_dead_graph=True (or calling eliminate_dead_graph_pass), a call, an input or a constant is left in the graph if and only if some output depends on it, directly or through other calls. The code generated from the reduced graph, called with the inputs that are left, returns what the original model returns on all its inputs, whatever the values of the removed ones.", "quantifier": "every model whose forward is a straight-line program of functions, (shared) submodules, parameters and literals, of any length; all input values", "why_tests_cant": "Which calls are dead depends on the whole graph; the search must terminate and be complete for graphs of any size and shape, including nodes reached along many paths.", "anchors": ["tinynn/graph/tracer.py: TraceGraph.__active_detection, TraceGraph.eliminate_dead_graph_pass, TraceGraph.init, TraceGraph.generate_code"]}
{"id": "C84", "title": "Cutting a subgraph out of a traced model keeps its meaning", "statement": "After a model has been traced, its graph can be restricted to the part between chosen input nodes and chosen output nodes (reset_input_output_for_graph). The code generated afterwards takes as its inputs the tensors the input nodes read and returns the results of the output nodes: for every choice of input tensors it computes what that part of the original model computes, and on the tensors of a run of the original model it returns that run's intermediate results. The cut is refused exactly if some node is both input and output, or something is needed that is not provided by an input node.", "quantifier": "all straight-line models, all sets of input and output nodes, all input tensors", "why_tests_cant": "tests cut a few fixed models at fixed places and compare a few values", "anchors": ["tinynn/graph/tracer.py:TraceGraph.reset_input_output_for_graph", "tinynn/graph/tracer.py:TraceGraph.eliminate_dead_graph_pass", "tinynn/graph/tracer.py:TraceGraph.generate_code"]}
{"id": "C85", "title": "Fusing modules before quantization keeps the network", "statement": "Before quantization-aware training or calibration, runs of modules such as convolution, batch norm and ReLU are replaced by one fused module (QATQuantizer.quantize, PostQuantizer.quantize). Every run replaced matches a rule along a chain of quantized modules, the longest rule is chosen, no module belongs to two runs and no match is overlooked. The network with the fused modules computes for every input what it computed before.", "quantifier": "all network graphs (any fan-out, shared modules, nn.Identity in between), all rule lists, all meanings of the modules, all inputs", "why_tests_cant": "tests fuse a few sequential models; a result that is used inside and outside a run, or a module called twice, does not occur in them", "anchors": ["tinynn/graph/quantization/quantizer.py:QATQuantizer.is_fusable", "tinynn/graph/quantization/quantizer.py:QATQuantizer.prepare_qat_prep", "tinynn/graph/quantization/quantizer.py:get_dict_from_rules", "tinynn/graph/quantization/fused_modules.py:gen_fuse_known_modules_wrapper", "tinynn/graph/tracer.py:TraceGraph.filter_forward_nodes"]}
{"id": "C86", "title": "Editing a traced graph changes only what was asked for", "statement": "A traced graph can be edited before code is generated from it: a module or function is inserted after a node, between two nodes or before an output, a node is removed or gets another module, or several nodes are fused into one function (TraceGraph.insert_after, insert_between, insert_before, remove_node, replace_node_module, fuse_nodes_to_func). The code generated from the edited graph computes what the original computes with exactly that change: the readers concerned get the result of the inserted call, everything else is as before. In particular inserting or removing any number of modules that return their argument (quantization stubs in a float model) changes nothing.", "quantifier": "all graphs obtained by tracing and any sequence of edits, all places in nested results, all meanings of functions and modules, all inputs", "why_tests_cant": "tests edit a few sequential models; they do not cover every mix of shared results, list results and repeated edits", "anchors": ["tinynn/graph/tracer.py:TraceGraph.insert_after", "tinynn/graph/tracer.py:TraceGraph.insert_between", "tinynn/graph/tracer.py:TraceGraph.insert_before", "tinynn/graph/tracer.py:TraceGraph.remove_node", "tinynn/graph/tracer.py:TraceGraph.replace_node_module", "tinynn/graph/tracer.py:TraceGraph.fuse_nodes_to_func"]}
{"id": "C87", "title": "Rewriting functional operations before quantization keeps what the model computes", "statement": "Before a model is prepared for quantization its functional operations are rewritten into ones with a quantized counterpart: -x, x / c, x - y, c - x, torch.stack, add, mul, cat, clamp, clamp_min, relu and the other activations, dropout; additions followed by a ReLU are fused. For every model, in every mode and with every choice of layers excluded from quantization, the rewritten float model returns the outputs of the original.", "quantifier": "all straight-line programs of calls with literal arguments by position or keyword, all tensors, all choices of excluded layers, both modes, all meanings of unlisted functions", "why_tests_cant": "tests rewrite a few single operations; they do not cover argument spellings, combinations of passes or shared intermediate results", "anchors": ["tinynn/graph/quantization/quantizer.py:QATQuantizer.rewrite_quantize_graph", "tinynn/graph/quantization/utils.py:clamp_with_fusion"]}
{"id": "C88", "title": "Layers without a quantized counterpart are replaced by equivalent ones", "statement": "Before quantization PReLU, SiLU, GLU, Hardsigmoid, LayerNorm and RMSNorm are replaced by modules built from quantizable operations. As long as nothing is quantized, the replacement returns what the layer returns, for every input and every setting of the layer.", "quantifier": "all input tensors of any rank, all slopes, axes, normalised shapes, weights, biases and eps", "why_tests_cant": "tests compare one layer each with one input; optional parameters and ranks are not covered", "anchors": ["tinynn/graph/quantization/modules.py:QPReLU", "tinynn/graph/quantization/modules.py:QSiLU", "tinynn/graph/quantization/modules.py:QGLU", "tinynn/graph/quantization/modules.py:QHardsigmoid", "tinynn/graph/quantization/modules.py:QLayerNorm", "tinynn/graph/quantization/modules.py:QRMSNorm"]}
{"id": "C89", "title": "Changing the form of a layer before quantization keeps its results", "statement": "Before quantization some layers get another form: pooling with kernel size 1 becomes slicing with strides, a Linear layer followed by BatchNorm1d becomes a 1x1 convolution followed by BatchNorm2d, other BatchNorm1d layers become BatchNorm2d, and operands of different shapes are expanded before an addition or multiplication. None of this changes the result of the network, or the running statistics a training step leaves.", "quantifier": "all input tensors, kernel sizes, strides, paddings and modes of the pooling layers, all weights, statistics and modes of batch norm, all pairs of shapes that can be broadcast", "why_tests_cant": "the result depends on ranks, strides, shapes and modes; tests run one network of each kind with one input shape", "anchors": ["tinynn/graph/quantization/quantizer.py:rewrite_quantize_graph"]}
{"id": "C90", "title": "Merging changes of quantization keeps the numbers", "statement": "When the converter merges a QUANTIZE into the operator in front of it, merges chains of QUANTIZE and DEQUANTIZE nodes, or fuses RELU and RELU6 into a quantized operator, every reader of the tensors involved still receives the same real numbers, up to a few rounding steps, and the model still runs.", "quantifier": "all scales, zero points and storage types, all exact results of the operator, all sets of readers, all chains, every way of rounding to nearest", "why_tests_cant": "whether a merge is visible depends on the operator's result, on all its readers and on both quantizations; tests convert a few models and compare within a loose tolerance", "anchors": ["tinynn/converter/operators/optimize.py:fuse_requantize,fuse_activation,fuse_dequant_quant_pass,is_requantize_fusable_edge,is_activ_fusable_edge,is_dequant_quant_fusable_edge"]}
{"id": "C91", "title": "A model with quantized inputs and outputs computes the same", "statement": "With fuse_quant_dequant the QUANTIZE nodes behind the inputs and the DEQUANTIZE nodes in front of the outputs are removed: the model then takes quantized data for the same inputs in the same order and delivers the integers that stand for the old outputs. Requesting int8 or uint8 for inputs and outputs does not change the numbers they stand for.", "quantifier": "all models, all choices of input and output positions, all inputs, all 8-bit values and quantizations", "why_tests_cant": "depends on which other operators read the tensors at the border of the model; tests use models in which only one operator does", "anchors": ["tinynn/converter/operators/optimize.py:fuse_quant_dequant_nodes,quantize_input_output_type_pass,is_quant_dequant_edge"]}
{"id": "C92", "title": "Generated calls carry the recorded arguments", "statement": "The text the tracer generates for a traced function, method or subscript is read by Python as the same call with the arguments that were recorded: tensors under the names they have in the generated code, numbers, strings, lists, slices and keywords in their places.", "quantifier": "all functions, all nested lists of arguments, all keywords, all subscripts with slices", "why_tests_cant": "the text goes through a template, brace doubling, formatting and bracket rules that interact; tests trace models with common arguments", "anchors": ["tinynn/graph/tracer.py:TraceFunction.parse_args,TraceFunction._flatten_list,TraceFunction.args_to_string,TraceFunction.extra_expr"]}
{"id": "C93", "title": "Operators dropped or evaluated while converting leave every value as it was", "statement": "An operator that the converter drops because it does nothing returns its input unchanged, and replacing a RESHAPE or TRANSPOSE of a constant by a new constant leaves the outputs of the model the same for every input.", "quantifier": "all data moving operators with all parameters, all shapes, all tensors; all models, all constants, all inputs", "why_tests_cant": "the decision to drop an operator looks at recorded shapes only, so it must be safe for every parameter that gives these shapes; tests try a few", "anchors": ["tinynn/converter/operators/optimize.py:remove_noop_pass,is_ending_with_noop_edge,fold_transpose_buffer,fold_reshape_buffer,is_constant_transpose_fusable_edge,is_constant_reshape_fusable_edge"]}
{"id": "C94", "title": "Quantized and unquantized parts of a model are kept apart", "statement": "In the model prepared for quantization every operation with a quantized form receives quantized tensors, every operation without one and every output receives floating point tensors, tensors that are not floating point pass untouched, and exactly the nodes that work on quantized tensors are marked for quantization, whatever the order of inputs and readers.", "quantifier": "all graphs, all assignments of supported and unsupported operations, all tensor types, all orders of the nodes", "why_tests_cant": "stubs are inserted by four passes and removed by a fifth, and the marking is a search whose result depends on the order of visits; tests try a few graphs", "anchors": ["tinynn/graph/quantization/quantizer.py:rewrite_quantize_graph,prepare_qat_prep,_qat_analysis"]}
{"id": "C95", "title": "Calibration with the KL algorithm stays inside the observed range and compares histograms of equal content", "statement": "For every histogram of activations and every divergence, calibration with the KL algorithm returns a range inside the observed one that spans at least 128 bins; it picks the first cut with the smallest divergence; and the histograms it compares hold the same content as the observed one: merging into 128 bins and spreading over the non-empty bins lose and add nothing, and the tail is folded into the last bin.", "quantifier": "all histograms, all numbers of bins, all cuts, all divergence values including infinity and NaN", "why_tests_cant": "merging splits bins at fractional borders in vectorized code with overlapping index arrays; tests run it on a few histograms and only look at the final range", "anchors": ["tinynn/graph/quantization/observer.py:HistogramObserverKL._compute_threshold,HistogramObserverKL._non_linear_param_search"]}
{"id": "C96", "title": "The quantizable GRU computes what the GRU it replaces computes", "statement": "Before quantization sets in, the module that replaces a GRU returns for every sequence of every batch the outputs and the final states of the original GRU, for any number of layers, one or two directions, with or without given first states.", "quantifier": "all weights, hidden sizes, sequence lengths, batches, numbers of layers, directions, first states, and all activation functions", "why_tests_cant": "the replacement unrolls time, directions and layers in Python; tests compare a few sizes and mostly look at the outputs only", "anchors": ["tinynn/graph/quantization/quantizable/gru.py:GRUCell.forward,_GRUSingleLayer.forward,_GRULayer.forward,GRU.forward,_GRULayer.from_float"]}
{"id": "C97", "title": "The fused attention layer computes what the original one computes, also piece by piece", "statement": "The layer that replaces the three projections of an attention layer by one gives every token the output of the original layer for the whole sequence, whether the sequence comes at once or in pieces with a cache of keys and values, and looks at exactly the tokens the mask of the caller allows.", "quantifier": "all weights, head counts and sizes, sequences, divisions into pieces, masks, rotations and weightings", "why_tests_cant": "the cache makes the output depend on all earlier calls and on how the sequence was cut; tests run one prompt at once", "anchors": ["tinynn/llm_quant/llama.py:LlamaAttentionFused.__init__,LlamaAttentionFused.forward"]}
{"id": "C98", "title": "A channel pruner prunes what its configuration asks for", "statement": "A pruner prunes every prunable operation at the rate its configuration gives for it, at the default rate if it gives none, and not at all if it is a last linear layer without a rate of its own; the excluded kinds of operations are left out; the configuration it writes gives the same pruner again; and constructing a pruner leaves the configuration usable.", "quantifier": "all configurations, models, subgraphs and names", "why_tests_cant": "the rate of a layer depends on the dictionary, the order of the operations and comparisons with the default; tests use a few configurations once", "anchors": ["tinynn/prune/oneshot_pruner.py:OneShotChannelPruner.__init__,parse_config,generate_config,reset", "tinynn/prune/base_pruner.py:parse_config,calc_flops"]}
{"id": "C99", "title": "Pruning with ADMM follows the method", "statement": "During pruning with ADMM the auxiliary variable is at every round the nearest weight with the pruned channels at 0, the dual variable collects the differences, the loss is the loss of the user plus the penalty of the method and training goes down along its slope, the learning rate falls to a tenth after each third of a round, and excluded subgraphs stay out.", "quantifier": "all weights, training histories, choices of channels, numbers of rounds and epochs", "why_tests_cant": "the variables depend on all rounds before; automatic differentiation is invisible in the loss a test could compare", "anchors": ["tinynn/prune/admm_pruner.py:ADMMPruner.prune,adjust_learning_rate,construct_admm_criterion,register_mask,admm_params_update"]}
{"id": "C102", "title": "Half-precision constants change a model only by rounding", "statement": "Converting with half-precision constants gives a model that computes exactly what the original computes with each float32 constant rounded to half precision: every value of the one is a value of the other. A constant below 65520 moves by at most one part in 2048 or by 2^-25; a larger one becomes infinite. No operator reads a float32 constant any more.", "quantifier": "all networks, constants, readers and values", "why_tests_cant": "a constant may have any number of readers and any magnitude; tests compare a few models within a tolerance", "anchors": ["tinynn/converter/operators/half_quantizer.py:HalfQuantizer.quantize,quantize_pass", "tinynn/converter/base.py:convert"]}
{"id": "C100", "title": "Error analysis reports the worst layers and leaves the model as it was", "statement": "Analysing the quantization error of a prepared model, by layer or cumulatively, leaves the mode, the fake-quantization and observer switches, the collected statistics and the hooks of every module as they were. The report by layer lists the given number of worst weights and worst activations, each comparing the input in the float model with the same input quantized; the cumulative report compares the float with the quantized model at every activation.", "quantifier": "all models, modes, switches, statistics, hooks, inputs, metrics and report lengths", "why_tests_cant": "the state of the model before is arbitrary, and the effect appears only in later training; tests read the log of one model", "anchors": ["tinynn/util/quantization_analysis_util.py:layer_error_analysis,graph_error_analysis"]}
{"id": "C101", "title": "Restoring batch normalization keeps the model", "statement": "Adding batch normalization back behind convolutions leaves the layers as they are while statistics are collected, and afterwards, in evaluation mode, moves the output of a layer by at most eps/(var+eps) of its distance from the collected mean, whatever was collected. Exactly the convolutions asked for get one.", "quantifier": "all models, lists of layers, calibration histories and inputs", "why_tests_cant": "the change depends on the whole calibration history; tests look at one model", "anchors": ["tinynn/util/bn_restore.py:model_restore_bn,restore_bn,restore_bn_set_param,ConvBnForward,ConvBnTrain"]}
{"id": "C82", "title": "In-place operations survive tracing", "statement": "The code generated for a traced model with in-place operations returns what the model returns, and changes the tensors of the caller as the model does: writing through one tensor is seen through all tensors that share its storage, whether written with an operator like +=, a method like add_ or an assignment to a part.", "quantifier": "all straight-line models with calls, views, splits, operators in place, methods in place and assignments to parts, all inputs and all ways of reading and writing parts of a tensor", "why_tests_cant": "the effect depends on which tensors share storage and on the order of reads and writes; tests cover a few orders", "anchors": ["tinynn/graph/tracer.py:new_func_gen,noop_handler,add_forward_node,TraceGraph.__gen_forward_code,eliminate_dead_graph_pass", "tinynn/graph/tracer.py:TraceFunction.add_alias"]}
{"id": "C103", "title": "Channels that depend on each other are grouped", "statement": "Before a pruner chooses channels it groups them so that channels of a layer that end up in a common position of some consumer, directly or through other layers, are in one group, and no others; the groups of a layer have no channel in common and cover all channels that are consumed.", "quantifier": "all numbers of producing layers and consumers and all tables of which channels feed which positions", "why_tests_cant": "dependencies pass through any number of layers and consumers in any order", "anchors": ["tinynn/graph/modifier.py:SubGraph.calc_prune_idx,merge_constraint"]}
{"id": "C104", "title": "Batch normalization keeps its result when it is not fused", "statement": "A batch normalization layer that is not merged into a neighbouring convolution is converted to operators that compute the same numbers, for inputs of every rank, with or without weight and bias, in evaluation and training mode, and for quantized layers with and without ReLU.", "quantifier": "all shapes, channel counts, weights, statistics, inputs and quantizations", "why_tests_cant": "ranks, missing weights and broadcasts combine; tests compare a few random inputs", "anchors": ["tinynn/converter/operators/tflite/transformable.py:BatchNormOperator", "tinynn/converter/operators/torch/aten.py:ATenBatchNormOperator", "tinynn/converter/operators/torch/quantized.py:QuantizedBatchNorm1dOperator,QuantizedBatchNorm2dOperator,QuantizedBatchNorm2dReluOperator"]}
{"id": "C105", "title": "The converted model takes and returns images in the layout that was asked for", "statement": "Where the caller asks for channels-last inputs or outputs (by flag, or by default for tensors with four dimensions), the converted model fed with the channels-last forms of some inputs returns the channels-last forms of what the original returns for these inputs, whatever the graph between them, which tensors are read several times or returned several times, and whether inputs and outputs are quantized; flags may be given as one value, a list or a tuple.", "quantifier": "all graphs, inputs, outputs and flags", "why_tests_cant": "which transposes are inserted depends on how every input and output is produced and used; tests convert a few models with one input and one output", "anchors": ["tinynn/converter/operators/optimize.py:GraphOptimizer.input_transpose_pass,GraphOptimizer.output_transpose_pass", "tinynn/converter/base.py:TFLiteConverter.init_input_transpose", "tinynn/converter/operators/graph.py:CommonGraph.replace_next_tensors,CommonGraph.replace_operator_input"]}
{"id": "C106", "title": "Operations along an axis work on the axis PyTorch means", "statement": "Exchanging axes, permuting them, transposing a matrix, softmax, log-softmax, cumulative sums, concatenation and broadcasting several tensors to one shape give the same tensor in the converted model as in PyTorch, for every rank and shape and for every axis, counted from the front or from the end, and concatenation leaves out the empty one-dimensional tensors PyTorch leaves out.", "quantifier": "all tensors, ranks, shapes and axis arguments", "why_tests_cant": "an axis argument can be counted from either end for any rank; tests use a few ranks and mostly one way of counting", "anchors": ["tinynn/converter/operators/torch/aten.py:ATenTransposeOperator,ATenTOperator,ATenPermuteOperator,ATenSoftmaxOperator,ATenLogSoftmaxOperator,ATenCumsumOperator,ATenCatOperator,ATenBroadcastTensorsOperator,ATenCopyOperator"]}
{"id": "C107", "title": "Making float operators between DEQUANTIZE and QUANTIZE work on quantized tensors keeps the result", "statement": "With the option that rewrites quantizable operators, an operator (matrix product, softmax, log-softmax, absolute value, sum, division, reciprocal square root, minimum, maximum) that reads dequantized tensors and whose result is only quantized is replaced by its quantized form, the conversion does not fail because of it, the model can still be run, and every output of the model is the same as before, for every model and every order in which operators are visited.", "quantifier": "all models, quantizations, constants, storage ranges, rounding to a nearest integer and orders of visiting operators", "why_tests_cant": "whether an operator may be replaced depends on everything that reads and makes its tensors, and on quantization parameters that no test enumerates", "anchors": ["tinynn/converter/operators/optimize.py:elementwise_op_quantize_passthrough_pass,op_input_indices,is_quantizable_rewrite_op"]}
{"id": "C108", "title": "Statistics given for inputs fix their quantization", "statement": "If the mean and deviation of an input are given to the quantizer, the raw byte q of that input stands for (q - mean) / std while training and in the converted model, whatever data is seen, every input gets its own statistics, inputs without statistics are calibrated as usual, and the statistics built in for softmax and log-softmax cover their results.", "quantifier": "all means, deviations, storage ranges, observers and lists of inputs", "why_tests_cant": "the parameters of the converted model are calculated again from a range, for any mean, deviation and observer; tests look at one pair of numbers", "anchors": ["tinynn/graph/quantization/quantizer.py:set_module_quantization,prepare_quantized_inputs_pass,prepare_quantized_ops_pass,KNOWN_QSTATS", "tinynn/graph/quantization/observer.py:HistogramObserverKL"]}
{"id": "C109", "title": "Changing the number of integers of activations keeps what they can represent", "statement": "After activations are rescaled to a larger set of integers, every number that could be represented before lies in the new range and steps are not longer, for every fake quantizer of the model; sigmoid gets the parameters TFLite asks for.", "quantifier": "all scales, zero points, old and new integer ranges", "why_tests_cant": "the result depends on scale, zero point and both ranges; tests use one symmetric example", "anchors": ["tinynn/graph/quantization/quantizer.py:rescale_activations_with_quant_min_max"]}
{"id": "C110", "title": "The operands and the result of a quantized concatenation have one quantization", "statement": "After quantization is prepared without requantization for concatenations, every operand of a quantized concatenation, directly or through operations that keep the quantization, and its result share one observer, so that concatenating needs no requantization; only what is or feeds a concatenation gets another observer, and the pass ends on every model.", "quantifier": "all graphs of operations, all orders of operands and all numbers of concatenations that share operands", "why_tests_cant": "the result depends on the order in which a search over the graph meets operations and on searches started before; tests use a few small graphs", "anchors": ["tinynn/graph/quantization/quantizer.py:disable_requantization_for_cat_pass"]}
{"id": "C111", "title": "Replacing operators keeps the graph connected", "statement": "When a pass of the converter replaces operators by others that compute the same results, the conversion goes on with a graph that has the operators not replaced and the new ones, in which every tensor comes from the operator that writes it, every operator is connected to the producers of what it reads, and every output of the model has one output vertex.", "quantifier": "all graphs, all sets of replaced operators and all replacements", "why_tests_cant": "which connections are lost and restored depends on the numbers of the operators, on the order of selection and on passes that ran before; tests convert models where one or two operators are replaced", "anchors": ["tinynn/converter/operators/optimize.py:split_requantize", "tinynn/converter/operators/optimize.py:transform_graph", "tinynn/converter/operators/optimize.py:fuse_bmm_add_pass", "tinynn/converter/operators/optimize.py:cat_split_pass", "tinynn/converter/operators/graph.py:add_operator", "tinynn/converter/operators/graph.py:try_restore_edges"]}
{"id": "C112", "title": "Fusing an addition into a matrix product keeps the result", "statement": "When the converter turns a matrix product and the addition of a vector into one fully connected operator, the result has the same shape and the same values, with the activations of both, and the operator accepts the types of its operands.", "quantifier": "all operands, all numbers of axes and sizes, both product operators, all flags and activations", "why_tests_cant": "the fusion is decided by shapes only; tests use one activation and one number of axes at a time", "anchors": ["tinynn/converter/operators/optimize.py:fuse_bmm_add_pass", "tinynn/converter/operators/optimize.py:is_bmm_add_edge"]}
{"id": "C113", "title": "A reshape between two transposes is dropped only if nothing moves", "statement": "When the converter replaces a transpose, a reshape that only adds or drops axes of size one, and a transpose by one reshape, the result has the same shape and the same values; and the search for the combined permutation ends.", "quantifier": "all tensors, numbers of axes, sizes, permutations and reshapes", "why_tests_cant": "the combined permutation is guessed from sizes; tests use a handful of shapes in which sizes repeat or not", "anchors": ["tinynn/converter/operators/optimize.py:fuse_wrapped_reshape_within_transpose_pass", "tinynn/converter/operators/optimize.py:fuse_transpose_perms_extended"]}
{"id": "C114", "title": "The pruner knows which channels every layer receives", "statement": "Before channels are removed from a layer, the pruner determines for every later layer, and for every slice of its input along every axis on which sizes will change, which channels of the pruned layer that slice comes from. The slices named for a channel are exactly those that disappear with it.", "quantifier": "all shapes, all paths of layers between the pruned layer and the later one, of any length, all channels and slices", "why_tests_cant": "the analysis fills tensors with channel numbers and reads them back; whether numbers survive depends on the order of layers, offsets and sizes, of which tests try a few networks", "anchors": ["tinynn/graph/modifier.py:calc_dim_constraint,calc_dim_changes,DimensionChangeInfo.update_i,fill_tensor_by_dim_changes", "tinynn/graph/modifier.py:Modifier.dim_change_forward,PaddingModifier,PoolingModifier,ReIndexModifier,CatModifier,LinearChannelModifier,ConvChannelModifier"]}
{"id": "C115", "title": "A pruned split still hands out its chunks", "statement": "After channels have been removed, the size or sizes written into a call of split make it return, for every chunk, exactly what is left of that chunk, so that every later layer goes on receiving its own channels.", "quantifier": "all chunk sizes and numbers of chunks, all sets of removed channels, all layers reading the chunks", "why_tests_cant": "the sizes are rebuilt from a table keyed by the reading layers; who reads what, and which channels go, differ in every network and every pruning run", "anchors": ["tinynn/graph/modifier.py:SplitModifier.__init__,SplitModifier.apply_mask"]}
{"id": "C116", "title": "A channel is judged by its own weights", "statement": "The importance metrics give every output channel of a layer one score, computed from exactly the weights that channel is computed with: its filter, the kernels leading to it, or for recurrent layers all gates of the unit in all layers, direction by direction.", "quantifier": "all weights, numbers of channels, gates, units, layers and directions, both norms, the geometric median and the number of random scores", "why_tests_cant": "a score that mixes channels or is missing shows only as a poorer choice of channels, which no test can tell from a good one", "anchors": ["tinynn/graph/modifier.py:update_weight_metric,random,l1_norm,l2_norm,fpgm,rnn_gate_size"]}
{"id": "C117", "title": "Tracing leaves PyTorch as it found it", "statement": "While a model is traced the listed functions and classes of PyTorch are replaced by recording wrappers; when tracing is over, however sessions were nested or repeated, every attribute of every module and class is what it was, and meanwhile exactly the calls the model itself makes are recorded, in order.", "quantifier": "all class hierarchies with single inheritance, all lists of attributes, all nestings and sequences of tracing sessions over any of the groups, all trees of calls, failing or not", "why_tests_cant": "what is left behind shows only later, in code that has nothing to do with tracing, and depends on inheritance, on nesting and on where an exception happens", "anchors": ["tinynn/graph/tracer.py:patch_helper,patch_modules,patch_funcs,no_catch,new_func_gen", "tinynn/graph/_utils.py:patch_getitem,revert_getitem"]}
{"id": "C118", "title": "Only what does not depend on the inputs becomes a constant", "statement": "The converter runs every node of the model on an example input and keeps the result as a constant when it need not follow it. The converted model computes what the model computes for every input of the same shapes, not only for the example: no value that depends on an input is frozen, lists are put together and taken apart element by element, and an operator the converter does not know is an error.", "quantifier": "all programs in single-assignment form with operators, operators returning lists, lists put together, taken apart and indexed, operators that are not tracked, unknown operators and inlined custom functions; all functions they compute; all inputs of the shapes of the example", "why_tests_cant": "a test that compares the converted model with the original on the example input cannot see a frozen value, and most programs contain none", "anchors": ["tinynn/converter/base.py:init_operations,unsupported_operations,convert", "tinynn/converter/operators/torch/base.py:find_or_create_input,to_tfl_tensors,NoTrackOperator", "tinynn/converter/operators/torch/prim.py:PrimListConstructConverter,PrimListUnpackConverter,PrimGetItemConverter,PrimParamConverter,PrimReturnConverter", "tinynn/converter/operators/graph.py:add_iterable_pair,get_list_expanded_names", "tinynn/converter/operators/optimize.py:output_list_unpack_pass"]}
{"id": "C119", "title": "Moving a transpose across a reshape keeps the values", "statement": "To bring transposes together the converter moves a TRANSPOSE from one side of a RESHAPE to the other, changing the order of the sizes in the RESHAPE. The new operators compute the same tensor as before, one of the two added transposes undoes an existing one, and the step never stops the conversion.", "quantifier": "all tensors, all target shapes (with or without a -1), all permutations of the neighbouring TRANSPOSE operators, any number of consumers, both optimization levels", "why_tests_cant": "the axes are grouped by their sizes, so which axes may move together depends on the numbers; a test has a few shapes", "anchors": ["tinynn/converter/operators/optimize.py:elementwise_reshape_transpose_passthrough_pass,reshape_mapping"]}
{"id": "C120", "title": "Removing dead channels with batch-norm compensation changes nothing", "statement": "A channel whose batch norm always sees the same value carries a constant. When the identity pruner (or any channel pruner with bn_compensation) removes it, the constant is moved into the bias of the next convolution, so the pruned network returns the values of the original one.", "quantifier": "all batch norms, activation functions, 2d convolutions (kernel size, stride, dilation, padding and padding mode, with or without bias), sets of removed channels, inputs in which the removed channels carry their constant, output channels and positions; all followers of the batch norm", "why_tests_cant": "the sums over channels, kernel positions and pixels have any size, and the border of the image behaves differently from the inside", "anchors": ["tinynn/graph/modifier.py:NormChannelModifier.modify_input,Modifier.module", "tinynn/graph/tracer.py:TraceFunction.__call__", "tinynn/prune/identity_pruner.py:IdentityChannelPruner"]}
{"id": "C121", "title": "The TensorRT comparison tells matching tensors from different ones", "statement": "compare_onnx_tensorrt builds an engine with the requested precisions, runs the engine and the ONNX model on the same inputs, compares every tensor the engine names, and reports a match exactly where the values agree.", "quantifier": "all models, tables of shapes, requested precisions, sets of named tensors and values of the two runs", "why_tests_cant": "the verdict depends on all values of a tensor, the added outputs on all nodes of a model, and TensorRT is not available in the test environment", "anchors": ["tinynn/converter/utils/tensorrt.py:compare_onnx_tensorrt,build_engine,add_outputs_for_onnx_model,allocate_buffers"]}
{"id": "C122", "title": "When several dimensions could be pruned, one is chosen that fits everywhere", "statement": "If reshapes make several dimensions of a tensor prunable, building a channel pruner settles on one dimension for every tensor, the dimensions of the inputs and outputs of every operator correspond, and building fails only if no such choice exists.", "quantifier": "all graphs, sets of dimensions changed by the layers, and ways operators map dimensions", "why_tests_cant": "the choice is carried through the graph by a depth-first search with backtracking, so its outcome depends on the shape of the whole graph and on the order of attempts", "anchors": ["tinynn/graph/modifier.py:Modifier.dim_choose_traversal,Modifier.calc_dim_choices,DimensionChangeInfo.is_changes_conflict,ReshapeModifier.dim_choose,MatMulModifier.dim_choose,SubGraph.eliminate_conflict"]}
{"id": "C123", "title": "The options of a quantizer reach the layers they are meant for", "statement": "Whatever the model, per_tensor=False gives convolutions one weight range per channel, asymmetric=False gives symmetric activations, algorithm='kl' calibrates every activation with the KL observer, dynamic_lstm_quant reaches every LSTM, and settings returned by override_qconfig_func for a module are those it, and everything in it, is quantized with.", "quantifier": "all module trees, option combinations, override functions and layers", "why_tests_cant": "the settings of a layer depend on its type, on all modules around it and on the order in which defaults, overrides and propagation are applied", "anchors": ["tinynn/graph/quantization/quantizer.py:QATQuantizer.prepare_qconfig,QATQuantizer.override_qconfig,QATQuantizer.prepare_qat,PostQuantizer.prepare_qconfig", "tinynn/graph/quantization/observer.py:MinMaxObserver,PerChannelMinMaxObserver"]}
{"id": "C124", "title": "LSTM weights rounded for quantization are put back by convert", "statement": "When a model is prepared, each gate of the input and recurrent weights of every LSTM is rounded to at most 255 equally spaced values with an error of at most half a step; when the model is converted, the LSTMs have the weights they should have: those given by the user after calibration, those learned after training.", "quantifier": "all models, LSTM weights, trained values and numbers of conversions", "why_tests_cant": "whether the right weights come back depends on what happened to the model between the two calls and on how often convert is called", "anchors": ["tinynn/graph/quantization/quantizer.py:QATQuantizer.fake_quantize_lstm_weights,QATQuantizer.restore_lstm_weights,QATQuantizer.convert", "tinynn/graph/quantization/utils.py:fake_quantize"]}
{"id": "C125", "title": "Preparing a model for ONNX export keeps what it computes", "statement": "After prepare_onnx_export a prepared model computes what it computed before in evaluation mode, for every input, however often it is called; after freeze_weights every later call of the model uses the weights as they were quantized when they were frozen.", "quantifier": "all fake-quantizers, convolutions with batch normalization, inputs and histories of calls", "why_tests_cant": "the parameters of all fake-quantizers and batch normalizations are rewritten; equality has to hold for every input and parameter, and for frozen weights after any number of calls", "anchors": ["tinynn/graph/quantization/quantizer.py:QATQuantizer.prepare_onnx_export,QATQuantizer.freeze_weights"]}
{"id": "C126", "title": "Restoring a converted model gives the float model it stands for", "statement": "restore_to_original turns a converted model into a float model which computes, in exact arithmetic, what the converted model approximates with integers, whatever its layers, and if it cannot do so for some layer it fails and leaves the model as it was.", "quantifier": "all converted models, layers, weights, ways of calling the modules and inputs", "why_tests_cant": "equality of functions over all inputs and all combinations of layers; all-or-nothing behaviour over every position of an unsupported layer", "anchors": ["tinynn/graph/quantization/quantizer.py:QATQuantizer.restore_to_original"]}
{"id": "C127", "title": "Ignoring channels with a tiny variance leaves the others as they are", "statement": "After optimize_conv_bn_fusion, the range from which the weights of a depthwise convolution are quantized is that of the channels with ordinary variance, whose weights are unchanged, the weights of the other channels are clamped into that range, every other module is untouched, and the model can still be run.", "quantifier": "all convolutions, variances, thresholds and weights", "why_tests_cant": "the claim is about the extreme values of a tensor for every set of ignored channels, including all of them", "anchors": ["tinynn/graph/quantization/quantizer.py:QATQuantizer.optimize_conv_bn_fusion"]}
{"id": "C128", "title": "A generated model constructs its modules with the settings they have", "statement": "For every module that becomes a module of the generated code, the constructor line in that code builds a module with the settings the traced module has, whatever modules have been constructed, changed, copied, re-initialized and freed before, also when a module lives where another one has been freed.", "quantifier": "all histories of constructing, copying, changing, re-initializing and freeing modules, with all reuses of addresses", "why_tests_cant": "the lines are remembered by address: whether the right one is used depends on the whole history of allocations and attribute changes", "anchors": ["tinynn/graph/tracer.py:new_init_gen,new_setattr_gen,hook_modules,TraceGraph.__gen_init_code"]}
{"id": "C129", "title": "A quantizer's error report lists exactly the layers below the threshold and leaves the model as it was", "statement": "error_analysis of a quantizer reports, for a model prepared for training, exactly the weights and activations whose signal-to-noise ratio on the given input is at most the threshold, worst first, and leaves modes, switches, statistics and hooks of the model as they were, whatever the model and whether or not it fails.", "quantifier": "all models, inputs, ratios, thresholds and initial switches", "why_tests_cant": "the report and the restored state depend on every switch of every module and on the point at which the analysis fails", "anchors": ["tinynn/graph/quantization/quantizer.py:QATQuantizer.error_analysis"]}
{"id": "C130", "title": "Validating a calibrated model uses what calibration found", "statement": "With the fake-quantizer for post-training quantization, whenever a model is validated its tensors are quantized with the scales and zero points that the observers give for all calibration data seen so far, per tensor or per channel, however often calibration and validation alternate.", "quantifier": "all observers, calibration data, validation data and orders of the two", "why_tests_cant": "whether the parameters are up to date depends on the history of calls", "anchors": ["tinynn/graph/quantization/fake_quantize.py:PTQFakeQuantize,set_ptq_fake_quantize"]}
{"id": "C131", "title": "Recurrent states become inputs and outputs of the right shapes", "statement": "add_state_input_outputs of a traced graph gives every LSTM, GRU and RNN layer that is not given its states one graph input per state, with the shape the layer asks for, and one graph output per state, in the order of the layers, whatever the settings of the layers, the shapes of their inputs and the number of nodes that read their results.", "quantifier": "all traced graphs with recurrent layers, all settings and input shapes", "why_tests_cant": "the shapes depend on projection, directions, batch layout and the surroundings of each layer", "anchors": ["tinynn/graph/tracer.py:TraceGraph.add_state_input_outputs,add_inputs_for_tensors_in_node,add_outputs_for_tensors"]}
{"id": "C132", "title": "Copying a reshape or transpose for each of its readers changes nothing but the number of readers", "statement": "When the converter gives every reader of a RESHAPE or TRANSPOSE that is followed by another one its own copy, the converted model computes the same outputs from every input, stays free of cycles and of doubly defined tensors, and afterwards no such operator has several readers; the step succeeds for every model.", "quantifier": "all models, whichever readers the operators have and whichever of them keeps the original", "why_tests_cant": "operators may be chained, read several times by one reader, be outputs of the model or read constants, in all combinations", "anchors": ["tinynn/converter/operators/optimize.py:branch_reshape_expand_pass,branch_transpose_expand_pass,is_reshape_branch_edge,is_transpose_branch_edge,expand_op_outputs_in_branches"]}
{"id": "C133", "title": "A pruned recurrent layer computes what its masked form computes", "statement": "When the pruner cuts the weights of an RNN, GRU or LSTM, the cut layer gives, for every sequence and at every time, the kept features of the output of the masked layer (the one that was trained while pruned units were masked), and ends in the same states of the kept units, for any number of layers, directions, units and removed features.", "quantifier": "all recurrent layers, weights, removed units and input features, sequences and times", "why_tests_cant": "rows, columns and biases of all gates, layers and directions have to be cut consistently; errors only show for particular sizes, orders and directions", "anchors": ["tinynn/graph/modifier.py:RNNChannelModifier.register_mask,modify_input,modify_output,split_indices_with_directions,tile_indices_with_gate_size,complementary_list"]}
{"id": "C134", "title": "A layer that takes over the activation behind it computes what the prepared model computed", "statement": "When a quantized layer takes over the clamp, ReLU or ReLU6 behind it during convert (the extra quantizer behind the activation giving its range to the layer), the converted model computes, for every number the layer can deliver, what the prepared model computed after the same training history, up to one quantization step.", "quantifier": "all activations and bounds, symmetric and asymmetric quantizers, histories of batches and of switching observers and fake quantizers, and results of the layer", "why_tests_cant": "the effect depends on the observed history and on numbers outside the bounds; tests convert a few models with symmetric data and do not compare with the prepared model", "anchors": ["tinynn/graph/quantization/quantizer.py:QATQuantizer.extra_qat_fusion_postprocess,convert,rewrite_quantize_graph", "tinynn/graph/quantization/utils.py:clamp_with_fusion"]}
{"id": "C135", "title": "The files generate_code writes give back the model, and its check accepts exactly models that agree", "statement": "Importing the file generate_code writes, creating the model and loading the weights file gives a model whose parameters, buffers and constants hold the numbers the traced model has; with check on, generate_code returns True exactly when the generated model's outputs have the shapes and numbers of the traced model's, and the traced model is left as it was.", "quantifier": "all traced graphs with any constants, shared modules and unused modules, all initial numbers of a fresh model, all outputs of both models and all training flags", "why_tests_cant": "depends on what happened to the model between tracing and generation, on infinities, on empty tensors, and on outputs of other shapes; tests generate code right after tracing a stock model", "anchors": ["tinynn/graph/tracer.py:TraceGraph.generate_code,__gen_init_code,ConstantNode.parse", "tinynn/util/util.py:tensors2ndarray"]}
{"id": "C136", "title": "Modes are put back after quantizing, and frozen batch norm statistics stay as they are", "statement": "After quantize() every module of the original model is in the mode (training or evaluation) it was in before. Once training has frozen batch normalization, no sequence of mode switches and batches changes the statistics of any layer; and while a model is in evaluation mode batches do not change statistics.", "quantifier": "all module hierarchies including shared modules, all flags before and in between, all layers and all sequences of calls", "why_tests_cant": "holds over histories of calls and over module graphs with sharing; tests run short trainings of one architecture", "anchors": ["tinynn/graph/quantization/quantizer.py:QATQuantizer.set_model_mode,restore_model_mode,quantize", "tinynn/graph/quantization/qat_modules.py:_ConvTransposeBnNd.train,freeze_bn_stats,update_bn_stats", "tinynn/util/train_util.py:train"]}
{"id": "C137", "title": "Dequantizing a rewritten model gives a float model that computes the same", "statement": "DeQuantizer.dequantize() on a model with QuantStubs, DeQuantStubs and FloatFunctional objects returns a model without any of them that gives the same outputs as the given model has when nothing is quantized, for every input. A model without stubs and FloatFunctional objects is left alone.", "quantifier": "all traced models, with any number and arrangement of stubs and of calls of FloatFunctional methods, and all inputs", "why_tests_cant": "Stubs may follow each other, feed outputs or many readers, and add_relu is split in two; a test runs a few models on a few inputs.", "anchors": ["tinynn/graph/quantization/quantizer.py: DeQuantizer.rewrite_quantize_graph, DeQuantizer.dequantize", "tinynn/graph/tracer.py: TraceGraph.remove_node, TraceGraph.insert_after"]}
{"id": "C138", "title": "The integer LSTM gets its biases, cell state and hidden state in the units its kernel computes with", "statement": "With hybrid_int16_lstm, for every LSTM operator with an int8 input: what the integer kernel adds for each bias is at most half a unit of the sums of this gate away from the bias; every value the observed cell state can have fits the 16-bit cell state, whose range is a power of two, at least one, and less than twice as large as needed otherwise; and the values written for the output are at most half a step of the output away from the computed ones.", "quantifier": "all sequences of LSTM operators, all scales, zero points, biases and values in range", "why_tests_cant": "The scales come from data; a test sees a few models, and errors of a unit or a step stay below its tolerance.", "anchors": ["tinynn/converter/operators/hybrid_quantizer.py: HybridQuantizer.int16_lstm_pass"]}
{"id": "C139", "title": "The file that is written reads back as the model that was built", "statement": "For every list of operators, tensors and buffers: a reader of the written TFLite file that follows the public schema finds, in the same order, every tensor with its shape, type, buffer, name and quantization, every buffer's bytes, every operator's code, version and custom code, every operator's tensor indices, and every option of an operator in the field the schema has for it, with the schema's type of options for that operator; also where a value equals a default and is left out.", "quantifier": "all lists of operators of all operator classes with all option values, all tensors, all buffers, all indices", "why_tests_cant": "There are over 150 operator classes and as many tables of options; tests build a few of them, mostly with common values, and a swapped field or a wrong default shows only for some values.", "anchors": ["tinynn/converter/operators/tflite/generated_ops.py: build of all classes", "tinynn/converter/operators/tflite/base.py: OpCode.build, BaseOperator.build, QuantizationParameters.build, Buffer.build, Tensor.build, SubGraph.build, Model.build, create_offset_vector, create_numpy_array", "tinynn/converter/operators/graph.py: CommonGraph.build_model", "tinynn/converter/schemas/tflite/schema_generated.py: Add functions"]}
{"id": "C140", "title": "Preparing observes the modules that work on quantized values and keeps the hooks of the user", "statement": "After the preparation for quantization-aware training or calibration, every observable module with a use on quantized values has an observer that is called before the user's forward hooks, every module used on other values only has none and no quantization configuration, and the forward hooks a user registered run as before; the hooks before the first and after the last module of a fused group run before and after the fused module.", "quantifier": "all module trees, all sets of observable modules, all uses of modules on quantized and other values, all hooks", "why_tests_cant": "Shared modules, hooks and mixed models are rare in tests, and a lost hook or observer raises no error.", "anchors": ["tinynn/graph/quantization/quantizer.py: QATQuantizer.prepare_qat, PostQuantizer.prepare_qat", "tinynn/graph/quantization/fused_modules.py: gen_fuse_known_modules_wrapper"]}
{"id": "C141", "title": "An epoch takes the steps and schedules it was configured with", "statement": "An epoch trains on the batches of the loader in order up to the allowed number of iterations, each step with the gradient of its batch alone and the rate in force; the warm-up advances once per iteration of the warm-up, the scheduler per iteration once per iteration after it, with or without a teacher; validation returns the accuracy over all samples whatever the sizes of the batches, and calibration shows the first batches to the observers.", "quantifier": "all loaders, models, optimizers, lengths of the warm-up, limits of iterations and sequences of epochs", "why_tests_cant": "A wrong rate or a scheduler that is one step off changes the training only slightly, and a test cannot tell it from noise.", "anchors": ["tinynn/util/cifar10.py: train_one_epoch, train_one_epoch_distill, validate, calibrate, compute_accuracy", "tinynn/util/train_util.py: AverageMeter"]}
{"id": "C142", "title": "Switched-off layers stay off, and quantize() copes with the files of earlier runs", "statement": "A layer of the rewritten model stays in floating point exactly if the layer configuration switches it off, by its entry, its fused group or the default, or it cannot be quantized; quantizing again with the configuration that was written decides the same, also after an entry was changed; and whatever files earlier, possibly interrupted, runs left in the working directory, quantize() returns the rewriting of the given model, keeping the user's changes of the generated code unless told to overwrite it.", "quantifier": "all graphs, configurations, fuse rules, options, models, and histories of completed and interrupted runs", "why_tests_cant": "Crash points and histories of runs are not enumerated by tests, and the tests of the repository start from an empty directory.", "anchors": ["tinynn/graph/quantization/quantizer.py: QATQuantizer.quantize, rewrite_quantize_graph, is_fusable", "tinynn/graph/tracer.py: TraceGraph.generate_code"]}
{"id": "C143", "title": "No operator of the file writes over the tensor of another", "statement": "In a converted file every output of every operator, whether something reads it or not, is the index of a tensor of its own; running an operator therefore changes no value but its results.", "quantifier": "all graphs of operators with several outputs, all lists of the model, all orders of the tensors in the file", "why_tests_cant": "Which outputs are unread and which are put into lists varies without bound, and the number an unread output gets depends on the order of a Python set.", "anchors": ["tinynn/converter/operators/optimize.py: GraphOptimizer.connect_unused_tensors_pass, is_multi_output_op_node", "tinynn/converter/operators/graph.py: CommonGraph.add_outputs, collect_tensor_buffers, collect_operators"]}
{"id": "C144", "title": "Preparing and converting leave PyTorch's own tables and classes as they were", "statement": "prepare_qat of the quantizers and convert change tables and class attributes of PyTorch for their own use; whatever is called, in whatever order and however often, and whether the calls return or raise, PyTorch's tables and classes are afterwards what they were before, so other uses of PyTorch's quantization in the same process are not affected.", "quantifier": "all histories of preparations and conversions, returning or raising, all versions of PyTorch, all contents of the tables", "why_tests_cant": "Tests run one flow per process and look at the returned model; leftovers show only in later, unrelated code, after failures, or after many runs.", "anchors": ["tinynn/graph/quantization/quantizer.py: QATQuantizer.prepare_qat, QATQuantizer.convert, PostQuantizer.prepare_qat, FUSE_QAT_MODULES_CUSTOM, FUSE_QAT_MODULES_CVT"]}
{"id": "C145", "title": "In ONNX models exactly the activations that leave the quantized part are not quantized", "statement": "With the ONNX backend, prepare_onnx_export switches off the activation quantizer of a layer exactly if the layer's result is only dequantized on its way to the outputs of the model; every activation that a quantized layer reads stays quantized, and finding these layers takes time linear in the model.", "quantifier": "all acyclic graphs of layers, stubs and functions, all outputs", "why_tests_cant": "Graphs are unbounded and the tests of the repository export chains only.", "anchors": ["tinynn/graph/quantization/quantizer.py: QATQuantizer.prepare_qat (leaf_nodes), QATQuantizer.prepare_onnx_export"]}
{"id": "C146", "title": "Dropout of a converted model is PyTorch's dropout", "statement": "A dropout layer of the converted model does nothing in evaluation mode, and in training mode is the same random function as in PyTorch: every element is zeroed with probability p independently of the others and the rest is divided by 1 - p, so the mean of the result is the input.", "quantifier": "all probabilities 0 <= p <= 1, all shapes, all inputs and all samples", "why_tests_cant": "A distribution cannot be settled by sampling, and the layer is turned off in the tests.", "anchors": ["tinynn/converter/operators/torch/aten.py: ATenDropoutOperator, ATenFeatureDropoutOperator"]}
{"id": "C147", "title": "TensorRT's integer operators read quantized tensors and nothing else is quantized", "statement": "In a model prepared for TensorRT every tensor read by a convolution, linear layer, LSTM or average pooling goes through one quantizer shared by all such readers, every operator is handed the same tensors in the same order as before, all other operators are handed them unquantized, and the only activation quantizers that work are these.", "quantifier": "all models: any number of operators, any tensors read by any of them, any module tree", "why_tests_cant": "Which operator reads which result of which other operator is unbounded; tests look at a few networks where every layer has one input.", "anchors": ["tinynn/graph/quantization/quantizer.py: rewrite_quantize_graph_for_tensorrt, TENSORRT_OBSERVED_NODES, prepare_qat_prep", "tinynn/graph/tracer.py: insert_between"]}
{"id": "C148", "title": "The quantizers repeated for ONNX export change no value", "statement": "prepare_onnx_export puts, in front of a quantized operator that reads a tensor through operators without a quantizer of their own, the quantizer the tensor had last; since its values are on that grid already, the model computes the same as before, and preparing never fails.", "quantifier": "all prepared models, all inputs, all quantizers and all operators in between", "why_tests_cant": "Which of several ways to an operator the search takes first depends on the whole graph; a test with one network looks at one way.", "anchors": ["tinynn/graph/quantization/quantizer.py: prepare_qat_prep (swap_nodes), prepare_onnx_export (get_pre_hook, get_hook_func)"]}
{"id": "C149", "title": "Quantizing a language model replaces exactly its linear layers", "statement": "quant_fc replaces, in place, every linear layer of the model whose name does not contain lm_head by a quantized layer made from it and leaves everything else as it is; a layer that cannot be quantized stops it with all layers usable, and a second call does nothing.", "quantifier": "all models (trees of named modules, with and without sharing), all sets of names to skip, all layers that can or cannot be quantized", "why_tests_cant": "The layers of the caller's model are emptied while the model is walked; which names then lead to an emptied layer depends on how modules are shared in it.", "anchors": ["tinynn/llm_quant/modules.py: quant_fc, QLinear.__init__", "tinynn/llm_quant/util.py: get_submodule_with_parent_from_name"]}
{"id": "C150", "title": "The nodes of a traced graph are the calls made by the model's own code", "statement": "Tracing a model records one node for every call its own code makes to a layer or to a function of PyTorch, in order, and none for the calls made inside of layers and functions; afterwards the tracer is ready for the next model.", "quantifier": "all forward passes: all nestings of layers, blocks and functions, with and without exceptions that the model catches", "why_tests_cant": "How deep layers call functions and other layers is up to PyTorch and the model; the bookkeeping is global and shared by all of them.", "anchors": ["tinynn/graph/tracer.py: no_catch, new_func_gen, hook_modules (_submodule_pre_tracer, _submodule_tracer), lock, skip_modules"]}
{"id": "C151", "title": "The expressions for layers in a rewritten forward function lead to these layers", "statement": "When a model is rewritten in place, the new forward function refers to each of the model's own layers by an expression that leads to exactly this layer, and the name of the layer can be got back from the expression when the layer is replaced.", "quantifier": "all models: all nestings of blocks, sequences, lists and dictionaries, all names of layers", "why_tests_cant": "Whether an expression is right depends on every name and container on the way; tests use the names of a few known networks.", "anchors": ["tinynn/graph/tracer.py: TraceGraph.__tag_nodes, __gen_forward_code, inplace_commit, get_submodule_with_parent_from_name, update_submodule_in_node"]}
{"id": "C152", "title": "A generated model returns its results in the form in which the model returned them", "statement": "A caller takes the same tensors out of the result of a generated model, by the same positions, names or attributes, as out of the result of the model it was generated from.", "quantifier": "all models and everything they may return: tensors, sequences, dictionaries, objects, with tensors, sequences of tensors and other things in them", "why_tests_cant": "The results may be nested and mixed in any way; tests use models that return one tensor or a tuple of tensors.", "anchors": ["tinynn/graph/tracer.py: add_output_node, _model_tracer, TraceGraph.__gen_forward_code (_gen_output_node)"]}
{"id": "C153", "title": "A converted operator reads the constant its operator reads, whoever else reads it", "statement": "Arithmetic with a constant tensor and indexing by a constant tensor give, after conversion to TFLite, what they gave in PyTorch, also when several operators read the same constant.", "quantifier": "all models: all sequences of such operators, all constants and values, all other operands", "why_tests_cant": "A constant is prepared for the first operator that reads it; whether the others can use it depends on all their types and sizes.", "anchors": ["tinynn/converter/operators/torch/base.py: find_or_create_input, to_tfl_tensors, elementwise_binary", "tinynn/converter/operators/torch/aten.py: ATenIndexOperator, ATenIndexSelectOperator", "tinynn/converter/operators/graph.py: CommonGraph.add_nodes, add_operator"]}
{"id": "C154", "title": "Cutting an LSTM with a projection changes nothing beyond its masks", "statement": "An LSTM with a projection (proj_size) from which the pruner has cut units, features of the output and features of the input computes, on the kept features, what it computed with the masks before, and ends in the same states.", "quantifier": "all stacks of such layers with one or two directions, all sizes, weights, activations, sequences, all choices of removed units and features", "why_tests_cant": "The rows of four gates, the recurrent columns, the projection and the columns of the next layer are cut by different index lists; the outputs depend on all of them through all time steps and layers.", "anchors": ["tinynn/graph/modifier.py: RNNChannelModifier.register_mask, modify_input, modify_output"]}
{"id": "C155", "title": "The states of LSTM layers can be found in a converted model", "statement": "parse_lstm_states, given a converted model, returns the indices of exactly the state tensors of its LSTM operators: hidden state before cell state, forwards before backwards, each once.", "quantifier": "all converted models: any number of LSTM layers with one or two directions, written as one operator or two per layer, any other operators, any numbering of the tensors", "why_tests_cant": "Which positions of the operators hold states and which tensors are variables follows from index arithmetic in the converter for every layer and direction.", "anchors": ["tinynn/converter/utils/tflite.py: parse_lstm_states", "tinynn/converter/operators/torch/aten.py: ATenLstmOperator", "tinynn/converter/operators/graph.py: CommonGraph.collect_tensor_buffers"]}
{"id": "C156", "title": "Lazily constructed objects get the arguments they were given", "statement": "An object whose construction is put off (LazyObject) is constructed, each time, from the values its arguments have then: plain values, the current copies of other such objects, the values of expressions.", "quantifier": "all histories of creating objects, constructing them anew and changes of the expressions, all arguments by position and keyword", "why_tests_cant": "Objects depend on each other and on expressions that change between constructions.", "anchors": ["tinynn/util/util.py: LazyObject, LazyExpression"]}
{"id": "C157", "title": "Hooks of layers survive fusing for quantization", "statement": "After layers are fused for quantization, the forward hooks registered on them are called as before: the same hooks, each once per run, in the same order, with the same values; and the results are the same.", "quantifier": "all groups of layers the fuser adds (transposed convolution and batch norm; batch norm and convolution, with or without ReLU), in training and evaluation, with any hooks on any of the layers, for all inputs", "why_tests_cant": "Hooks may change what passes through, and which of them are moved, copied or dropped depends on the layer and mode; a test looks at one arrangement.", "anchors": ["tinynn/graph/quantization/fused_modules.py: gen_fuse_known_modules_wrapper, fuse_convtranspose_bn, fuse_bn_conv, fuse_bn_conv_relu"]}
{"id": "C158", "title": "Checkpoints of fused transposed convolutions load in both formats", "statement": "Loading a checkpoint into a fused transposed convolution with batch norm gives the values stored, whether the entries of the batch norm are stored in the layer itself (first version) or in its batch norm (second version, also when the checkpoint claims to be of the first); entries of other layers are not touched, and only missing entries are reported missing.", "quantifier": "all checkpoints, all places of the layer in the model, all values, strict or not", "why_tests_cant": "The entries are renamed one after another in the dictionary that all layers are loaded from.", "anchors": ["tinynn/graph/quantization/qat_modules.py: _ConvTransposeBnNd._load_from_state_dict"]}
{"id": "C159", "title": "Sizes read by a traced model are sizes of the tensors it reads them from", "statement": "If a model reads x.shape of several tensors, the traced graph (and the code generated from it) reads the size of each of the same tensors, so it computes the same sizes for inputs of other sizes than the one used for tracing.", "quantifier": "all sequences of reads, all sizes when tracing and when running, all addresses the memory allocator may give to the objects read", "why_tests_cant": "Objects are identified by their addresses, which Python uses again for new objects; which addresses are used again differs between runs.", "anchors": ["tinynn/graph/tracer.py: new_getattr_gen, original_values_for_tracked_objects"]}
{"id": "C160", "title": "Types named in a model stay those types when it is traced", "statement": "A traced model passes the same types of elements (torch.dtype) to functions as the original: types it names stay what they are, and types it reads from tensors are those of the same tensors, also for inputs of other types than the one used for tracing.", "quantifier": "all sequences of reading types of tensors and passing types to functions, all types of the tensors when tracing and when running", "why_tests_cant": "Which node a type is attributed to depends on everything read before it, and shows only with inputs of another type.", "anchors": ["tinynn/graph/tracer.py: new_getattr_gen, TraceFunction.parse_args, add_forward_node"]}
{"id": "C161", "title": "Layers whose construction was not seen are written with the settings they have", "statement": "For a layer that was copied, loaded or changed after its construction, the constructor call in the generated code gives every parameter of the constructor the value the layer has, strings included.", "quantifier": "all constructors, all layers and attribute values, all ways in which a layer's description reads its string attributes", "why_tests_cant": "Which arguments survive depends on the signature, on the class's list of constants, on the characters of strings and on the source line that reads them.", "anchors": ["tinynn/graph/tracer.py: gen_module_constrctor_line, new_module_getattr_gen"]}
{"id": "C162", "title": "A traced graph that is run on other inputs holds the tensors of these inputs", "statement": "After a traced graph has been called with inputs, every node of it has as input tensors what its predecessors produce for these inputs (or its constants), and keeps what it computes from them; calling works for every traced graph.", "quantifier": "all graphs with distinct names, in every order of their list of nodes, all functions at the nodes, all inputs, given singly or in lists", "why_tests_cant": "The values come from a table filled along the way, and tensors of the previous run are still in the nodes; whether one of them is left depends on the whole graph.", "anchors": ["tinynn/graph/tracer.py: TraceGraph.__call__"]}
{"id": "C163", "title": "Simulated bfloat16 training rounds every number to the nearest bfloat16 number", "statement": "A model prepared by BF16Quantizer passes on, behind every layer, the nearest bfloat16 number of every float element, ties going to the even one, wherever it lies in the layer's result, and passes everything else unchanged and in the same form; switched off it passes everything unchanged.", "quantifier": "all float32 numbers, all values built of tensors, lists, tuples and dictionaries, all histories of switching on and off", "why_tests_cant": "There are 2^32 numbers and unboundedly many nested values and histories.", "anchors": ["tinynn/graph/quantization/fake_quantize.py: FakeQuantizeBFloat16", "tinynn/graph/quantization/quantizer.py: BF16Quantizer.quantize"]}
{"id": "C164", "title": "The identity pruner works with the settings it documents", "statement": "An IdentityChannelPruner considers all channels of every prunable operation whatever rates its configuration asks for (sparing the last linear layer unless told otherwise), moves the constants of removed channels into the next layer unless its configuration switches this off, accepts a dictionary, the path of a file, or nothing, and leaves the dictionary as it was.", "quantifier": "all configurations, all models and all groupings of their operations", "why_tests_cant": "The settings pass through two constructors and a parser, each of which may overwrite what the other set, for every combination of entries.", "anchors": ["tinynn/prune/identity_pruner.py: IdentityChannelPruner.__init__", "tinynn/prune/oneshot_pruner.py: OneShotChannelPruner.__init__, parse_config"]}
{"id": "C165", "title": "Sample inputs reach the inputs of the converted model, and the model handed in comes back as it was", "statement": "For every sample input (a tensor, a list of tensors, or lists of lists) the graph that is converted has one input per tensor, in their order and with the layout flag asked for; inputs_for_tflite returns one array per sample input in the layout the converted model takes; a model that is handed to the converter has the same mode and device afterwards; and convert can be called again.", "quantifier": "all sample inputs, all values of input_transpose and nchw_transpose, all kinds of models and all sequences of calls", "why_tests_cant": "The shapes of nested arguments, flag lists and call sequences are unbounded; tests convert one model once and do not look at the model afterwards.", "anchors": ["tinynn/converter/base.py: TFLiteConverter.__init__, init_flatten_inputs, init_input_transpose, init_jit_graph, init_lowered_module, init_common_graph, inputs_for_tflite", "tinynn/converter/operators/graph.py: add_nodes, check_tensor"]}
{"id": "C166", "title": "The largest elements of a converted model are PyTorch's", "statement": "For every row and every k, the converted torch.topk returns the same elements in the same order as PyTorch, at the same places, and a call that TFLite cannot express (another axis, the smallest elements, no order) is refused.", "quantifier": "all rows, all k up to the length of the row, all axes and flags, and every answer PyTorch may give", "why_tests_cant": "PyTorch leaves open which of several equal elements it takes, so that the claim ranges over all answers it may give for every row.", "anchors": ["tinynn/converter/operators/torch/aten.py: ATenTopkOperator"]}
{"id": "C167", "title": "A NetAdapt pruner can be constructed with the settings it documents", "statement": "For every configuration with the required settings in their documented types and ranges, and exactly one of budget and budget_ratio, the settings are read, the budget is the given one or the ratio of the model's operations rounded down, and the pruner is constructed for every model with an operation to prune.", "quantifier": "all configurations, all models and all numbers of operations of the model", "why_tests_cant": "The claim ranges over all configurations and models; that no pruner at all can be constructed is a statement about every one of them.", "anchors": ["tinynn/prune/netadapt_pruner.py: NetAdaptPruner.__init__, parse_config", "tinynn/prune/base_pruner.py: parse_config", "tinynn/prune/oneshot_pruner.py: OneShotChannelPruner.__init__"]}
{"id": "C168", "title": "Exported files lie together and describe every result", "statement": "For every directory and model name, export_converter_files writes name.pt and name.json and names name.tflite, all in the directory; and for every model the configuration has one entry per returned tensor, from left to right through nested tuples, with its type and the flag that was asked for.", "quantifier": "all paths, all nestings of results, all numbers of inputs and all flags", "why_tests_cant": "The claim ranges over all texts a path can be and over results nested to any depth.", "anchors": ["tinynn/util/converter_util.py: export_converter_files, generate_converter_config, tensor_config"]}
{"id": "C169", "title": "Powers and reciprocals of a converted model are PyTorch's", "statement": "For every tensor and every exponent, a converted torch.pow gives PyTorch's power of every element or is refused, and a converted torch.reciprocal gives PyTorch's reciprocal.", "quantifier": "all elements of floating-point and integer tensors, and all exponents, given as tensors or Python numbers", "why_tests_cant": "Elements and exponents are unbounded; tests use floating-point tensors and a few exponents.", "anchors": ["tinynn/converter/operators/torch/aten.py: ATenPowOperator, ATenReciprocalOperator", "tinynn/converter/operators/torch/base.py: elementwise_binary"]}
{"id": "C170", "title": "A pruner that trains uses the items it was given", "statement": "For every configuration and context, an ADMM or NetAdapt pruner trains with the optimizer and criterion of its own setting, else of the general setting, else of the context, and with the other items of the context; it is refused exactly if an item it needs is missing; and the context of one pruner does not change what another one trains with.", "quantifier": "all configurations, all contexts and all sequences of pruners made with one context", "why_tests_cant": "The claim ranges over all combinations of settings and over what earlier pruners did to the context.", "anchors": ["tinynn/prune/base_pruner.py: parse_context", "tinynn/prune/admm_pruner.py: ADMMPruner", "tinynn/prune/netadapt_pruner.py: NetAdaptPruner"]}
