{
 "claims": [
  {
   "property": "C01",
   "status": "proved",
   "theorems": [
    "Verif.Props.C01_transpose_chain",
    "Verif.Props.C01_noop_transpose"
   ],
   "note": "Chains of any length; a removed no-op transpose is the identity."
  },
  {
   "property": "C02",
   "status": "proved",
   "theorems": [
    "Verif.Props.C02_nhwc_wrapping",
    "Verif.Props.C02_last_dim_wrapping"
   ],
   "note": "Wrapping transposes of channels-last operators and of last-dimension operators."
  },
  {
   "property": "C03",
   "status": "proved",
   "theorems": [
    "Verif.Props.C03_transpose_to_reshape"
   ],
   "note": ""
  },
  {
   "property": "C04",
   "status": "partial",
   "theorems": [
    "Verif.Props.C04_lower_transpose_partial",
    "Verif.Props.C04_lowering_uses_inverse",
    "Verif.Props.C04_lower_transpose_false",
    "Verif.Props.C04_pixel_shuffle_false",
    "Verif.Props.C04_size_one_false"
   ],
   "note": "False in general: the code lowers with perm where the inverse is needed. Proved for the permutations where the two agree, with counterexamples."
  },
  {
   "property": "C05",
   "status": "proved",
   "theorems": [
    "Verif.Props.C05_reshape_chain"
   ],
   "note": ""
  },
  {
   "property": "C06",
   "status": "proved",
   "theorems": [
    "Verif.Props.C06_simple_reshape"
   ],
   "note": ""
  },
  {
   "property": "C07",
   "status": "partial",
   "theorems": [
    "Verif.Props.C07_reshape_mapping_partial",
    "Verif.Props.C07_scalar_false"
   ],
   "note": "False for a rank-0 shape against a rank>=1 shape (IndexError); proved for all other pairs."
  },
  {
   "property": "C08",
   "status": "proved",
   "theorems": [
    "Verif.Props.C08_slice_chain"
   ],
   "note": "Any chain length and rank."
  },
  {
   "property": "C09",
   "status": "partial",
   "theorems": [
    "Verif.Props.C09_gather_chain_partial",
    "Verif.Props.C09_gather_removed_false",
    "Verif.Props.C09_gather_repeated_false"
   ],
   "note": "The fused gather is always equivalent; removal is proved for permutations and false for other sorted index vectors."
  },
  {
   "property": "C10",
   "status": "proved",
   "theorems": [
    "Verif.Props.C10_same_padding",
    "Verif.Props.C10_output_length",
    "Verif.Props.C10_transpose_conv_slice"
   ],
   "note": ""
  },
  {
   "property": "C100",
   "status": "partial",
   "theorems": [
    "Verif.Props.C100_unchanged_partial",
    "Verif.Props.C100_layers",
    "Verif.Props.C100_graph",
    "Verif.Props.C100_frozen_false",
    "Verif.Props.C100_error_false"
   ],
   "note": "Proved when the run succeeds and all modules are in the mode of the model; the contents of both reports are proved without that condition. Refuted otherwise: model.train() at the end puts a frozen normalization layer into training mode (C100_frozen_false), and an error in the run leaves the model in evaluation mode with hooks, without fake quantization and observers (C100_error_false)."
  },
  {
   "property": "C101",
   "status": "partial",
   "theorems": [
    "Verif.Props.C101_calibration",
    "Verif.Props.C101_restored",
    "Verif.Props.C101_layers_partial",
    "Verif.Props.C101_shared_false",
    "Verif.Props.C101_constant_false"
   ],
   "note": "Proved: nothing changes during calibration; error bound for every history; which layers are wrapped if no module is shared. Refuted: a shared convolution gets a batch normalization at one of its paths only (C101_shared_false); a channel constant on the calibration data is nearly switched off for all later inputs (C101_constant_false). The returned model is in training mode; evaluation mode is what is compared."
  },
  {
   "property": "C102",
   "status": "proved",
   "theorems": [
    "Verif.Props.C102_error",
    "Verif.Props.C102_network",
    "Verif.Props.C102_all",
    "Verif.Props.C102_overflow_false"
   ],
   "note": "For well-formed networks and fresh new names. C102_overflow_false: a constant of 65520 or more becomes infinite. half_exists: every rational has a rounding. A constant that is itself an output of the model stays float32. Tensor contents other than the rounding are abstract."
  },
  {
   "property": "C103",
   "status": "partial",
   "theorems": [
    "Verif.Props.C103_sound",
    "Verif.Props.C103_complete_partial",
    "Verif.Props.C103_partition",
    "Verif.Props.C103_single",
    "Verif.Props.C103_cycle_false",
    "Verif.Props.C103_order_false"
   ],
   "note": "Grouping is sound, a partition, and complete for chains of steps each through one consumer (so complete with one producer). Connections that need several consumers with several producers are missed: the pass over the consumers is made once (result depends on their order) and cycles are never found, so mismatched channels can be pruned."
  },
  {
   "property": "C104",
   "status": "partial",
   "theorems": [
    "Verif.Props.C104_float",
    "Verif.Props.C104_quantized",
    "Verif.Props.C104_relu_partial",
    "Verif.Props.C104_relu_false",
    "Verif.Props.C104_training_false"
   ],
   "note": "Proved in evaluation mode (any rank, any field, any square-root function) and for quantized layers without ReLU. Refuted: in training mode the running statistics are used; quantized::batch_norm2d_relu loses its ReLU (RELU is passed in the place of another argument), which shows when the output's zero point is not its smallest value, and is right otherwise."
  },
  {
   "property": "C105",
   "status": "partial",
   "theorems": [
    "Verif.Props.C105_layout",
    "Verif.Props.C105_succeeds",
    "Verif.Props.C105_tuple_false",
    "Verif.Props.C105_returned_input_false",
    "Verif.Props.C105_edges_partial",
    "Verif.Props.C105_edges_false"
   ],
   "note": "Proved for every valid graph and all flags: if the passes succeed, the converted graph on channels-last inputs returns the channels-last outputs (C105_layout); sufficient conditions for success (C105_succeeds). Missing because false of the code: flags for outputs given as a tuple always raise, and for inputs if one is None (C105_tuple_false); a model that returns its four-dimensional input cannot be converted with the default flags (C105_returned_input_false); edges are deleted by stale numbers when a dequantized output with other users is listed after another output made later, so the edge to the output is lost (C105_edges_false; correct otherwise: C105_edges_partial)."
  },
  {
   "property": "C106",
   "status": "partial",
   "theorems": [
    "Verif.Props.C106_transpose",
    "Verif.Props.C106_t",
    "Verif.Props.C106_permute_partial",
    "Verif.Props.C106_permute_false",
    "Verif.Props.C106_along",
    "Verif.Props.C106_cumsum",
    "Verif.Props.C106_cat_partial",
    "Verif.Props.C106_cat_false",
    "Verif.Props.C106_broadcast"
   ],
   "note": "Exchanging two axes, t(), softmax, log-softmax, cumsum and broadcast_tensors (and the expansion in copy_) are right for every rank, shape and axis from either end. Defects: permute writes axes counted from the end into TRANSPOSE, which TFLite rejects (C106_permute_false); cat takes the rank of the first tensor and keeps the empty one-dimensional tensors PyTorch leaves out (C106_cat_false). Not modelled: dtype arguments, constants folded at conversion."
  },
  {
   "property": "C107",
   "status": "partial",
   "theorems": [
    "Verif.Props.C107_partial",
    "Verif.Props.C107_succeeds",
    "Verif.Props.C107_applies",
    "Verif.Props.C107_returned_false",
    "Verif.Props.C107_minmax_false",
    "Verif.Props.C107_clamp_false",
    "Verif.Props.C107_div_false",
    "Verif.Props.C107_shared_false"
   ],
   "note": "Proved: for a result that is not also returned, MINIMUM and MAXIMUM whose operands and result have one quantization, constants used once and not halfway between steps, and divisions without one-element operands, outputs are unchanged and the program can run; no exception if a constant operand comes with a dequantized one; the standard pattern is really replaced. False in general: a result that is also returned is rounded; MINIMUM/MAXIMUM compare stored integers of different quantizations; a two-sided clamp between DEQUANTIZE and QUANTIZE ends with an exception (missing key); the divisor of a division by one number stays a float operand of a quantized division; a constant shared by two MINIMUM/MAXIMUM keeps the quantization of the first."
  },
  {
   "property": "C108",
   "status": "partial",
   "theorems": [
    "Verif.Props.C108_partial",
    "Verif.Props.C108_inputs",
    "Verif.Props.C108_known",
    "Verif.Props.C108_none_false",
    "Verif.Props.C108_symmetric_false",
    "Verif.Props.C108_kl_false",
    "Verif.Props.C108_mean_false",
    "Verif.Props.C108_signed_false"
   ],
   "note": "Proved for affine observers that do not use the KL algorithm and a mean that can be stored: parameters while training and after conversion are the ones asked for, exact for an integer mean and off by less than a step otherwise; each input gets its own statistics; built-in statistics cover softmax and log-softmax for unsigned bytes. False: an input without statistics (None) raises; symmetric scheme converts with another scale; KL uses a sixteenth of the scale; a fractional mean is truncated; with signed bytes softmax results above one half cannot be stored. Arithmetic is exact, not float32."
  },
  {
   "property": "C109",
   "status": "partial",
   "theorems": [
    "Verif.Props.C109_partial",
    "Verif.Props.C109_sigmoid",
    "Verif.Props.C109_affine_false",
    "Verif.Props.C109_signed_false",
    "Verif.Props.C109_unquantized_false"
   ],
   "note": "Proved for a zero point of 0 or in the middle and integers that begin at the same kind of end (unsigned to unsigned, signed to signed), and for the fixed parameters of sigmoid. False: affine zero points are replaced by the middle, so part of the range is lost; unsigned to signed puts the zero point outside; a sigmoid that is not quantized raises."
  },
  {
   "property": "C11",
   "status": "partial",
   "theorems": [
    "Verif.Props.C11_pad_conv",
    "Verif.Props.C11_pad_max_pool_partial",
    "Verif.Props.C11_pad_max_pool_false"
   ],
   "note": "Proved for convolutions and for max pooling behind a lowest-value PADV2; false for a zero PAD in front of a max pooling."
  },
  {
   "property": "C110",
   "status": "partial",
   "theorems": [
    "Verif.Props.C110_partial",
    "Verif.Props.C110_only",
    "Verif.Props.C110_ends",
    "Verif.Props.C110_shared_false"
   ],
   "note": "Proved: if every operation without observer is used once, all operands and the result of every quantized concatenation end with one observer (C110_partial); nothing else is changed (C110_only); the pass ends on every finite graph (C110_ends). Missing: with an operation without observer that is used twice, the search can miss a second concatenation that shares an operand, whose own search then gives that operand another observer (C110_shared_false)."
  },
  {
   "property": "C111",
   "status": "partial",
   "theorems": [
    "Verif.Props.C111_partial",
    "Verif.Props.C111_requantize_one",
    "Verif.Props.C111_order_false",
    "Verif.Props.C111_select_false",
    "Verif.Props.C111_requantize_false"
   ],
   "note": "Proved when the operators were selected in the order of their numbers and that order is an order of computation (C111_partial): what the new graph contains, who produces each tensor and that connections say what is read; one requantize at a time is such a case (C111_requantize_one). False otherwise: numbers are not an order of computation after operators were created late (C111_order_false), connections are restored with the wrong operator if the selection is in another order (C111_select_false), and split_requantize adds the replacements of earlier operators again (C111_requantize_false)."
  },
  {
   "property": "C112",
   "status": "partial",
   "theorems": [
    "Verif.Props.C112_partial",
    "Verif.Props.C112_act_false",
    "Verif.Props.C112_quantized_false"
   ],
   "note": "Proved for products without an activation of their own, whatever the shapes, the flag and the activation of the addition (C112_partial). False with an activation on the product, which is lost (C112_act_false), and for quantized operands, whose bias would need another type (C112_quantized_false). Arithmetic is exact; rounding of floating-point sums is not modelled."
  },
  {
   "property": "C113",
   "status": "partial",
   "theorems": [
    "Verif.Props.C113_partial",
    "Verif.Props.C113_ends",
    "Verif.Props.C113_squeeze_false",
    "Verif.Props.C113_unsqueeze_false"
   ],
   "note": "Proved for reshapes that keep the number of axes; the search ends for all reshapes. False when an axis is added or dropped: the axes of the permutation are matched by size in the wrong direction, so a rotation is taken for its inverse and real transposes become a reshape (C113_squeeze_false, C113_unsqueeze_false)."
  },
  {
   "property": "C114",
   "status": "partial",
   "theorems": [
    "Verif.Props.C114_partial",
    "Verif.Props.C114_axes",
    "Verif.Props.C114_pad_false",
    "Verif.Props.C114_cat_false",
    "Verif.Props.C114_sum_false",
    "Verif.Props.C114_rank_false",
    "Verif.Props.C114_twice_false",
    "Verif.Props.C114_axes_false"
   ],
   "note": "Proved for paths of activations and broadcasting operators, reshapes/transposes/slices, pooling, depthwise convolutions, fully connected layers seen along another axis, padding of other axes and concatenations (with other operands in front only if the numbers have not been translated), each reached once; the axis is found if the channels lie along one axis. False for: padding along the channel axis (C114_pad_false), a concatenation behind other operands after pooling (the table is shifted but the numbers are not, C114_cat_false), sums (C114_sum_false), operands with fewer axes in a batch (C114_rank_false), a pooling layer reached along two paths (the first record is reused, C114_twice_false), and axes whose slices have equal sums (C114_axes_false)."
  },
  {
   "property": "C115",
   "status": "partial",
   "theorems": [
    "Verif.Props.C115_list_partial",
    "Verif.Props.C115_number_partial",
    "Verif.Props.C115_readers_false",
    "Verif.Props.C115_unread_false",
    "Verif.Props.C115_number_false",
    "Verif.Props.C115_axis_false"
   ],
   "note": "Proved for a list of sizes when chunks and readers are one to one, and for one size when all chunks lose the same number. False otherwise: a chunk with two readers shifts the sizes of the following chunks, an unread chunk or a reader of two chunks raises IndexError, one size with unequal losses hands a neighbour's channels over, a split along another axis than the pruned one is shrunk too."
  },
  {
   "property": "C116",
   "status": "partial",
   "theorems": [
    "Verif.Props.C116_rows",
    "Verif.Props.C116_transposed_partial",
    "Verif.Props.C116_groups_false",
    "Verif.Props.C116_recurrent",
    "Verif.Props.C116_random_false",
    "Verif.Props.C116_fpgm"
   ],
   "note": "Proved for convolutions, linear layers, transposed convolutions of one group, recurrent layers (both norms, any gates, layers, directions, projection) and the geometric median. False: a transposed convolution with groups gets fewer scores than channels, and each mixes the groups; random scores of a recurrent layer are counted by its inputs instead of its units."
  },
  {
   "property": "C117",
   "status": "partial",
   "theorems": [
    "Verif.Props.C117_partial",
    "Verif.Props.C117_replaced",
    "Verif.Props.C117_calls",
    "Verif.Props.C117_calls_false",
    "Verif.Props.C117_inherit_false",
    "Verif.Props.C117_fail_false",
    "Verif.Props.C117_stale_false",
    "Verif.Props.C117_slots",
    "Verif.Props.C117_slots_false"
   ],
   "note": "Proved for sessions in which nothing fails and no listed attribute is inherited from another listed one: C117_partial (every lookup as before, all flags down), C117_replaced (meanwhile wrappers), C117_calls (recorded calls are the outermost ones), C117_slots (slots of the class and its bases). False in general: an exception in the traced code leaves all wrappers in place and no later session puts the originals back (C117_fail_false); a listed class that inherits an attribute from a class listed before it (Hardtanh and ReLU6) keeps that class's wrapper (C117_inherit_false); a call that fails and is caught leaves the lock set and nothing is recorded any more (C117_calls_false); a function the user replaces between sessions is traced with its old version (C117_stale_false); subclasses' slots are not reverted (C117_slots_false)."
  },
  {
   "property": "C118",
   "status": "partial",
   "theorems": [
    "Verif.Props.C118_partial",
    "Verif.Props.C118_unknown",
    "Verif.Props.C118_detach_false",
    "Verif.Props.C118_getitem_false",
    "Verif.Props.C118_unpack_false",
    "Verif.Props.C118_hidden_false"
   ],
   "note": "Proved for programs in which untracked operators, indexed lists and taken-apart lists read only shapes of values that depend on inputs (C118_partial); an unknown operator in the graph itself is always an error (C118_unknown). False in general: aten::detach is listed as not tracked, so everything computed from x.detach() is the example's value (C118_detach_false); aten::__getitem__ on a list of computed tensors, as in scripted models, freezes the element (C118_getitem_false); a constant in a list that is put together and taken apart becomes a tensor without producer and buffer (C118_unpack_false); unknown operators inside custom functions are not reported and freeze the result (C118_hidden_false)."
  },
  {
   "property": "C119",
   "status": "partial",
   "theorems": [
    "Verif.Props.C119_same",
    "Verif.Props.C119_ends_partial",
    "Verif.Props.C119_output_false",
    "Verif.Props.C119_empty_false"
   ],
   "note": "Proved: C119_same (whenever a RESHAPE is rewritten, the new TRANSPOSE-RESHAPE-TRANSPOSE computes the same tensor, and one of the new transposes undoes an existing one), C119_ends_partial (the pass does not raise on tensors with elements if no consumer of the reshape is a model output). False in the code: C119_output_false (a transpose followed by a reshape that regroups axes and is returned by the model: the branch that resets the hints reads the operator of the output node, which is None, and the conversion stops with an AttributeError at the default optimization level), C119_empty_false (a tensor without elements trips an assertion)."
  },
  {
   "property": "C12",
   "status": "partial",
   "theorems": [
    "Verif.Props.C12_conv_bn",
    "Verif.Props.C12_deconv_bn_partial",
    "Verif.Props.C12_depthwise_deconv_false",
    "Verif.Props.C12_grouped_deconv_aborts"
   ],
   "note": "Proved for every CONV_2D/DEPTHWISE_CONV_2D/FULLY_CONNECTED kernel and ungrouped transposed convolution; false for depthwise transposed convolution (wrong weight shape) and grouped transposed convolution (broadcast aborts)."
  },
  {
   "property": "C120",
   "status": "partial",
   "theorems": [
    "Verif.Props.C120_zeroed",
    "Verif.Props.C120_partial",
    "Verif.Props.C120_when",
    "Verif.Props.C120_inside",
    "Verif.Props.C120_padding_false",
    "Verif.Props.C120_consumers_false",
    "Verif.Props.C120_activation_false",
    "Verif.Props.C120_function_false"
   ],
   "note": "Proved over any ring: C120_zeroed (after a correction the pruned block computes, at every output that reads no padding zeros, what the block computes with the scale of the removed channels set to zero, for all inputs), C120_partial (hence nothing changes if the removed channels carry their constant), C120_when (exactly when the bias is corrected), C120_inside (which outputs read no padding zeros). False in the code: C120_padding_false (outputs at the border of a zero-padded convolution: the correction counts kernel positions outside of the image), C120_consumers_false and C120_activation_false (no correction with several consumers, another activation or no activation: the constant is lost), C120_function_false (F.relu instead of nn.ReLU: the kind test never applies to functions and calling the traced function with a tensor fails an assertion, so pruning stops)."
  },
  {
   "property": "C121",
   "status": "partial",
   "theorems": [
    "Verif.Props.C121_flags_partial",
    "Verif.Props.C121_flags_false",
    "Verif.Props.C121_outputs",
    "Verif.Props.C121_buffer_partial",
    "Verif.Props.C121_output_buffer_false",
    "Verif.Props.C121_close",
    "Verif.Props.C121_mismatch",
    "Verif.Props.C121_opposite",
    "Verif.Props.C121_scale_false",
    "Verif.Props.C121_verdict_false",
    "Verif.Props.C121_raises_false",
    "Verif.Props.C121_overwritten_false"
   ],
   "note": "Proved: C121_flags_partial (a single requested precision is switched on), C121_outputs (the model that is run has the old outputs and exactly the named tensors that a node computes, each once), C121_buffer_partial (the buffer of an input has the size of its data), C121_close and C121_mismatch (values within the tolerance are reported as a match, so a reported difference is one), C121_opposite (a tensor with non-positive product is a match only if it is close). False in the code: C121_raises_false (the second call of build_engine lacks an argument: every comparison ends in a TypeError), C121_overwritten_false (with the argument supplied, the engine overwrites the ONNX model ONNX Runtime loads next: both paths are equal), C121_flags_false (asking for FP16 and INT8 switches FP16 off), C121_scale_false and C121_verdict_false (any positive multiple of a non-zero tensor is reported as a match), C121_output_buffer_false (outputs of unknown batch size get a buffer of negative size)."
  },
  {
   "property": "C122",
   "status": "partial",
   "theorems": [
    "Verif.Props.C122_found_partial",
    "Verif.Props.C122_reshape_partial",
    "Verif.Props.C122_accepted_partial",
    "Verif.Props.C122_overwritten_false",
    "Verif.Props.C122_untracked_false",
    "Verif.Props.C122_small_false",
    "Verif.Props.C122_matmul_second_false",
    "Verif.Props.C122_matmul_producer_false",
    "Verif.Props.C122_matmul_retry_false",
    "Verif.Props.C122_matmul_shared_false",
    "Verif.Props.C122_both_false"
   ],
   "note": "If an assignment of one dimension per tensor fits every operator, the search started at a reshape finds it (for the rearmost dimension with more than two entries), for every graph, and leaves nothing undone. Refuted in general: without a fitting assignment success is still reported when a visited operator's choice is overwritten; an operand no pruned layer reaches gives a KeyError; dimensions of size one or two are never tried; matrix products pass an operand's dimension to the other operand, start the search for the second operand at the first one (KeyError, or its producer is never told) and fail with a KeyError on a second attempt; tensors outside reshapes keep several dimensions."
  },
  {
   "property": "C123",
   "status": "partial",
   "theorems": [
    "Verif.Props.C123_conv_partial",
    "Verif.Props.C123_per_tensor_partial",
    "Verif.Props.C123_other_layers_partial",
    "Verif.Props.C123_fbgemm_partial",
    "Verif.Props.C123_activation",
    "Verif.Props.C123_lstm",
    "Verif.Props.C123_override_partial",
    "Verif.Props.C123_override_silent",
    "Verif.Props.C123_per_channel_ignored_false",
    "Verif.Props.C123_missing_convs_false",
    "Verif.Props.C123_kl_false",
    "Verif.Props.C123_override_false",
    "Verif.Props.C123_override_range_false"
   ],
   "note": "Proved for every module tree and position. False in the code: with backend onnx or tensorrt per_tensor=False has no effect at all, ConvReLU1d and transposed convolutions stay per-tensor, algorithm='kl' does not reach per-channel convolutions, an override returned for a container does not reach the convolutions in it (so set_ptq_fake_quantize does not reach them when per_tensor=False), and the weight range of an override is overwritten."
  },
  {
   "property": "C124",
   "status": "partial",
   "theorems": [
    "Verif.Props.C124_rounded",
    "Verif.Props.C124_prepared",
    "Verif.Props.C124_restored",
    "Verif.Props.C124_roundtrip",
    "Verif.Props.C124_training_lost_false",
    "Verif.Props.C124_deeper_layers_false",
    "Verif.Props.C124_twice_false"
   ],
   "note": "Proved: preparing rounds both first-layer weights of every LSTM, every gate to its own grid with error at most half a step, and touches nothing else; after calibration convert puts back exactly the user's weights in every module. Disproved for the rest: after quantization-aware training convert overwrites the learned LSTM weights with those from before training (C124_training_lost_false); weights of deeper layers and of the reverse direction are never rounded (C124_deeper_layers_false); a second convert on another copy does not restore anything (C124_twice_false)."
  },
  {
   "property": "C125",
   "status": "partial",
   "theorems": [
    "Verif.Props.C125_unsigned",
    "Verif.Props.C125_signed_partial",
    "Verif.Props.C125_signed_false",
    "Verif.Props.C125_sigmoid_partial",
    "Verif.Props.C125_sigmoid_false",
    "Verif.Props.C125_asymmetric_false",
    "Verif.Props.C125_conv_bn",
    "Verif.Props.C125_twice_false",
    "Verif.Props.C125_frozen_partial",
    "Verif.Props.C125_frozen_false"
   ],
   "note": "Proved: unsigned symmetric fake-quantizers and tanh outputs compute the same for every input; signed ones unless the input lies below a range without -128; fused convolutions compute the same for all parameters with a non-zero multiplier; frozen weights stay as they are under any number of calls when observation is off. Disproved for the rest: weights below the range change (C125_signed_false), sigmoid outputs lose half their values though at most 1/128 (C125_sigmoid_partial, C125_sigmoid_false), the default asymmetric configuration fails with an AssertionError (C125_asymmetric_false), preparing twice breaks the model (C125_twice_false), frozen weights drift while observers are on (C125_frozen_false)."
  },
  {
   "property": "C126",
   "status": "partial",
   "theorems": [
    "Verif.Props.C126_restored_partial",
    "Verif.Props.C126_all_or_nothing",
    "Verif.Props.C126_fused_relu_false",
    "Verif.Props.C126_no_bias_false",
    "Verif.Props.C126_nested_false"
   ],
   "note": "Proved for models of layers that have a bias and no fused activation, and all-or-nothing behaviour for all models. Disproved for the rest: a fused ReLU is lost (C126_fused_relu_false), a layer without bias gets an empty bias and fails on every input (C126_no_bias_false), layers inside another module stay quantized (C126_nested_false)."
  },
  {
   "property": "C127",
   "status": "partial",
   "theorems": [
    "Verif.Props.C127_clamped_partial",
    "Verif.Props.C127_untreated",
    "Verif.Props.C127_all_small_false"
   ],
   "note": "Proved whenever some channel has ordinary variance, and for all untreated modules. Disproved when all channels have a tiny variance: the module raises on every later call (C127_all_small_false)."
  },
  {
   "property": "C128",
   "status": "partial",
   "theorems": [
    "Verif.Props.C128_own_line_partial",
    "Verif.Props.C128_unsupported",
    "Verif.Props.C128_other_class",
    "Verif.Props.C128_subclass_false",
    "Verif.Props.C128_reinit_false",
    "Verif.Props.C128_other_attribute_false",
    "Verif.Props.C128_setattr_error_false"
   ],
   "note": "Proved for every history without repeated constructor calls: a module built by a wrapped class from supported arguments gets exactly its own line, which builds the same constants, until one of its constants is set, and from then on a line written from its current state; modules with unsupported arguments never get a line of another module. Disproved for the rest: a module of a subclass built at the address of a freed module gets the freed module's line (C128_subclass_false), re-initialized modules keep the old line (C128_reinit_false), changes of attributes that are not in __constants__ are lost (C128_other_attribute_false), setting a constant of a module built with unsupported arguments raises KeyError (C128_setattr_error_false)."
  },
  {
   "property": "C129",
   "status": "partial",
   "theorems": [
    "Verif.Props.C129_report_partial",
    "Verif.Props.C129_unchanged_partial",
    "Verif.Props.C129_mode_false",
    "Verif.Props.C129_per_channel_false",
    "Verif.Props.C129_input_false"
   ],
   "note": "Proved: the report is exact and sorted whenever the model runs and is quantized per tensor; a model in training mode throughout is left as it was. Disproved for the rest: every other model comes back in training mode (C129_mode_false), a reported per-channel weight makes the analysis fail and leaves observers off (C129_per_channel_false), an unsupported input leaves hooks and switches changed (C129_input_false)."
  },
  {
   "property": "C13",
   "status": "partial",
   "theorems": [
    "Verif.Props.C13_bn_conv_partial",
    "Verif.Props.C13_padding_false",
    "Verif.Props.C13_bias_length_false"
   ],
   "note": "Proved when the convolution reads no padding (or the BN shift is zero) and the bias has the right length; false with zero padding and for a single-output bias."
  },
  {
   "property": "C130",
   "status": "partial",
   "theorems": [
    "Verif.Props.C130_calibrated_partial",
    "Verif.Props.C130_recalibration_false",
    "Verif.Props.C130_per_channel_false"
   ],
   "note": "Proved for one calibration followed by any number of validations, per tensor. Disproved for the rest: calibrating again after a validation has no effect (C130_recalibration_false), per-channel modules raise on the second validating call (C130_per_channel_false)."
  },
  {
   "property": "C131",
   "status": "partial",
   "theorems": [
    "Verif.Props.C131_states_partial",
    "Verif.Props.C131_given_states",
    "Verif.Props.C131_projection_false",
    "Verif.Props.C131_unbatched_false",
    "Verif.Props.C131_two_readers_false"
   ],
   "note": "add_state_input_outputs (2115-2162). Proved: for batched inputs, no projection in LSTMs and results read by one node, one input and one output per state with PyTorch's shapes, in order; layers that are given states get no inputs. The full statement fails: the cell state of an LSTM with proj_size gets the projection's size (C131_projection_false), inputs without a batch dimension give a dimension too many and the feature or time size as batch size (C131_unbatched_false), a result read by two nodes gives inputs but no outputs (C131_two_readers_false)."
  },
  {
   "property": "C132",
   "status": "partial",
   "theorems": [
    "Verif.Props.C132_same_function",
    "Verif.Props.C132_wellformed",
    "Verif.Props.C132_one_reader_partial",
    "Verif.Props.C132_transpose_total",
    "Verif.Props.C132_constant_false",
    "Verif.Props.C132_chain_false",
    "Verif.Props.C132_selected"
   ],
   "note": "branch_reshape_expand_pass, branch_transpose_expand_pass. Proved: the function is the same for every choice of the kept reader, well-formedness is kept, TRANSPOSE never fails, and single readers where no copied operator reads another copied one. The full statement fails: in a chain the copy of the later operator reads the original of the earlier one, which keeps two readers (C132_chain_false); a RESHAPE of a constant that has to be copied is an AttributeError (C132_constant_false; the pass runs before constants are folded)."
  },
  {
   "property": "C133",
   "status": "partial",
   "theorems": [
    "Verif.Props.C133_pruned_partial",
    "Verif.Props.C133_gru_cell",
    "Verif.Props.C133_lstm_cell",
    "Verif.Props.C133_reverse_false",
    "Verif.Props.C133_order_false"
   ],
   "note": "RNNChannelModifier.register_mask, modify_input, modify_output (1847-2131), without proj_size. Proved: outputs and final states of the cut layer are those of the masked layer on the kept units, for RNN, GRU and LSTM stacks with one or two directions and arbitrary activations, if both directions lose the same number of units, Python's sets of kept positions are ascending and, with two directions, removed input features are zero. The full statement fails: the mask of weight_ih_l0_reverse is never registered, so a removed input feature that is not zero (say, after a sigmoid) still reaches the backward direction of the masked layer (C133_reverse_false); sets that are not ascending mix up the gates (C133_order_false, C55_gate_order_false)."
  },
  {
   "property": "C134",
   "status": "partial",
   "theorems": [
    "Verif.Props.C134_folded_partial",
    "Verif.Props.C134_function",
    "Verif.Props.C134_positive_clamp_false",
    "Verif.Props.C134_symmetric_false",
    "Verif.Props.C134_switched_on_false",
    "Verif.Props.C134_default_backend_false"
   ],
   "note": "rewrite_quantize_graph 2836-2871, extra_qat_fusion_postprocess 1162-1208, convert 3247-3261. Proved: for asymmetric quantization and activations whose results include zero, the converted layer agrees exactly up to the upper bound and within one step above it, after every history of batches (and switching observers off); relu and relu6 as functions agree exactly with every scheme. The full statement fails: clamp(x, a, b) with a > 0 lets smaller numbers through, because ranges are widened to hold zero (C134_positive_clamp_false); with asymmetric=False a ReLU/ReLU6 module is dropped but negative numbers still fit (C134_symmetric_false); model.apply(enable_observer/enable_fake_quant), as in the project's examples, turns the quantizer of the layer on again (C134_switched_on_false); with the default backend the model is not usable in PyTorch (C134_default_backend_false, documented)."
  },
  {
   "property": "C135",
   "status": "partial",
   "theorems": [
    "Verif.Props.C135_lists",
    "Verif.Props.C135_restored_partial",
    "Verif.Props.C135_current_partial",
    "Verif.Props.C135_trained_false",
    "Verif.Props.C135_infinity_false",
    "Verif.Props.C135_empty_false",
    "Verif.Props.C135_check_partial",
    "Verif.Props.C135_check_shape_false",
    "Verif.Props.C135_check_count_false",
    "Verif.Props.C135_outputs_partial",
    "Verif.Props.C135_object_false",
    "Verif.Props.C135_flags_partial",
    "Verif.Props.C135_flags_false",
    "Verif.Props.C135_parameters"
   ],
   "note": "Proved: for graphs with distinct names, constants without infinities (small ones) and without inner sizes of zero, creating the generated model and loading the weights succeeds for any initial numbers and gives every constant the numbers it had while tracing and every module those it has now (under the name of its first call), hence the current model when constants did not change; the check is right for equally many outputs of equal shapes; training flags are kept when all are the same. Fails: parameters of the model itself trained (or pruned in value) after tracing are saved with the old numbers (C135_trained_false); an infinity or nan in a small constant makes the file raise NameError (C135_infinity_false); an empty parameter of shape (0,4) cannot be loaded (C135_empty_false); the check passes outputs of other shapes (C135_check_shape_false) or additional outputs (C135_check_count_false), raises UnboundLocalError for results that are objects (C135_object_false), and puts frozen submodules in training mode (C135_flags_false)."
  },
  {
   "property": "C136",
   "status": "partial",
   "theorems": [
    "Verif.Props.C136_modes_partial",
    "Verif.Props.C136_uniform",
    "Verif.Props.C136_shared_false",
    "Verif.Props.C136_frozen_partial",
    "Verif.Props.C136_frozen_method",
    "Verif.Props.C136_apply_false",
    "Verif.Props.C136_eval",
    "Verif.Props.C136_reached",
    "Verif.Props.C136_update_false"
   ],
   "note": "Proved: modes are put back for every hierarchy without shared modules (whatever the flags in between) and for any hierarchy in one mode; frozen layers of PyTorch's fused classes keep their statistics, TinyNN's own when their method is called; eval() stops statistics for every reachable layer. Fails: a module shared by parents in different modes ends in the mode of the later parent (C136_shared_false); train() freezes neither ConvTransposeBn2d nor unfused batch norms, because PyTorch's freeze_bn_stats looks for its own classes (C136_apply_false); update_bn_stats in evaluation mode makes evaluation change statistics (C136_update_false)."
  },
  {
   "property": "C137",
   "status": "partial",
   "theorems": [
    "Verif.Props.C137_same_partial",
    "Verif.Props.C137_unquantized",
    "Verif.Props.C137_matmul_false",
    "Verif.Props.C137_keyword_false"
   ],
   "note": "Proved for calls of add, mul, cat, add_relu, add_scalar and mul_scalar with arguments by place (and dim= of cat). False for FloatFunctional.matmul: the call stays and its object is removed, so the float model raises an AttributeError (C137_matmul_false). False for arguments given by name: torch.add has no parameter y (C137_keyword_false)."
  },
  {
   "property": "C138",
   "status": "partial",
   "theorems": [
    "Verif.Props.C138_bias_partial",
    "Verif.Props.C138_defined",
    "Verif.Props.C138_cell",
    "Verif.Props.C138_hidden_partial",
    "Verif.Props.C138_shared_false",
    "Verif.Props.C138_hidden_false",
    "Verif.Props.C138_missing_false"
   ],
   "note": "Proved for all sequences of operators: biases (if a bias used twice has one unit), cell range, hidden state with output zero point 0, and that the pass only fails for a missing cell output. False in general: a bias tensor shared by gates or operators is stored in the unit of the first (C138_shared_false); the intermediate tensor of the hidden state always has zero point 0, so an output with another zero point is shifted (C138_hidden_false); a cell output that was not quantized is a KeyError (C138_missing_false)."
  },
  {
   "property": "C139",
   "status": "partial",
   "theorems": [
    "Verif.Props.C139_tensor",
    "Verif.Props.C139_code",
    "Verif.Props.C139_operator_partial",
    "Verif.Props.C139_file_partial",
    "Verif.Props.C139_bucketize_false",
    "Verif.Props.C139_var_handle_false"
   ],
   "note": "Proved for all classes except BucketizeOperator (its boundaries, floats in the schema, are written as int32s) and VarHandleOperator (its build fails, since a string field has no vector start function); the converter creates neither. Bytes of the flatbuffers library are not modelled; rounding to single precision is any function that keeps 0."
  },
  {
   "property": "C14",
   "status": "partial",
   "theorems": [
    "Verif.Props.C14_conv_gather",
    "Verif.Props.C14_gather_conv_partial",
    "Verif.Props.C14_gather_conv_false",
    "Verif.Props.C14_gather_subset_false"
   ],
   "note": "Convolution followed by gather is proved; gather followed by convolution is proved when the gather permutes the channels and is false for other index lists."
  },
  {
   "property": "C140",
   "status": "partial",
   "theorems": [
    "Verif.Props.C140_qat_partial",
    "Verif.Props.C140_ptq_partial",
    "Verif.Props.C140_fuse_partial",
    "Verif.Props.C140_hooks_false",
    "Verif.Props.C140_shared_false",
    "Verif.Props.C140_old_false",
    "Verif.Props.C140_fuse_false"
   ],
   "note": "Proved for the observers (QAT with PyTorch 1.13 or later; calibration for modules not used in both kinds of places) and for the hooks of modules with quantized uses. False: the cleanup removes the last forward hook of every module used on other values only, although no observer hook was added (with older PyTorch it removes the user's hook instead of the observer's, which sits in front, and the model cannot run); calibration drops the observer of a module that is used in both kinds of places; fusing raises with two hooks, since a dictionary changes while it is iterated."
  },
  {
   "property": "C141",
   "status": "partial",
   "theorems": [
    "Verif.Props.C141_epoch",
    "Verif.Props.C141_schedule_partial",
    "Verif.Props.C141_iter_false",
    "Verif.Props.C141_distill_false",
    "Verif.Props.C141_distill_partial",
    "Verif.Props.C141_loss",
    "Verif.Props.C141_validate",
    "Verif.Props.C141_calibrate"
   ],
   "note": "False as stated: the scheduler per iteration is stepped already in the last iteration of the warm-up (iteration is increased before the test), and train_one_epoch_distill never steps it. Proved: the parameters after an epoch are those of gradient descent over the used batches with the exact rates; number of iterations and warm-up steps over any epochs; without warm-up one step per iteration; training with a teacher equals training with the mixed loss when there is no scheduler per iteration; validation and calibration in full."
  },
  {
   "property": "C142",
   "status": "partial",
   "theorems": [
    "Verif.Props.C142_off",
    "Verif.Props.C142_rerun",
    "Verif.Props.C142_group_false",
    "Verif.Props.C142_edit_false",
    "Verif.Props.C142_fresh_partial",
    "Verif.Props.C142_crash_false",
    "Verif.Props.C142_cached",
    "Verif.Props.C142_stuck_false",
    "Verif.Props.C142_mix_false",
    "Verif.Props.C142_lost_false"
   ],
   "note": "False as stated: a fused group is listed under its first layer only, but switching that entry off leaves the other layers quantized, because is_fusable stops at a switched-off node before the value is spread; switching a layer off in the written file can make the next run fail with a KeyError, because the file also lists nodes that are then no longer created; an interruption while the configuration is written leaves an empty file on which every later run fails (None is not iterable), also with force_overwrite; without force_overwrite a cut code or weights file is never repaired, old code can be combined with new weights, and remove_weights_after_load makes the next run overwrite edited code. Proved: which layers stay in floating point; stability under any number of reruns; with force_overwrite the right result from every state of the files but a cut configuration; without it the right result or an error over all histories of one model."
  },
  {
   "property": "C143",
   "status": "partial",
   "theorems": [
    "Verif.Props.C143_only",
    "Verif.Props.C143_own_partial",
    "Verif.Props.C143_unpack_partial",
    "Verif.Props.C143_list_false",
    "Verif.Props.C143_dead_false"
   ],
   "note": "Proved for every graph, for operators whose outputs are in no list (own_partial) and for returned lists that are unpacked (unpack_partial); the pass adds only edges from unread tensors to new nodes (only). False: an output that is also put into a list, as in a, b = x.chunk(2); torch.cat([a, y]), makes the pass treat the operator as unpacked, the other output keeps index 0 and SPLIT writes over tensor 0 (list_false); the same holds for operators of which nothing is read, which stay in weakly connected graphs (dead_false)."
  },
  {
   "property": "C144",
   "status": "partial",
   "theorems": [
    "Verif.Props.C144_convert",
    "Verif.Props.C144_inside",
    "Verif.Props.C144_qat_partial",
    "Verif.Props.C144_history",
    "Verif.Props.C144_ptq_false",
    "Verif.Props.C144_crash_false",
    "Verif.Props.C144_custom_false"
   ],
   "note": "Proved: convert puts every class attribute back when it returns (convert) and shows this library's classes to PyTorch meanwhile (inside); QAT preparation puts back LSTM.from_float and no_observer_set when it returns (qat_partial); over all histories the tables hold PyTorch's values or this library's (history). False: post-training preparation never puts no_observer_set back and nests one closure per call, ending in RecursionError for models with nn.GRU (ptq_false); calls that raise leave the replacements, and later calls preserve them (crash_false); PyTorch's default dictionary of custom modules keeps the entry for nn.GRU (custom_false)."
  },
  {
   "property": "C145",
   "status": "partial",
   "theorems": [
    "Verif.Props.C145_leaves",
    "Verif.Props.C145_inner",
    "Verif.Props.C145_reader_false",
    "Verif.Props.C145_func_false",
    "Verif.Props.C145_steps_false"
   ],
   "note": "Proved for every acyclic graph: the layers found are exactly those whose result, passed on by layers without quantizer, is dequantized on a way to an output through layers only (leaves), and layers of which nothing is dequantized keep quantizing (inner). False: a layer whose result is also read by a quantized layer stops quantizing (reader_false); if a function follows the DeQuantStub the layer keeps its quantizer (func_false); the search has no visited set and takes d^k steps for k layers reading d results of the one before (steps_false)."
  },
  {
   "property": "C146",
   "status": "partial",
   "theorems": [
    "Verif.Props.C146_eval",
    "Verif.Props.C146_train_partial",
    "Verif.Props.C146_mean_partial",
    "Verif.Props.C146_one_false",
    "Verif.Props.C146_shape_false",
    "Verif.Props.C146_feature_false"
   ],
   "note": "Proved: identity in evaluation mode (eval); for matrices and single batches of them and 0 <= p < 1 every mask is as likely and gives the same tensor as in PyTorch (train_partial), probabilities sum to 1 and the mean is the input (mean_partial). False: p = 1 raises ZeroDivisionError (one_false); other shapes raise (shape_false); dropout of channels in training mode is passed through (feature_false)."
  },
  {
   "property": "C147",
   "status": "partial",
   "theorems": [
    "Verif.Props.C147_reads_partial",
    "Verif.Props.C147_cell",
    "Verif.Props.C147_order_false",
    "Verif.Props.C147_switches",
    "Verif.Props.C147_everywhere"
   ],
   "note": "Proved when no operator reads two different results of one operator, and for a cell whose two states come last (C147_cell). Defect (C147_order_false): a cell whose input and first state come from one operator and whose second state from another fails an assertion, or silently gets its input as state when the state already has a quantizer."
  },
  {
   "property": "C148",
   "status": "partial",
   "theorems": [
    "Verif.Props.C148_sound",
    "Verif.Props.C148_same_partial",
    "Verif.Props.C148_size_false",
    "Verif.Props.C148_shared_false",
    "Verif.Props.C148_input_false"
   ],
   "note": "Proved: every repeated quantizer is the last one on some way to the tensor (C148_sound), and no value changes if operators without quantizer read one tensor and keep its grid and no module is called twice. Defects: x.view(x0.size(0), -1) makes the next layer use the quantizer of x0 when that way is shorter (C148_size_false); a module called twice gets both quantizers in both calls (C148_shared_false); a quantized input that is dequantized at once makes the export fail with AttributeError (C148_input_false)."
  },
  {
   "property": "C149",
   "status": "partial",
   "theorems": [
    "Verif.Props.C149_layers_partial",
    "Verif.Props.C149_interrupted_partial",
    "Verif.Props.C149_again",
    "Verif.Props.C149_modes",
    "Verif.Props.C149_shared_false",
    "Verif.Props.C149_root_false",
    "Verif.Props.C149_mode_false"
   ],
   "note": "Proved for models in which no module has two names and which are not a single linear layer: with every layer quantizable, each name leads to what it should; however it ends, no layer is left without weights; a second call changes nothing. False of the code: a linear layer used under two names is replaced under one and left without its weight under the other; a model that is a single linear layer raises; the documented mode dynamic_token is refused."
  },
  {
   "property": "C15",
   "status": "proved",
   "theorems": [
    "Verif.Props.C15_tile_removal",
    "Verif.Props.C15_tile_removal_left"
   ],
   "note": ""
  },
  {
   "property": "C150",
   "status": "partial",
   "theorems": [
    "Verif.Props.C150_own_partial",
    "Verif.Props.C150_layer",
    "Verif.Props.C150_reentry_false",
    "Verif.Props.C150_caught_false"
   ],
   "note": "Proved for all nestings in which nothing raises and no layer is called while it is running (one re-entry is harmless, see the example). False of the code: a layer that calls itself two levels deep is recorded twice together with its inner calls; an exception inside of a layer that the model catches leaves the lock set, and nothing after it is recorded."
  },
  {
   "property": "C151",
   "status": "partial",
   "theorems": [
    "Verif.Props.C151_leads_partial",
    "Verif.Props.C151_back_partial",
    "Verif.Props.C151_sequence_false",
    "Verif.Props.C151_dash_false",
    "Verif.Props.C151_numbered_false"
   ],
   "note": "Proved for layers inside attributes of the model with ordinary names (identifiers that are not reserved words), with sequences, lists, dictionaries and names with dashes further down, and numbered children at their place: Python reads the expression as accesses that lead to the layer; for all names without . ( ) \" [ ] the name is got back. False of the code: models that are themselves a sequence, dashes in names directly in the model, and numbered children of a sequence in another order."
  },
  {
   "property": "C152",
   "status": "partial",
   "theorems": [
    "Verif.Props.C152_results_partial",
    "Verif.Props.C152_tensors",
    "Verif.Props.C152_fails",
    "Verif.Props.C152_single_false",
    "Verif.Props.C152_dict_false",
    "Verif.Props.C152_shift_false"
   ],
   "note": "Proved for a tensor and for sequences of at least two tensors or sequences of tensors; for sequences and dictionaries in general the tensors and their order are proved to be kept, and tracing to fail exactly for tensors that were not recorded. Fails, with witnesses: a tuple with one result (r[0] then is a row of the result), dictionaries (names lost), results that are no tensors (the others move up)."
  },
  {
   "property": "C153",
   "status": "partial",
   "theorems": [
    "Verif.Props.C153_operands_partial",
    "Verif.Props.C153_once",
    "Verif.Props.C153_index_false",
    "Verif.Props.C153_types_false",
    "Verif.Props.C153_arithmetic_false"
   ],
   "note": "Proved if operators reading the same constant can share it (sums of one type; indexing inputs of one length, or by indices that are not negative), and for constants used once. Fails, with witnesses: the same indices counted from the end for inputs of two lengths (wrong elements, no error), a constant added to tensors of two types, indices also used in arithmetic (no valid operator)."
  },
  {
   "property": "C154",
   "status": "partial",
   "theorems": [
    "Verif.Props.C154_pruned_partial",
    "Verif.Props.C154_no_unit_false"
   ],
   "note": "Proved for every stack, every choice of removed units and features with at least one removed unit, balanced directions, ascending kept positions (C55) and zero removed inputs of bidirectional layers (the mask of weight_ih_l0_reverse is never registered, C133). Fails if features but no units are removed (the sparsity of the layer is lower than that of its group): the deeper layers keep their columns and PyTorch refuses to run them (C154_no_unit_false)."
  },
  {
   "property": "C155",
   "status": "proved",
   "theorems": [
    "Verif.Props.C155_states",
    "Verif.Props.C155_exactly"
   ],
   "note": "Every converted model with fused LSTM operators; the bytes of the file are C139's."
  },
  {
   "property": "C156",
   "status": "partial",
   "theorems": [
    "Verif.Props.C156_history_partial",
    "Verif.Props.C156_keyword_false",
    "Verif.Props.C156_exception_false"
   ],
   "note": "Every history in which lazy objects are passed by keyword only beside the same object as last positional argument. Otherwise a keyword argument is replaced by the last positional one (C156_keyword_false), or an exception is raised (C156_exception_false): get_next reads the wrong variable."
  },
  {
   "property": "C157",
   "status": "partial",
   "theorems": [
    "Verif.Props.C157_hooks_partial",
    "Verif.Props.C157_raises",
    "Verif.Props.C157_twice",
    "Verif.Props.C157_result_false",
    "Verif.Props.C157_value_false",
    "Verif.Props.C157_lost_false",
    "Verif.Props.C157_two_false"
   ],
   "note": "Holds for the hooks of C157_Safe.  Otherwise false: a hook after a convolution that follows a batch norm is called twice (the layer is copied with its hooks, then they are moved to the copy), a hook between the layers is given another value or is lost, and two hooks to be moved raise, because the loop deletes from the dictionary it iterates over.  A moved hook is given the input of the whole group."
  },
  {
   "property": "C158",
   "status": "proved",
   "theorems": [
    "Verif.Props.C158_first_version",
    "Verif.Props.C158_second_version",
    "Verif.Props.C158_missing"
   ],
   "note": "Entries are named by lists of parts; what the base class does with the renamed entries is PyTorch's."
  },
  {
   "property": "C159",
   "status": "partial",
   "theorems": [
    "Verif.Props.C159_sizes_partial",
    "Verif.Props.C159_traced",
    "Verif.Props.C159_kept",
    "Verif.Props.C159_reused",
    "Verif.Props.C159_reused_false"
   ],
   "note": "Holds if no two tensors that have the same size when traced and different sizes later are read at one address (C159_sizes_partial), in particular with the input used for tracing (C159_traced) and if addresses are not used again (C159_kept).  False otherwise: nothing keeps the size object alive after the read, and a later one at its address with an equal value is taken for it, so the graph reads the size of the first tensor instead (C159_reused, C159_reused_false)."
  },
  {
   "property": "C16",
   "status": "partial",
   "theorems": [
    "Verif.Props.C16_rsqrt_partial",
    "Verif.Props.C16_numerator_false",
    "Verif.Props.C16_ones_shape_false"
   ],
   "note": "Proved with the square root as divisor and a numerator of ones that does not broadcast; false in the two other cases the matcher accepts."
  },
  {
   "property": "C160",
   "status": "partial",
   "theorems": [
    "Verif.Props.C160_types_partial",
    "Verif.Props.C160_traced",
    "Verif.Props.C160_named",
    "Verif.Props.C160_named_after",
    "Verif.Props.C160_named_false",
    "Verif.Props.C160_latest_false"
   ],
   "note": "Holds under the condition of C160_types_partial, in particular for the types when traced (C160_traced) and if no type is read (C160_named).  False otherwise: types are single objects, and an object once read from a tensor is taken for the type of that tensor wherever it occurs later (C160_named_after, C160_named_false), and only the tensor read last counts (C160_latest_false)."
  },
  {
   "property": "C161",
   "status": "partial",
   "theorems": [
    "Verif.Props.C161_settings_partial",
    "Verif.Props.C161_strings_partial",
    "Verif.Props.C161_quoted_twice",
    "Verif.Props.C161_unquoted",
    "Verif.Props.C161_required_missing",
    "Verif.Props.C161_required_false",
    "Verif.Props.C161_optional_false",
    "Verif.Props.C161_required_string_false",
    "Verif.Props.C161_escape_false"
   ],
   "note": "Proved when all parameters are constants of the class, required ones come first and are no strings, and strings need no escape. Defects: a required parameter that is no constant is left out, so the call fails (TransformerEncoderLayer); an optional one is silently reset; a required string has no quotes; strings with backslashes or quotes change or break the text; {self.x!r} in a description is quoted twice, and a string next to repr(self.y) is not quoted."
  },
  {
   "property": "C162",
   "status": "partial",
   "theorems": [
    "Verif.Props.C162_values",
    "Verif.Props.C162_runs_partial",
    "Verif.Props.C162_nested",
    "Verif.Props.C162_nested_false",
    "Verif.Props.C162_stale_false",
    "Verif.Props.C162_more_false"
   ],
   "note": "Values are proved for every run that finishes, and that it finishes for graphs whose nodes read inputs, constants and single items of earlier nodes. Defects: a graph in which a tensor inside a nested output is read (the last state of an LSTM) can never be run; a node with fewer outputs than before keeps old tensors after the new ones; with more outputs the run ends with an IndexError."
  },
  {
   "property": "C163",
   "status": "partial",
   "theorems": [
    "Verif.Props.C163_nearest",
    "Verif.Props.C163_ties",
    "Verif.Props.C163_exact",
    "Verif.Props.C163_overflow",
    "Verif.Props.C163_overflow_finite",
    "Verif.Props.C163_overflow_false",
    "Verif.Props.C163_everywhere_partial",
    "Verif.Props.C163_tuple_false",
    "Verif.Props.C163_dict_false",
    "Verif.Props.C163_switch"
   ],
   "note": "Rounding, ties, switching and the recursion through lists and tuples are proved. Defects: tuples come back as lists; tensors in dictionaries are not rounded; finite numbers from 0x7f7f8000 on become infinite (as bfloat16 has it). NaN is not modelled."
  },
  {
   "property": "C164",
   "status": "partial",
   "theorems": [
    "Verif.Props.C164_settings_partial",
    "Verif.Props.C164_accepts",
    "Verif.Props.C164_off",
    "Verif.Props.C164_default_false",
    "Verif.Props.C164_path",
    "Verif.Props.C164_path_false",
    "Verif.Props.C164_config_false"
   ],
   "note": "Rates, the flag given in the configuration and acceptance of dictionaries are proved. Defects: the constructor switches compensation on, but the constructor of the parent class switches it off before the configuration is read, so by default the pruned network computes something else; a path is never accepted although documented; the caller's dictionary is changed."
  },
  {
   "property": "C165",
   "status": "partial",
   "theorems": [
    "Verif.Props.C165_inputs_partial",
    "Verif.Props.C165_starts",
    "Verif.Props.C165_nested",
    "Verif.Props.C165_nested_false",
    "Verif.Props.C165_arrays_partial",
    "Verif.Props.C165_list_false",
    "Verif.Props.C165_before_false",
    "Verif.Props.C165_model",
    "Verif.Props.C165_model_false",
    "Verif.Props.C165_script",
    "Verif.Props.C165_again_false"
   ],
   "note": "Proved for arguments without lists in lists: inputs in order, flags as asked for, arrays in the right layout, and exactly what happens to the caller's model. Violated: lists in lists stop the conversion; inputs_for_tflite fails for lists of tensors and before convert; a module comes back in evaluation mode on the CPU, also after a conversion that fails; a second call of convert fails for every model with an input."
  },
  {
   "property": "C166",
   "status": "partial",
   "theorems": [
    "Verif.Props.C166_legit",
    "Verif.Props.C166_values",
    "Verif.Props.C166_places_partial",
    "Verif.Props.C166_ties_false",
    "Verif.Props.C166_accepts"
   ],
   "note": "Elements proved for every row and every answer PyTorch may give; places proved for rows without equal elements. Violated: with equal elements the places may differ. Rows hold elements of a linear order, so NaN is left out."
  },
  {
   "property": "C167",
   "status": "partial",
   "theorems": [
    "Verif.Props.C167_read",
    "Verif.Props.C167_budget",
    "Verif.Props.C167_checked",
    "Verif.Props.C167_construct_false",
    "Verif.Props.C167_attribute_false",
    "Verif.Props.C167_size_false"
   ],
   "note": "Reading the settings is proved (C167_read, C167_budget, C167_checked). The constructor is false: the pruner reads skip_last_fc, which its own parse_config never stores, so it raises AttributeError for every configuration and every model with an operation to prune (C167_construct_false, C167_attribute_false). A smallest number of channels of 0 is also accepted (C167_size_false). The number of operations of the model is a parameter."
  },
  {
   "property": "C168",
   "status": "partial",
   "theorems": [
    "Verif.Props.C168_paths",
    "Verif.Props.C168_distinct",
    "Verif.Props.C168_paths_false",
    "Verif.Props.C168_outputs_partial",
    "Verif.Props.C168_outputs_false",
    "Verif.Props.C168_accepts",
    "Verif.Props.C168_nested_false"
   ],
   "note": "The paths are right exactly if the directory and name do not contain '.pt' (C168_paths, witness C168_paths_false). The entries are right for results nested at most twice and, without a list of flags, at most as many results as inputs (C168_outputs_partial, C168_accepts); otherwise results are lost (C168_outputs_false, for every such model) or the export fails (C168_nested_false). Tracing and saving the model are not modelled."
  },
  {
   "property": "C169",
   "status": "partial",
   "theorems": [
    "Verif.Props.C169_float",
    "Verif.Props.C169_int_partial",
    "Verif.Props.C169_fraction_false",
    "Verif.Props.C169_exponent_false",
    "Verif.Props.C169_refused",
    "Verif.Props.C169_reciprocal"
   ],
   "note": "Proved for floating-point tensors (C169_float) and, for integer tensors, for exponents in tensors and whole Python exponents that are not negative (C169_int_partial). False otherwise: the fraction of a Python exponent is cut off, so that a square root gives 1 for every element (C169_fraction_false, C169_exponent_false, for all elements and exponents), and the reciprocal of an integer tensor is a division with operands of different types (C169_reciprocal). Refused: Python numbers as base, 64-bit tensors (C169_refused). Numbers are exact."
  },
  {
   "property": "C17",
   "status": "proved",
   "theorems": [
    "Verif.Props.C17_topological_sort",
    "Verif.Props.C17_collect_operators"
   ],
   "note": "Topological sort and operator collection: for every consistent acyclic graph the order is a permutation in which every producer precedes its consumers."
  },
  {
   "property": "C170",
   "status": "partial",
   "theorems": [
    "Verif.Props.C170_items",
    "Verif.Props.C170_accepts_partial",
    "Verif.Props.C170_empty_false",
    "Verif.Props.C170_shared_false"
   ],
   "note": "Which items are used is proved (C170_items). A context is accepted exactly if all needed items are true for Python (C170_accepts_partial), so an empty validation loader counts as missing (C170_empty_false). The context handed in is changed, so a second pruner takes over the settings of the first (C170_shared_false, for all configurations). The NetAdapt pruner does not reach this point, see C167."
  },
  {
   "property": "C18",
   "status": "proved",
   "theorems": [
    "Verif.Props.C18_tensor_buffers",
    "Verif.Props.C18_missing_output"
   ],
   "note": "Assumes distinct model inputs and distinct tensor objects, as the code's dictionaries by name do."
  },
  {
   "property": "C19",
   "status": "partial",
   "theorems": [
    "Verif.Props.C19_quint8_to_8bit_partial",
    "Verif.Props.C19_qint8",
    "Verif.Props.C19_per_channel",
    "Verif.Props.C19_int16_partial",
    "Verif.Props.C19_symmetric_false",
    "Verif.Props.C19_int16_false"
   ],
   "note": "Proved for quint8/qint8/per-channel storage and for int16 with zero point 0; the symmetric conversion with zero point other than 128 and the int16 conversion with non-zero zero point change the represented reals (negations proved)."
  },
  {
   "property": "C20",
   "status": "proved",
   "theorems": [
    "Verif.Props.C20_hybrid_quantize",
    "Verif.Props.C20_scale_tight",
    "Verif.Props.C20_granularity",
    "Verif.Props.C20_lstm_bias"
   ],
   "note": "Over exact reals and any nearest-integer rounding."
  },
  {
   "property": "C21",
   "status": "partial",
   "theorems": [
    "Verif.Props.C21_versions_partial",
    "Verif.Props.C21_misversioned_one",
    "Verif.Props.C21_sub_false",
    "Verif.Props.C21_tile_false",
    "Verif.Props.C21_space_batch_false",
    "Verif.Props.C21_range",
    "Verif.Props.C21_process_idempotent"
   ],
   "note": "Every operator gets the required version except TILE, SPACE_TO_BATCH_ND/BATCH_TO_SPACE_ND and SUB, for which negations are proved."
  },
  {
   "property": "C22",
   "status": "proved",
   "theorems": [
    "Verif.Props.C22_cat_split"
   ],
   "note": "For every concatenation with more than ten inputs: termination, every emitted operator takes between one and ten inputs, written once and before use, and the value is the concatenation of all inputs in order."
  },
  {
   "property": "C23",
   "status": "partial",
   "theorems": [
    "Verif.Props.C23_group_conv",
    "Verif.Props.C23_group_deconv_partial",
    "Verif.Props.C23_group_deconv_false",
    "Verif.Props.C23_per_channel_false"
   ],
   "note": "Group convolution: proved in full for float and per-tensor weights. Group transposed convolution: proved when no activation is fused; with a fused activation the rewrite drops it (negation proved). Per-channel quantisation scales are not split (negation proved)."
  },
  {
   "property": "C24",
   "status": "partial",
   "theorems": [
    "Verif.Props.C24_keeps_needed",
    "Verif.Props.C24_removes_dead_partial",
    "Verif.Props.C24_connected_false"
   ],
   "note": "Nodes needed for an output are never removed; dead nodes are removed when clean-up runs; the code skips clean-up on a weakly connected graph (negation proved)."
  },
  {
   "property": "C25",
   "status": "proved",
   "theorems": [
    "Verif.Props.C25_merge_constraint",
    "Verif.Props.C25_minus_one",
    "Verif.Props.C25_minus_one_first"
   ],
   "note": "The model follows merge_constraint with its three tables; set elements are integers."
  },
  {
   "property": "C26",
   "status": "proved",
   "theorems": [
    "Verif.Props.C26_merge_group"
   ],
   "note": "Includes termination (explicit iteration bound) and maximality of the blocks. The final group.sort() is any permutation."
  },
  {
   "property": "C27",
   "status": "proved",
   "theorems": [
    "Verif.Props.C27_get_smallest_k"
   ],
   "note": "For every linearly ordered score type (no NaN), including tie-breaking."
  },
  {
   "property": "C28",
   "status": "partial",
   "theorems": [
    "Verif.Props.C28_greedy_partial",
    "Verif.Props.C28_all_pruned_false",
    "Verif.Props.C28_shared",
    "Verif.Props.C28_shared_stop"
   ],
   "note": "Least important first, minimal in each group, at least the requested fraction over the leaf, and something is left in each group whose dependency sets are small enough; otherwise the code can prune every channel (negation proved). Leaves whose centres were pruned through another leaf are missing. When a layer was already pruned through another leaf, a further set is taken exactly while the layer stays within the rate."
  },
  {
   "property": "C29",
   "status": "partial",
   "theorems": [
    "Verif.Props.C29_multiple_partial",
    "Verif.Props.C29_exact_multiple_false"
   ],
   "note": "When the number of dead channels is not a multiple of m the largest multiple is kept. When it already is a multiple nothing is removed at all (negation proved for every such case)."
  },
  {
   "property": "C30",
   "status": "partial",
   "theorems": [
    "Verif.Props.C30_pruned_idx",
    "Verif.Props.C30_view_partial",
    "Verif.Props.C30_view_false",
    "Verif.Props.C30_reshape_removed",
    "Verif.Props.C30_reshape_false",
    "Verif.Props.exists_double"
   ],
   "note": "The pruned index set is exact. view(): right size when the double rounding is exact or the dimension small; off by one for 49 channels (negation). reshape(): writes the removed count instead of the kept count (characterised and negated)."
  },
  {
   "property": "C31",
   "status": "partial",
   "theorems": [
    "Verif.Props.C31_prune_partial",
    "Verif.Props.C31_output_partial",
    "Verif.Props.C31_set_order_false",
    "Verif.Props.C31_layer_norm_false",
    "Verif.Props.ascending_of_few",
    "Verif.Props.C31_layer_norm"
   ],
   "note": "Pruning equals masking for every well-formed network whose kept indices enumerate in ascending order from Python's set; negation with the real CPython set layout at a concatenation; LayerNorm negation. C31_layer_norm says what a pruned LayerNorm computes."
  },
  {
   "property": "C32",
   "status": "partial",
   "theorems": [
    "Verif.Props.C32_gate_rows",
    "Verif.Props.C32_directions_partial",
    "Verif.Props.C32_directions_false"
   ],
   "note": "Gate rows exact. Direction split right when both directions lose the same number of units; negation otherwise."
  },
  {
   "property": "C33",
   "status": "partial",
   "theorems": [
    "Verif.Props.C33_flops_partial",
    "Verif.Props.C33_shared_module_false"
   ],
   "note": "Proved for networks in which no module is used twice and every layer keeps a channel. Negation: a shared ReLU collects the indices of all its uses and the reported number can be negative."
  },
  {
   "property": "C34",
   "status": "partial",
   "theorems": [
    "Verif.Props.C34_search_partial",
    "Verif.Props.C34_plan_meets_target",
    "Verif.Props.C34_plan_exact_partial",
    "Verif.Props.C34_plan_exact_false",
    "Verif.Props.C34_negative_metric_false"
   ],
   "note": "Termination, strict descent and the three reasons for ending are proved for metrics above -1; exactness of the plan's FLOPs when the cost is linear in the channels. Negations: extrapolated quadratic cost misses the target; metrics at or below -1 stop the search early. The step is proved about the method itself: as C167 shows, the constructor of this pruner raises before any step can be taken."
  },
  {
   "property": "C35",
   "status": "partial",
   "theorems": [
    "Verif.Props.C35_function_partial",
    "Verif.Props.C35_balanced_partial",
    "Verif.Props.C35_groups_safe",
    "Verif.Props.C35_dead_channel_false",
    "Verif.Props.C35_grouped_balance_false",
    "Verif.Props.C35_shared_module_false",
    "Verif.Props.C35_network_partial",
    "Verif.Props.C35_step",
    "Verif.Props.C35_order"
   ],
   "note": "Function preservation for non-dead channels and balanced ranges (ungrouped pairs) are proved; dead channels give NaN, grouped second layers mix ranges, and a shared module is rescaled twice (negation theorems). For whole networks: equalizing any pairs any number of times keeps what the network computes (C35_network_partial), each step changes its pair only (C35_step)."
  },
  {
   "property": "C36",
   "status": "partial",
   "theorems": [
    "Verif.Props.C36_conv_bn",
    "Verif.Props.C36_deconv_bn_partial",
    "Verif.Props.C36_bn_conv_partial",
    "Verif.Props.C36_qat_forward_partial",
    "Verif.Props.C36_grouped_deconv_false",
    "Verif.Props.C36_bn_conv_padding_false",
    "Verif.Props.C36_bn_depthwise_false",
    "Verif.Props.C36_qat_zero_gamma_false",
    "Verif.Props.C36_grouped_deconv"
   ],
   "note": "Conv then BN proved for all groups; deconv only with one group, BN then conv only with one group and no padding; QAT forward needs a non-zero scale. Each exclusion has a negation theorem."
  },
  {
   "property": "C37",
   "status": "partial",
   "theorems": [
    "Verif.Props.C37_switches",
    "Verif.Props.C37_rounding_partial",
    "Verif.Props.C37_away_unique",
    "Verif.Props.C37_below_tie_false",
    "Verif.Props.C37_per_channel_false"
   ],
   "note": "Switches and observer input proved in full; rounding proved except within a millionth of the scale below a tie, where it is false; per-channel scales are broadcast along the wrong dimension (negation theorems)."
  },
  {
   "property": "C38",
   "status": "proved",
   "theorems": [
    "Verif.Props.C38_per_channel",
    "Verif.Props.C38_per_token",
    "Verif.Props.C38_per_tensor",
    "Verif.Props.C38_zero_row_false"
   ],
   "note": "All three modes, all bit widths, all rows with a non-zero element; a zero row has no defined result (C38_zero_row_false)."
  },
  {
   "property": "C39",
   "status": "proved",
   "theorems": [
    "Verif.Props.C39_round_trip",
    "Verif.Props.C39_range"
   ],
   "note": "Rows of any even length, all signed 4-bit values."
  },
  {
   "property": "C40",
   "status": "partial",
   "theorems": [
    "Verif.Props.C40_no_bias_partial",
    "Verif.Props.C40_bias_partial",
    "Verif.Props.C40_bias_false",
    "Verif.Props.C40_batch_false"
   ],
   "note": "Proved without a bias for one sequence or two-dimensional input; with a bias the code multiplies it by both scales, and three-dimensional batches fail (negation theorems). The easyquant kernels are not in the repository."
  },
  {
   "property": "C41",
   "status": "partial",
   "theorems": [
    "Verif.Props.C41_best_epoch_partial",
    "Verif.Props.C41_qat_partial",
    "Verif.Props.C41_no_positive_false",
    "Verif.Props.C41_qat_false"
   ],
   "note": "Best epoch proved when some accuracy is positive; otherwise the run fails or loads a stale file. QAT freezes proved for three or more epochs; with fewer, batch norm is never frozen (negation theorems)."
  },
  {
   "property": "C42",
   "status": "proved",
   "theorems": [
    "Verif.Props.C42_average",
    "Verif.Props.C42_error"
   ],
   "note": "All histories; the only error is a zero total weight."
  },
  {
   "property": "C43",
   "status": "partial",
   "theorems": [
    "Verif.Props.C43_round_trip_partial",
    "Verif.Props.C43_accepts",
    "Verif.Props.C43_outputs_false",
    "Verif.Props.C43_parse_false"
   ],
   "note": "Round trip proved under the stated conditions; a single output flag is repeated once per input, so outputs can be lost; prepare_inputs=False always fails (negation theorems)."
  },
  {
   "property": "C44",
   "status": "partial",
   "theorems": [
    "Verif.Props.C44_accepts",
    "Verif.Props.C44_rejects_partial",
    "Verif.Props.C44_unknown_type_false"
   ],
   "note": "All supported combinations accepted, all unsupported rejected except an unknown hybrid weight type, which is accepted (C44_unknown_type_false)."
  },
  {
   "property": "C45",
   "status": "partial",
   "theorems": [
    "Verif.Props.C45_max_pool_partial",
    "Verif.Props.C45_ceil_padding_false",
    "Verif.Props.C45_even_kernel_false",
    "Verif.Props.C45_negative_padding_false",
    "Verif.Props.C45_int16_padding_false"
   ],
   "note": "Sizes and values of max pooling, floor and ceil mode, under the stated conditions; false for larger paddings, even-kernel SAME shortcut, large strides and 16-bit models (negation theorems)."
  },
  {
   "property": "C46",
   "status": "proved",
   "theorems": [
    "Verif.Props.C46_scalar_exact"
   ],
   "note": ""
  },
  {
   "property": "C47",
   "status": "partial",
   "theorems": [
    "Verif.Props.C47_elementwise",
    "Verif.Props.C47_gather",
    "Verif.Props.C47_split",
    "Verif.Props.C47_pad",
    "Verif.Props.C47_mirror_pad",
    "Verif.Props.C47_tile",
    "Verif.Props.C47_slice",
    "Verif.Props.C47_strided_slice",
    "Verif.Props.C47_concat",
    "Verif.Props.C47_unpack",
    "Verif.Props.C47_pack_partial",
    "Verif.Props.C47_pack_input_perm",
    "Verif.Props.C47_binary_partial",
    "Verif.Props.C47_prelu_partial",
    "Verif.Props.C47_reduce",
    "Verif.Props.C47_pack_false",
    "Verif.Props.C47_prelu_vector_false",
    "Verif.Props.C47_prelu_batch_false",
    "Verif.Props.C47_rank_false",
    "Verif.Props.C47_unpack_unused_false",
    "Verif.Props.C47_unused_shape"
   ],
   "note": "All operator classes except PACK with a permutation that moves the packed axis and PRELU with vector slopes or a moved batch axis, where the rewriting is wrong (witnesses); operands of larger rank than the permutation and unused UNPACK outputs make the pass fail (witnesses)"
  },
  {
   "property": "C48",
   "status": "partial",
   "theorems": [
    "Verif.Props.C48_accumulate_partial",
    "Verif.Props.C48_custom_partial",
    "Verif.Props.C48_last_mask",
    "Verif.Props.C48_custom_false",
    "Verif.Props.C48_unsorted_false"
   ],
   "note": "Input and output indices accumulate sorted over every history with save/restore when the first list is ascending; the last registered mask wins. Negations: custom indices are lost by save/restore; a single unsorted list stays unsorted."
  },
  {
   "property": "C49",
   "status": "proved",
   "theorems": [
    "Verif.Props.C49_division"
   ],
   "note": "All assignments of centres to operators; the dictionary's key order is not represented."
  },
  {
   "property": "C50",
   "status": "proved",
   "theorems": [
    "Verif.Props.C50_chains"
   ],
   "note": "All edge lists that form simple paths, in any order."
  },
  {
   "property": "C51",
   "status": "partial",
   "theorems": [
    "Verif.Props.C51_dynamic_slices_partial",
    "Verif.Props.C51_dynamic_slices_false"
   ],
   "note": "Proved when a fused slice has constant bounds (whatever the run-time bounds of an unfused pair); C51_dynamic_slices_false: a second slice whose start is computed at run time is frozen to its traced value."
  },
  {
   "property": "C52",
   "status": "partial",
   "theorems": [
    "Verif.Props.C52_slice_partial",
    "Verif.Props.C52_start_outside_false"
   ],
   "note": "All axis sizes, ranks, stops and positive steps, for a start inside the axis; C52_start_outside_false: a start before the first element or (step 1) behind the end gives an invalid SLICE, and with a step other elements."
  },
  {
   "property": "C53",
   "status": "partial",
   "theorems": [
    "Verif.Props.C53_dead_partial",
    "Verif.Props.C53_removed_partial",
    "Verif.Props.C53_live_channel_false"
   ],
   "note": "Proved when no leaf reads one centre channel in two places with different deadness; negation for batch norm over a concatenation of a tensor with a function of itself."
  },
  {
   "property": "C54",
   "status": "partial",
   "theorems": [
    "Verif.Props.C54_groups_partial",
    "Verif.Props.C54_groups_false"
   ],
   "note": "Proved when every group loses the same number of channels; negation otherwise."
  },
  {
   "property": "C55",
   "status": "partial",
   "theorems": [
    "Verif.Props.C55_gate_order_partial",
    "Verif.Props.C55_gate_order_false"
   ],
   "note": "Proved when the kept rows keep ascending order in CPython's set table; negation for an LSTM with 8 units."
  },
  {
   "property": "C56",
   "status": "partial",
   "theorems": [
    "Verif.Props.C56_partial",
    "Verif.Props.C56_defined",
    "Verif.Props.C56_grouped_false",
    "Verif.Props.C56_padding_false",
    "Verif.Props.C56_after_equalization_false",
    "Verif.Props.C56_groups_partial",
    "Verif.Props.C56_order_false"
   ],
   "note": "Proved for chains of any length of ungrouped or depthwise convolutions that read no padding: whenever the absorption succeeds, the outputs are equal for every input whose pre-activations stay at or above the absorbed amounts. Padding, grouped convolutions and stale batch-norm parameters after equalization are counterexamples.  C56_groups_partial is the loop over a list of groups taken in the order of the chain; C56_order_false shows that another order changes the result."
  },
  {
   "property": "C57",
   "status": "partial",
   "theorems": [
    "Verif.Props.C57_avg_pool_partial",
    "Verif.Props.C57_avg_pool_accepted_partial",
    "Verif.Props.C57_divisor_false",
    "Verif.Props.C57_pool1d_padding_false",
    "Verif.Props.C57_pool1d_partial",
    "Verif.Props.C57_adaptive_pool"
   ],
   "note": "Both settings of count_include_pad and adaptive pooling for every order-independent reduction. divisor_override and one-dimensional pooling with padding are wrong in the code (negations proved); 2-D windows, values over the rationals."
  },
  {
   "property": "C58",
   "status": "partial",
   "theorems": [
    "Verif.Props.C58_unrolled_partial",
    "Verif.Props.C58_fused_partial",
    "Verif.Props.C58_constant_state_false",
    "Verif.Props.C58_second_run_false",
    "Verif.Props.C58_separated_false",
    "Verif.Props.C58_params"
   ],
   "note": "Unrolled (any layers, directions, biases, layout, gate mode; sequence and final states) and fused (uni, bi, mapped bi; first run) agree with PyTorch when constant initial states are zero. Constant nonzero states are lost, a fused LSTM keeps its state between runs, and separated gates with constant zero c fail (negations proved). Exact arithmetic, arbitrary activations; quantized LSTM not modelled."
  },
  {
   "property": "C59",
   "status": "partial",
   "theorems": [
    "Verif.Props.C59_gru_partial",
    "Verif.Props.C59_constant_state_false"
   ],
   "note": "Agrees with PyTorch (sequence and final states) when constant initial states are zero; a constant nonzero state is lost (negation proved). Exact arithmetic, arbitrary activations."
  },
  {
   "property": "C60",
   "status": "partial",
   "theorems": [
    "Verif.Props.C60_nearest_size",
    "Verif.Props.C60_nearest_factor_partial",
    "Verif.Props.C60_nearest_factor_false",
    "Verif.Props.C60_bilinear_size",
    "Verif.Props.C60_bilinear_factor_partial",
    "Verif.Props.C60_bilinear_factor_false"
   ],
   "note": "Nearest and bilinear resizing to a given size: proved for every size. By a scale factor: proved when the resulting size is whole; refuted otherwise. Positions are rational: floating-point rounding of source positions is not modelled."
  },
  {
   "property": "C61",
   "status": "proved",
   "theorems": [
    "Verif.Props.C61_roll",
    "Verif.Props.C61_roll_flat",
    "Verif.Props.C61_flip",
    "Verif.Props.C61_select",
    "Verif.Props.C61_split",
    "Verif.Props.C61_chunk",
    "Verif.Props.C61_unbind",
    "Verif.Props.C61_stack"
   ],
   "note": "roll (with and without dimensions), flip, select, split, chunk, unbind and stack; empty axes (the converter divides by zero) and flip without dimensions excluded"
  },
  {
   "property": "C62",
   "status": "proved",
   "theorems": [
    "Verif.Props.C62_pixel_shuffle",
    "Verif.Props.C62_pixel_unshuffle"
   ],
   "note": "rank 4 inputs, the ones the converter supports"
  },
  {
   "property": "C63",
   "status": "partial",
   "theorems": [
    "Verif.Props.C63_gather",
    "Verif.Props.C63_scatter_partial",
    "Verif.Props.C63_scatter_repeated_false",
    "Verif.Props.C63_scatter_updates_shape"
   ],
   "note": "gather is proved; scatter is proved for indices without repeated targets and refuted for repeated ones (values are added)"
  },
  {
   "property": "C64",
   "status": "partial",
   "theorems": [
    "Verif.Props.C64_index_partial",
    "Verif.Props.C64_broadcast_false",
    "Verif.Props.C64_outer_false",
    "Verif.Props.C64_negative_false",
    "Verif.Props.C64_single_partial",
    "Verif.Props.C64_single_negative_false",
    "Verif.Props.C64_put_partial",
    "Verif.Props.C64_put_constant_false",
    "Verif.Props.C64_put_repeated_false",
    "Verif.Props.C64_put_row_false",
    "Verif.Props.C64_put_infinity_false"
   ],
   "note": "several indices: proved for non-negative indices whose shapes repeat in row-major order; one index: proved, negative constants included; assignment: proved for distinct targets.  Refuted: inner-axis broadcasting, outer broadcasting, negative indices, constant values with a varying input, repeated targets, constant rows"
  },
  {
   "property": "C65",
   "status": "partial",
   "theorems": [
    "Verif.Props.C65_masked_fill_partial",
    "Verif.Props.C65_masked_fill_defined",
    "Verif.Props.C65_masked_infinity_false",
    "Verif.Props.C65_infinite_tensor_false",
    "Verif.Props.C65_clamped_false"
   ],
   "note": "Every element of masked_fill/where equals the selection, for all shapes that broadcast and all finite (and most infinite or NaN) values. Refuted: infinite input under the mask and infinite same-type tensor fill values give NaN; an infinite number is replaced by the largest finite one. Rounding and the sign of zero are not modelled."
  },
  {
   "property": "C66",
   "status": "partial",
   "theorems": [
    "Verif.Props.C66_unfold_partial",
    "Verif.Props.C66_padding_false",
    "Verif.Props.C66_large_false",
    "Verif.Props.C66_fold_partial"
   ],
   "note": "unfold: proved for equal paddings of height and width and images of at most 2^24 elements; refuted for different paddings and for larger images. fold: proved for all paddings, images of at most 2^24 elements."
  },
  {
   "property": "C67",
   "status": "partial",
   "theorems": [
    "Verif.Props.C67_partial",
    "Verif.Props.C67_defined",
    "Verif.Props.C67_fraction_false",
    "Verif.Props.C67_integer_division_false",
    "Verif.Props.C67_rounding_mode_false"
   ],
   "note": "Proved for every operator when the operand's value survives the conversion to the tensor's type and division is not on integers. Refuted: integer tensor with fractional scalar, integer division, division with a rounding mode (ignored). Numbers are exact: overflow and rounding are not modelled."
  },
  {
   "property": "C68",
   "status": "partial",
   "theorems": [
    "Verif.Props.C68_layer_norm",
    "Verif.Props.C68_instance_norm",
    "Verif.Props.C68_group_norm",
    "Verif.Props.C68_var",
    "Verif.Props.C68_std",
    "Verif.Props.C68_var_empty_dims_false"
   ],
   "note": "Layer, instance and group normalisation proved for all shapes, group counts, weights and square-root functions over any field; var and std proved for a non-empty or absent list of axes, every keepdim and correction. An empty list of axes is a counterexample. Rounding of float arithmetic is outside; instance norm with running statistics becomes a batch norm, not part of this model; layer norm without affine parameters and correction=None crash."
  },
  {
   "property": "C69",
   "status": "partial",
   "theorems": [
    "Verif.Props.C69_matmul_partial",
    "Verif.Props.C69_matmul_vector_false",
    "Verif.Props.C69_vector_matmul_refused",
    "Verif.Props.C69_linear",
    "Verif.Props.C69_addmm_partial",
    "Verif.Props.C69_baddbmm_partial",
    "Verif.Props.C69_addbmm_partial",
    "Verif.Props.C69_alpha_false",
    "Verif.Props.C69_addmm_row_bias_false",
    "Verif.Props.C69_addmm_matrix_bias_false"
   ],
   "note": "matmul/mm/bmm (2 to 5 axes, broadcast batches), linear, and addmm/addbmm/baddbmm with alpha = beta = 1 proved over any commutative ring. alpha and beta are ignored, a matrix times a vector emits nothing, a row bias is read as a column bias, a matrix bias is rejected: counterexamples."
  },
  {
   "property": "C70",
   "status": "partial",
   "theorems": [
    "Verif.Props.C70_conv2d",
    "Verif.Props.C70_conv1d",
    "Verif.Props.C70_conv3d",
    "Verif.Props.C70_deconv2d",
    "Verif.Props.C70_deconv_shape",
    "Verif.Props.C70_deconv1d",
    "Verif.Props.C70_deconv3d",
    "Verif.Props.C70_deconv3d_src",
    "Verif.Props.C70_deconv3d_shape",
    "Verif.Props.C70_mtk_partial",
    "Verif.Props.C70_mtk_false"
   ],
   "note": "Proved for 1-D, 2-D and 3-D convolutions (depthwise, grouped and ordinary) and 1-D/2-D/3-D transposed convolutions with any stride, padding, output padding, groups (1-D/2-D), dilation (3-D) and fused activation, with the bias inside the operator or added behind it. Refuted for the vendor operators (enable_mtk_ops): the fused activation is dropped. Per-channel quantization parameters of permuted weights and unbatched inputs are not modelled; 3-D with several groups is rejected by the runtime."
  },
  {
   "property": "C71",
   "status": "partial",
   "theorems": [
    "Verif.Props.C71_repeat",
    "Verif.Props.C71_expand",
    "Verif.Props.C71_interleave",
    "Verif.Props.C71_interleave_flat",
    "Verif.Props.C71_interleave_self_false",
    "Verif.Props.C71_interleave_self"
   ],
   "note": "expand, expand_as, repeat and repeat_interleave with a tensor and counts: proved in full. Refuted: torch.repeat_interleave(repeats) without a tensor."
  },
  {
   "property": "C72",
   "status": "partial",
   "theorems": [
    "Verif.Props.C72_partial",
    "Verif.Props.C72_single_run_defined",
    "Verif.Props.C72_chained_noops_false",
    "Verif.Props.C72_kept_last_constant_false"
   ],
   "note": "elinimate_sequences on any well-formed graph and any set of runs that do not touch each other: every remaining operator and output reads the value it read before. Missing: runs that touch each other. The unconditional claim is false: two chained no-ops that both have another reader abort the pass (C72_chained_noops_false), and with the last operator kept a constant in front of the run loses its buffer to the wrong tensor (C72_kept_last_constant_false)."
  },
  {
   "property": "C73",
   "status": "proved",
   "theorems": [
    "Verif.Props.C73",
    "Verif.Props.C73_computes",
    "Verif.Props.C73_optional_false"
   ],
   "note": "Every operand is the tensor it was or a constant with the same key, edges stay one per operand, equal constants are read once, and every operator reads the same values. The pass raises on a constant without a buffer, which every fused LSTM has (C73_optional_false)."
  },
  {
   "property": "C74",
   "status": "partial",
   "theorems": [
    "Verif.Props.C74_map",
    "Verif.Props.C74_binary_partial",
    "Verif.Props.C74_scalar",
    "Verif.Props.C74_concat",
    "Verif.Props.C74_split",
    "Verif.Props.C74_gather_partial",
    "Verif.Props.C74_pad",
    "Verif.Props.C74_mirror_pad",
    "Verif.Props.C74_tile",
    "Verif.Props.C74_slice",
    "Verif.Props.C74_strided",
    "Verif.Props.C74_reduce",
    "Verif.Props.C74_pack_partial",
    "Verif.Props.C74_pack_next",
    "Verif.Props.C74_unpack_partial",
    "Verif.Props.C74_unpack_prev",
    "Verif.Props.C74_axis_pad",
    "Verif.Props.C74_axis_size",
    "Verif.Props.C74_axis_prelu",
    "Verif.Props.C74_pad_found",
    "Verif.Props.C74_slice_found",
    "Verif.Props.C74_tile_found",
    "Verif.Props.C74_prelu_partial",
    "Verif.Props.C74_pack_false",
    "Verif.Props.C74_pack_crash_false",
    "Verif.Props.C74_unpack_false",
    "Verif.Props.C74_gather_false",
    "Verif.Props.C74_two_axes_false",
    "Verif.Props.C74_no_axis_false",
    "Verif.Props.C74_prelu_vector_false",
    "Verif.Props.C74_binary_crash_false",
    "Verif.Props.C74_binary_rank_false"
   ],
   "note": "Proved for one operator and either reshape that was picked: elementwise operators of one operand, of two operands (each possibly broadcast) when the picked shape is the result's, with a one-element operand; CONCATENATION, SPLIT, GATHER with a vector of indices, PAD, MIRROR_PAD, TILE, SLICE, STRIDED_SLICE and reductions along one axis; PACK and UNPACK when the packed axis or the one before it exists on both sides of the reshape; PRELU whose slopes have two or more axes. The axis the code finds (op_input_dims) is shown to be the only one the operator changes, and composed with the moves. Refuted by witnesses: PACK/UNPACK otherwise (elements change places, or a crash), GATHER with a matrix of indices, an operator that changes two axes or none, a broadcast operand larger than the picked shape, an operand of higher rank, PRELU with slopes of one axis (C74_prelu_vector_false). Missing: the vote and the rewiring."
  },
  {
   "property": "C75",
   "status": "partial",
   "theorems": [
    "Verif.Props.C75_inplace_partial",
    "Verif.Props.C75_view_false",
    "Verif.Props.C75_baked_false"
   ],
   "note": "Proved for all programs in which no tensor is read after an in-place update through another tensor of the same storage. Refuted: reading a tensor after updating a view of it, and updating a constant with input-dependent values (the dummy run's value is baked in). Shapes and the lowering of single operations are left to the other properties."
  },
  {
   "property": "C76",
   "status": "partial",
   "theorems": [
    "Verif.Props.C76_mul_partial",
    "Verif.Props.C76_mul_neg_one_partial",
    "Verif.Props.C76_mul_neg_one_false",
    "Verif.Props.C76_add_partial",
    "Verif.Props.C76_add_torch_partial",
    "Verif.Props.C76_add_relu"
   ],
   "note": "Multiplication exact for every scalar but -1; for -1 exact characterisation, and refuted for zero point 0 (all positive values become 0). Addition within half a step of the exact sum and within one step of PyTorch, with and without ReLU. Missing: 16-bit storage, fixed-point multipliers of the kernels."
  },
  {
   "property": "C77",
   "status": "partial",
   "theorems": [
    "Verif.Props.C77_float_partial",
    "Verif.Props.C77_int_partial",
    "Verif.Props.C77_quint8_partial",
    "Verif.Props.C77_quant_zero_partial",
    "Verif.Props.C77_crop_false",
    "Verif.Props.C77_int_fill_false",
    "Verif.Props.C77_int8_fill_false",
    "Verif.Props.C77_reflect",
    "Verif.Props.C77_reflect2d_partial",
    "Verif.Props.C77_reflect1d_partial",
    "Verif.Props.C77_reflect_unbatched_false"
   ],
   "note": "Proved for all shapes and nonnegative amounts: float tensors, integer and quantized tensors filled with zero, unsigned quantized tensors with any fill, reflection of every rank through aten::pad and of batched images and sequences. Refuted: negative amounts, integer tensors with a nonzero fill, signed quantized tensors with a nonzero fill, unbatched reflection."
  },
  {
   "property": "C78",
   "status": "partial",
   "theorems": [
    "Verif.Props.C78_clamp",
    "Verif.Props.C78_hardtanh",
    "Verif.Props.C78_clamp_quant_partial",
    "Verif.Props.C78_hardtanh_quant_false",
    "Verif.Props.C78_hardsigmoid",
    "Verif.Props.C78_softplus_partial",
    "Verif.Props.C78_softplus_overflow_false",
    "Verif.Props.C78_softplus_threshold_false",
    "Verif.Props.C78_mish",
    "Verif.Props.C78_elu",
    "Verif.Props.C78_quantized_elu_false",
    "Verif.Props.C78_gelu_false",
    "Verif.Props.C78_silu",
    "Verif.Props.C78_glu",
    "Verif.Props.C78_prelu_partial",
    "Verif.Props.C78_prelu_store_false",
    "Verif.Props.C78_hardtanh_default_false"
   ],
   "note": "Clamp, hardtanh (float), hardsigmoid, SiLU, ELU, GLU, PReLU and mish are exact for all real inputs; quantized clamp within half a step; softplus below the threshold. False for quantized hardtanh (bounds compared with stored integers), softplus overflow and threshold, quantized ELU alpha, both GELU modes (flag inverted), PReLU slopes shared between ranks."
  },
  {
   "property": "C79",
   "status": "partial",
   "theorems": [
    "Verif.Props.C79_reduce_partial",
    "Verif.Props.C79_none_false",
    "Verif.Props.C79_indices_false",
    "Verif.Props.C79_norm_partial",
    "Verif.Props.C79_norm_scalar_partial",
    "Verif.Props.C79_norm_keepdim_false"
   ],
   "note": "All reductions except any (not implemented in the converter) for every axis list, sign, order and keepdim flag; norms of order 1 and 2. False for dim=None (crash), for the indices of max/min (never produced) and for a norm over None axes with keepdim (axes dropped); a full 2-norm has shape [1] instead of []."
  },
  {
   "property": "C80",
   "status": "partial",
   "theorems": [
    "Verif.Props.C80_rescale",
    "Verif.Props.C80_rescale_zero_false",
    "Verif.Props.C80_conv_partial",
    "Verif.Props.C80_conv_output_partial",
    "Verif.Props.C80_linear_partial",
    "Verif.Props.C80_transposed_false",
    "Verif.Props.C80_rescale_effect"
   ],
   "note": "Biases that fit the stored type are within half a unit of the accumulator scale, for convolutions (one scale or per channel) and linear layers; the weight-scale loop stops for all positive scales and moves the result by less than |acc|*10/2^32 output steps. False for transposed convolutions without a bias input (8-bit bias in accumulator units; negative biases lost in uint8); the loop never stops for scale 0."
  },
  {
   "property": "C81",
   "status": "partial",
   "theorems": [
    "Verif.Props.C81_generated_code_partial",
    "Verif.Props.C81_trace_succeeds_partial",
    "Verif.Props.C81_node_names_distinct",
    "Verif.Props.C81_name_clash_false",
    "Verif.Props.C81_list_argument_false",
    "Verif.Props.C81_returned_parameter_false"
   ],
   "note": "Proved for all straight-line models with tensor arguments whose submodule and parameter names cannot be confused with made-up names (NamesOk). Fails, with witnesses: a submodule conv used twice next to a submodule conv_1 (wrong results without any error), list arguments (the generated code reads the whole list), returning a parameter that no call uses (tracing fails)."
  },
  {
   "property": "C82",
   "status": "partial",
   "theorems": [
    "Verif.Props.C82_returned_partial",
    "Verif.Props.C82_view_false",
    "Verif.Props.C82_part_false",
    "Verif.Props.C82_assignment_false",
    "Verif.Props.C82_twice_false",
    "Verif.Props.C82_chunk_false",
    "Verif.Props.C82_caller_false",
    "Verif.Props.C82_dead_false",
    "Verif.Props.C82_live_partial"
   ],
   "note": "Proved: returned values agree for all programs that read no stale tensor (one whose storage was since written by += or an assignment to a part through another tensor) and do not apply += to one of several results; methods in place are unrestricted. Refuted otherwise: a view after += on its base, the base after += on a view (y[:,0] += 1), an assignment to a part (not recorded at all), the old name after two +=, += on a chunk (error), the caller's tensor after += on an input, and with eliminate_dead_graph a method in place whose result is unused. Parameters and modules are not part of this model. With elimination of dead code the result is unchanged if the outputs depend on every recorded operation in place."
  },
  {
   "property": "C83",
   "status": "partial",
   "theorems": [
    "Verif.Props.C83_kept_iff_needed",
    "Verif.Props.C83_constants_kept_iff_needed",
    "Verif.Props.C83_generated_code_partial",
    "Verif.Props.C83_removed_inputs_unused",
    "Verif.Props.C83_signature_false"
   ],
   "note": "Both directions of 'left iff needed' are proved for calls, inputs and constants, the search is proved to terminate within the modelled number of rounds, and the generated code is proved equivalent on the inputs that are left, for all models of C81 (names that do not clash with generated ones, plain tensor inputs, no in-place operations). The removed inputs are proved irrelevant. C83_signature_false: an unused input disappears from the signature, so the generated model cannot be called with the original arguments. Missing: in-place operations whose result is not used."
  },
  {
   "property": "C84",
   "status": "partial",
   "theorems": [
    "Verif.Props.C84_subgraph_partial",
    "Verif.Props.C84_original_run_partial",
    "Verif.Props.C84_accepts_iff",
    "Verif.Props.C84_function_input_false",
    "Verif.Props.C84_list_item_input_false",
    "Verif.Props.C84_constant_false",
    "Verif.Props.C84_output_read_by_input_false",
    "Verif.Props.C84_only_needed"
   ],
   "note": "Proved for input nodes that are submodules (or methods without further tensors), do not read list items, and do not read from an output node. The negative theorems show that each restriction is needed: a function as input node keeps stale argument names, a list item keeps its index, an output read by an input node is replaced by the new input, and any parameter or constant inside the subgraph makes the cut fail. Node lookups by name, data types and module attributes are not modelled."
  },
  {
   "property": "C85",
   "status": "partial",
   "theorems": [
    "Verif.Props.C85_runs",
    "Verif.Props.C85_longest",
    "Verif.Props.C85_complete",
    "Verif.Props.C85_fused_network_partial",
    "Verif.Props.C85_code_rules",
    "Verif.Props.C85_residual_false",
    "Verif.Props.C85_shared_module_false"
   ],
   "note": "The runs found are shown to be disjoint, matching, longest and complete. Preservation of the network holds when every fused module is called once and every result inside a run is read once; is_fusable does not check either, and both witnesses (a skip connection from inside a run, a module called twice) change the returned value."
  },
  {
   "property": "C86",
   "status": "partial",
   "theorems": [
    "Verif.Props.C86_traced",
    "Verif.Props.C86_generate",
    "Verif.Props.C86_insert_after",
    "Verif.Props.C86_insert_between_partial",
    "Verif.Props.C86_insert_before_output",
    "Verif.Props.C86_remove",
    "Verif.Props.C86_replace",
    "Verif.Props.C86_fuse",
    "Verif.Props.C86_identity_edits",
    "Verif.Props.C86_insert_between_second_false",
    "Verif.Props.C86_insert_between_all_false"
   ],
   "note": "insert_after, insert_before (outputs), remove_node, replace_node_module and fuse_nodes_to_func in full for nodes returning one tensor; insert_between when the reader reads the chosen place alone or before other places of the same node: for the second of two places the wrong one is redirected and the generated code fails, and without tensor_ptrs a reader of two places gets the first one twice (witnesses). New names are assumed to be fresh. insert_before for a call with several tensors (broadcast_tensors) is not modelled."
  },
  {
   "property": "C87",
   "status": "partial",
   "theorems": [
    "Verif.Props.C87_rewrites_partial",
    "Verif.Props.C87_accepts_partial",
    "Verif.Props.C87_complete",
    "Verif.Props.C87_leaky_relu_keyword_false",
    "Verif.Props.C87_leaky_relu_inplace_false",
    "Verif.Props.C87_sub_alpha_false",
    "Verif.Props.C87_rsub_tensors_false",
    "Verif.Props.C87_exponent_false",
    "Verif.Props.C87_add_alpha_false",
    "Verif.Props.C87_cat_axis_false",
    "Verif.Props.C87_integer_add_relu_false",
    "Verif.Props.C87_dropout_mode_false"
   ],
   "note": "proved over the reals for straight-line programs of the calls described in Spec.FuncCall.Supported, with acceptance for readable numbers, and completeness (no operation to be rewritten is left) for all programs; the _false theorems show the calls that are rewritten wrongly: leaky_relu with keyword slope or inplace (becomes the identity), sub/add with alpha, x.__rsub__(y) of two tensors, numbers printed with an exponent only, cat with axis, integer add+relu, dropout with a fixed mode. Not covered: in-place aliases, prelu, rewiring of edges (C86)."
  },
  {
   "property": "C88",
   "status": "partial",
   "theorems": [
    "Verif.Props.C88_prelu",
    "Verif.Props.C88_silu",
    "Verif.Props.C88_glu",
    "Verif.Props.C88_hardsigmoid",
    "Verif.Props.C88_layer_norm_partial",
    "Verif.Props.C88_rms_norm_partial",
    "Verif.Props.C88_layer_norm_no_affine_false",
    "Verif.Props.C88_rms_norm_no_affine_false",
    "Verif.Props.C88_rms_norm_no_eps_false",
    "Verif.Props.C88_glu_odd_false"
   ],
   "note": "equality proved for PReLU, SiLU, GLU (even axis), Hardsigmoid and for LayerNorm and RMSNorm with weight, bias and eps, over a field with rsqrt v = 1 / sqrt v; false without weight or bias (raises), RMSNorm without eps (nothing is added), GLU on an axis of size 3 (accepted)"
  },
  {
   "property": "C89",
   "status": "partial",
   "theorems": [
    "Verif.Props.C89_max_pool_partial",
    "Verif.Props.C89_avg_pool_partial",
    "Verif.Props.C89_linear_batch_norm",
    "Verif.Props.C89_batch_norm_partial",
    "Verif.Props.C89_broadcast",
    "Verif.Props.C89_broadcast_operand_partial",
    "Verif.Props.C89_single_sample_false",
    "Verif.Props.C89_single_stride_false",
    "Verif.Props.C89_divisor_false",
    "Verif.Props.C89_batch_norm_matrix_false",
    "Verif.Props.C89_broadcast_operand_false"
   ],
   "note": "Proved for batches with one stride, none, or one per axis; for Linear+BatchNorm1d on matrices; for BatchNorm1d on three axes; and for every pair of shapes that can be broadcast, when the operands are single outputs. False: single samples are strided along the last axis only; a list of one stride is used for the first axis only; divisor_override is lost; BatchNorm1d on a matrix that does not follow a Linear layer becomes an error; operands that are outputs of split are read at a wrong index after broadcasting both."
  },
  {
   "property": "C90",
   "status": "partial",
   "theorems": [
    "Verif.Props.C90_requantize_partial",
    "Verif.Props.C90_requantize_direct",
    "Verif.Props.C90_shared_requantize_partial",
    "Verif.Props.C90_requantize_again",
    "Verif.Props.C90_chain_partial",
    "Verif.Props.C90_dequantize_quantize",
    "Verif.Props.C90_activation_partial",
    "Verif.Props.C90_activation_value",
    "Verif.Props.C90_requantize_false",
    "Verif.Props.C90_reshape_reader_false",
    "Verif.Props.C90_dequantize_reader_false",
    "Verif.Props.C90_pooling_false",
    "Verif.Props.C90_chain_false",
    "Verif.Props.C90_storage_type_false"
   ],
   "note": "Proved up to stated rounding bounds for results within the range of the quantizations, exactly for repeated quantizations and for DEQUANTIZE followed by QUANTIZE. Missing, with counterexamples in the code: saturation to the removed range is lost; readers behind RESHAPE or TRANSPOSE read the new integers with the old label; DEQUANTIZE readers get the narrower range; pooling is given a quantization it cannot produce; the storage type is not compared."
  },
  {
   "property": "C91",
   "status": "partial",
   "theorems": [
    "Verif.Props.C91_fuse_partial",
    "Verif.Props.C91_input_positions",
    "Verif.Props.C91_output_positions",
    "Verif.Props.C91_input_type",
    "Verif.Props.C91_output_type",
    "Verif.Props.C91_type_refused",
    "Verif.Props.C91_shared_input_false",
    "Verif.Props.C91_shared_output_false",
    "Verif.Props.C91_input_count_false"
   ],
   "note": "Proved for models in which the removed nodes share their tensors with no other operator; the change between int8 and uint8 is exact. Missing, with counterexamples in the code: an input also read as float and an output also read by an operator lose their producer, and an input quantized twice becomes two inputs."
  },
  {
   "property": "C92",
   "status": "partial",
   "theorems": [
    "Verif.Props.C92_call_partial",
    "Verif.Props.C92_method_partial",
    "Verif.Props.C92_index_partial",
    "Verif.Props.C92_quote_false",
    "Verif.Props.C92_braces_false",
    "Verif.Props.C92_list_index_false",
    "Verif.Props.C92_empty_index_false"
   ],
   "note": "Proved for atoms, tensors, float specials, strings without quote/backslash/newline, nested lists and tuples, keywords, and subscripts with slices. Violated: strings with a quote give unreadable text; braces stay doubled in calls without tensor arguments; x[[0, 2]] becomes x[0, 2]; x[()] becomes x[]. Not covered: other argument types (numpy values, devices), tuples and lists are not told apart in the generated text."
  },
  {
   "property": "C93",
   "status": "partial",
   "theorems": [
    "Verif.Props.C93_noop_partial",
    "Verif.Props.C93_runtime_index_false",
    "Verif.Props.C93_fold_partial",
    "Verif.Props.C93_fold_defined",
    "Verif.Props.C93_constant_output_false",
    "Verif.Props.C93_constant_output"
   ],
   "note": "Proved for parameters that are constants; the graph surgery of dropping an operator is C72. Violated: a GATHER with an index computed at run time is dropped when the recorded index was 0..n-1 (the same holds for slices with run-time bounds); a model that delivers a transposed or reshaped constant stops the conversion with an error."
  },
  {
   "property": "C94",
   "status": "partial",
   "theorems": [
    "Verif.Props.C94_fed_partial",
    "Verif.Props.C94_removal",
    "Verif.Props.C94_search_partial",
    "Verif.Props.C94_disabled_creation_false",
    "Verif.Props.C94_bool_input_false",
    "Verif.Props.C94_int_operand_false",
    "Verif.Props.C94_int_output_false",
    "Verif.Props.C94_mixed_false",
    "Verif.Props.C94_expand_as_false"
   ],
   "note": "Proved: with the stubs that remain after removal every node receives its float tensors in the form it needs and int32/int64 tensors untouched (no creation function switched off, no other non-float types, integer tensors only around supported operations and single outputs); pairs are removed only where no reader needs the quantized tensor; if every node is fed by one kind of tensor, the search marks exactly the reachable nodes by that kind, in any order. Refuted: a creation function switched off gets two QuantStubs, so its reader receives a quantized tensor; bool inputs get a QuantStub; unsupported operations get stubs on integer tensors; integer tensors in a result with several tensors get a DeQuantStub in the generated model; nodes with mixed operands are marked by whichever comes first; expand_as is skipped when its input has another reader before it."
  },
  {
   "property": "C95",
   "status": "partial",
   "theorems": [
    "Verif.Props.C95_range",
    "Verif.Props.C95_threshold",
    "Verif.Props.C95_merge",
    "Verif.Props.C95_expand_partial",
    "Verif.Props.C95_expand_false",
    "Verif.Props.C95_bins_false"
   ],
   "note": "Proved for every histogram, any number of parts and any divergence: the range lies in the observed range and spans at least T bins; the threshold is the first cut with the smallest divergence (other than exactly 1.0) between the spread and the folded histogram; merging gives every part its share and keeps the total; spreading equals the specification and keeps the total if no bin shared by two parts is empty. Refuted: an empty bin shared by two parts receives content (np.logical_and with three arguments); an observer with fewer than 2048 bins fails. Exact numbers; the divergence itself is a parameter."
  },
  {
   "property": "C96",
   "status": "partial",
   "theorems": [
    "Verif.Props.C96_output",
    "Verif.Props.C96_hidden_partial",
    "Verif.Props.C96_hidden_false"
   ],
   "note": "Proved: outputs for all layers, directions, first states; final states for one direction. Refuted: with two directions the final state is built from hidden_fw[0] and hidden_bw[0], the first entry of the batch, so it has no batch dimension and loses all other entries."
  },
  {
   "property": "C97",
   "status": "partial",
   "theorems": [
    "Verif.Props.C97_projection",
    "Verif.Props.C97_generate_partial",
    "Verif.Props.C97_masked",
    "Verif.Props.C97_piece_false",
    "Verif.Props.C97_mask_false"
   ],
   "note": "Proved: the fused projection gives each head its own rows; a first piece of any length followed by single tokens gives the outputs of the original layer; with explicit masks (old torch) any division into pieces does. False: with scaled_dot_product_attention several tokens behind a cache look at tokens after them, and the mask of the caller (padding) is not used."
  },
  {
   "property": "C98",
   "status": "partial",
   "theorems": [
    "Verif.Props.C98_rates_partial",
    "Verif.Props.C98_accepts",
    "Verif.Props.C98_reload",
    "Verif.Props.C98_second",
    "Verif.Props.C98_excluded",
    "Verif.Props.C98_last_layer_false",
    "Verif.Props.C98_second_false",
    "Verif.Props.C98_reset_false",
    "Verif.Props.C98_reset_rates",
    "Verif.Props.C98_reset_centers"
   ],
   "note": "Proved: rates of all prunable operations as asked for (except as below), acceptance, exclusion, reload of the written configuration, second pruner from a number. False: a rate given for a last linear layer is dropped if it equals the default; constructing deletes the default from the dictionary of the caller, so the same dictionary does not give a second pruner; after pruning, calc_flops resets the pruner, which forgets exclusions and no longer prunes 1d convolutions."
  },
  {
   "property": "C99",
   "status": "partial",
   "theorems": [
    "Verif.Props.C99_variables",
    "Verif.Props.C99_criterion",
    "Verif.Props.C99_gradient",
    "Verif.Props.C99_gradient_partial",
    "Verif.Props.C99_projection",
    "Verif.Props.C99_learning_rate",
    "Verif.Props.C99_update_partial",
    "Verif.Props.C99_gradient_false",
    "Verif.Props.C99_skip_false"
   ],
   "note": "Proved: both variables follow the method for every training history, projection, criterion, learning rate, updates without skipped subgraphs, and the exact factor of the gradient. False: the dual variable is not detached, so after k rounds training goes down along k + 1 times the slope; a skipped subgraph makes the update fail because it has no importance."
  }
 ]
}