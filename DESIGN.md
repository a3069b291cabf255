# Design

Formal model of alibaba/TinyNeuralNetwork (sources in /repo) in Lean 4, under `lean/Verif`.

## Layout

* `Verif/Spec/*.lean` – small specifications, independent of the model (tensor semantics, numeric rounding, graph notions).
* `Verif/Model/*.lean` – definitions that mirror repository functions branch by branch; every definition cites file and lines.
* `Verif/Lemmas/*.lean` – helper lemmas.
* `Verif/Props/*.lean` – the property theorems, with a non-vacuity example beside each.

## Trusted base

* Lean 4.33.0's kernel. No axiom is added; every theorem depends at most on `propext`, `Classical.choice`, `Quot.sound`
  (the standard axioms used by Mathlib). No `sorry`, `admit`, `native_decide`, `bv_decide`.
* Mathlib 4.33.0 as a library of proved facts.
* The reading of Python/NumPy/PyTorch/TFLite operations written in `Verif/Spec` and cited in the comments of `Verif/Model`.
* Floating point is modelled by exact rationals/reals unless a definition says otherwise (the IEEE-double model of C30).

## Not modelled

PyTorch itself (tracing, autograd, kernels), the TFLite runtime and flatbuffer encoding, igraph's storage, file and
network I/O, logging, the CLI examples, TensorRT utilities, distributed training, and code generation in the tracer.
Per-property limits are stated with each property below.

## Conventions

* A property the code violates is stated as a negation theorem with a concrete witness (suffix `_false`/`_violated`) and the
  part that does hold is proved with suffix `_partial`.
* Exceptions and failed asserts are explicit values (`Option`/`Except`), never totalised away.

## Properties: what is modelled and how it is proved

### C01 Consecutive transposes collapse to one equivalent transpose

Modelled: Tensor = shape + element function on multi-indices (Spec/Tensor). Model fuse_transpose_perms as the list fold `cur[next]`.

Proof: Induction on the chain; index algebra on permutations of range n.

### C02 Layout wrapping is invisible

Modelled: The constant permutations of the wrapping helpers and argsort for the move-last wrapping.

Proof: Instance of C01 plus argsort being the inverse permutation.

### C03 Transpose turned into reshape keeps the data

Modelled: The predicate comparing non-1 dims before and after, row-major flattening semantics of RESHAPE.

Proof: Induction on shapes: row-major offset ignores size-1 axes.

### C04 Lowering the rank of a transpose keeps the data

Modelled: The accumulation loop of lower_transpose_dim_pass verbatim.

Proof: Expected to be false in general: negation with concrete witness, partial theorem for the class on which it is right.

### C05 Consecutive reshapes collapse and preserve data

Modelled: RESHAPE as reindexing through the flat row-major offset.

Proof: flat/unflat inverse lemmas, induction on chain.

### C06 Simple-reshape detection is exact

Modelled: The two-pointer scan as a structurally recursive function.

Proof: Functional induction; equivalence with filtering out ones.

### C07 Reshape axis grouping is a faithful factorisation

Modelled: The two-pointer accumulator loop with asserts as Option.

Proof: Loop invariant: remaining products ratio; strong induction on remaining length.

### C08 Consecutive slices collapse to one equivalent strided slice

Modelled: fuse_slices fold per axis (start,end,stride).

Proof: Arithmetic on selected positions, induction on the chain.

### C09 Consecutive gathers collapse to one equivalent gather

Modelled: Index composition plus the sortedness test used to drop gathers.

Proof: Negation witness for the removal test; partial for composition and for identity index.

### C10 SAME padding arguments match TensorFlow's definition

Modelled: get_same_padding_args per axis, TensorFlow SAME rule as spec.

Proof: Euclidean division arithmetic over Int.

### C11 Zero padding is only absorbed where it is equivalent

Modelled: is_padding_fusable_edge as Boolean function, padding semantics as a fill value; max pool / conv as fold over window.

Proof: Negation witness for zero pad + max pool; theorem for all other accepted pairs.

### C12 Batch-norm folding into the preceding convolution is exact

Modelled: Conv/FC/deconv as sums over finite index sets over ℝ; fold formulas verbatim.

Proof: Ring algebra with finite sums.

### C13 Batch-norm folding into the following convolution is exact

Modelled: Same with zero padding modelled explicitly.

Proof: Partial: exact without padding; negation with padding witness.

### C14 Channel gathers around a convolution are absorbed correctly

Modelled: Convolution output channel selection; gather on input channels with argsort of the index.

Proof: Theorem for output side; partial for permutations on the input side; negation for repetitions.

### C15 Dropping a tile before a broadcasting operator is safe

Modelled: Broadcast semantics per axis, tile as modulo.

Proof: Per-axis case analysis lifted by induction on axes.

### C16 Reciprocal square root fusion computes the same quotient

Modelled: Predicate records which operand the SQRT feeds; rewriting as in the pass.

Proof: Partial when SQRT is the divisor; negation witness otherwise.

### C17 Operators are emitted in dependency order

Modelled: topological_sort: LIFO traversal with visited marks over an explicit finite graph.

Proof: Invariants on visited/stack; measure for termination; completeness for acyclic graphs.

### C18 Exported tensor and buffer indices are consistent

Modelled: collect_tensor_buffers as fold over operators with dictionaries as association lists.

Proof: Invariant induction.

### C19 Changing the quantized storage type keeps the represented values

Modelled: The integer conversions of Tensor.__init__ on Int with explicit wrap-around.

Proof: omega; negation for symmetric storage with non-128 zero point.

### C20 Weight-only quantization error is at most half a step

Modelled: quantize() over ℚ/ℝ with round-half-even and clamping.

Proof: Real arithmetic.

### C21 Operator versions follow the runtime's versioning table

Modelled: process_op decision table; TFLite table as separate spec.

Proof: Case analysis; negation for codes whose branch tests the wrong field.

### C22 Splitting wide concatenations is equivalent

Modelled: cat_split_pass layering on lists of lists.

Proof: Well-founded recursion on the number of inputs; append algebra.

### C23 Grouped convolutions are decomposed correctly

Modelled: group_conv_rewrite_pass on functions/sums.

Proof: Finite-sum reindexing.

### C24 Dead-node cleanup keeps everything the outputs need

Modelled: cleanup_dead_nodes on explicit graphs.

Proof: Fixpoint invariant.

### C25 Channel dependency merging yields the connected components

Modelled: merge_constraint with Python sets as lists in iteration order.

Proof: Loop invariant of a union-find; equivalence closure.

### C26 Channel groups are the common refinement

Modelled: merge_group loop.

Proof: Well-founded measure, invariant by induction.

### C27 Least-important selection is correct

Modelled: get_smallest_k with a stable sort.

Proof: Permutation and sortedness lemmas.

### C28 Pruning never removes every channel

Modelled: The inner greedy loop of calc_prune_idx_by_center_importance over ℚ.

Proof: Prefix invariant; negation for the survival claim (single dependency set).

### C29 Channel-multiple rounding keeps as many removable channels as possible

Modelled: The slicing [:-remainder].

Proof: Negation witness for remainder 0, partial otherwise.

### C30 Constant shapes are rewritten to the pruned size

Modelled: apply_mask arithmetic for reshape and view, with IEEE double rounding modelled on ℚ.

Proof: Negation witnesses; partial over exact arithmetic for view.

### C31 Physically pruning equals masking

Modelled: Layer chain over ℝ with masks, complementary_list as a set with an arbitrary enumeration order.

Proof: Partial when the orders agree; negation using CPython set order.

### C32 Recurrent-layer gate indices are expanded correctly

Modelled: Index list functions.

Proof: Membership characterisation by induction.

### C33 Pruned-network FLOPs are those of the smaller network

Modelled: calc_flops per layer on Nat.

Proof: Arithmetic.

### C34 NetAdapt search terminates within budget

Modelled: find_prune_plan/prune loop as relation/recursion over abstract cost functions.

Proof: Well-founded descent.

### C35 Cross-layer equalization preserves the network function

Modelled: Per-channel scaling, conv as sums, activation abstract positively homogeneous; NaN case as extended value.

Proof: Algebra; negation for dead channel.

### C36 Quantization-aware batch-norm folding is exact

Modelled: Fold formulas with shapes.

Proof: Algebra; negation for depthwise bn→conv shape.

### C37 TFLite-style fake quantization rounds halves away from zero and leaves its switches alone

Modelled: Forward as state transformer, rounding over ℚ.

Proof: Case analysis, real arithmetic.

### C38 Integer weight compression loses at most half a step

Modelled: compress_int over ℚ.

Proof: Rounding lemmas.

### C39 4-bit packing round-trips

Modelled: Int8 shifts and masks on BitVec 8.

Proof: Bit-level extensionality.

### C40 Dynamic quantized linear layers apply the bias once, unscaled

Modelled: QLinear forward arithmetic.

Proof: Negation witness + partial for bias-free layers.

### C41 Training returns the best epoch's model

Modelled: train() as fold over accuracy history.

Proof: Induction; negation for histories without positive accuracy.

### C42 Running averages are exact

Modelled: AverageMeter over ℚ.

Proof: Induction on history.

### C43 Converter configuration round-trips

Modelled: generate/parse on records.

Proof: Negation witnesses; partial when #inputs = #outputs.

### C44 Converter option validation is complete

Modelled: __init__ checks as decision function.

Proof: Case analysis against a declarative spec.

### C45 Ceil-mode pooling keeps its output size and values

Modelled: Both paddings on Int.

Proof: Arithmetic; negation for p+1≥s.

### C46 Quantized scalar constants are represented exactly

Modelled: quantize_scalar_tensor over ℚ.

Proof: Field arithmetic.

### C47 Moving a transpose across an operator keeps the result

Modelled: Axis remapping formulas against tensor semantics.

Proof: Index algebra on permutations.

### C48 Mask indices accumulate

Modelled: Masker state machine.

Proof: Induction on history; negation for serialization.

### C49 Overlapping dependency subgraphs are merged

Modelled: divide_subgraph with redirect table.

Proof: Forest invariant; well-founded lookup.

### C50 Chains of fusable operators are found completely

Modelled: fuse_connected_edges iteration.

Proof: Invariant on decomposition into paths; measure.

### C53 Identity pruner removes only channels that are dead in every use

Modelled: leafStates/centerStates dictionaries, the negative slice and rounding of the identity pruner.

Proof: Dictionary invariants by induction over the leaves; negation with a channel read twice by one batch norm.

### C54 Grouped convolutions lose exactly each group's own channels

Modelled: the per-group slices of remove_idx.

Proof: Partial when every group loses the same number; negation otherwise.

### C55 Pruned recurrent layers keep gate and unit order

Modelled: complementary_list with the CPython set layout.

Proof: Permutation of the right rows always; order when the kept rows stay in hash order; negation at 8 units.

### C51 Slices with run-time bounds keep following them

Modelled: The fusability test on edges, the argument vectors with traced value and run-time value.

Proof: Partial when both slices have constant bounds (with C08); negation when the second bound is computed at run time.

### C52 x[start:end:step] selects the same positions after conversion

Modelled: ATenSliceOperator for constant bounds, SLICE and STRIDED_SLICE with integer attributes.

Proof: Case analysis with linear integer arithmetic; negation for start beyond the ends.

### C56 Bias absorption keeps the function of the two layers

Modelled: The absorbed amount and the two bias updates.

Proof: Linear algebra over reals, pointwise ReLU lemma.

### C57 Average and adaptive pooling divide by the right count

Modelled: The branches of the two converters over exact numbers, TFLite's average of in-range elements.

Proof: Window arithmetic; sums over kernel positions; negation for divisor_override.

### C58 An LSTM layer keeps its recurrence

Modelled: The emitted operator sequence as a program over vectors, per time step, direction and layer.

Proof: Induction over time steps; gate slicing index arithmetic.

### C59 A GRU layer keeps its recurrence

Modelled: As C58.

Proof: Induction over time steps.

### C60 Resizing reads the same source pixels

Modelled: The size passed to the resize operator; source index formulas of PyTorch and TFLite over rationals.

Proof: Floor arithmetic; negation for a scale factor that does not divide.

### C61 Rolling, flipping, chunking and selecting move the right elements

Modelled: The emitted SPLIT_V, CONCATENATION, REVERSE_V2, GATHER, RESHAPE sequences on the tensor semantics.

Proof: Index algebra on one axis, induction over the list of axes.

### C62 Pixel shuffle and unshuffle keep every pixel's place

Modelled: The channel permutation, GATHER, DEPTH_TO_SPACE and SPACE_TO_DEPTH in NHWC.

Proof: Div/mod index arithmetic.

### C63 gather and scatter address the same elements

Modelled: The coordinate construction, GATHER_ND and the accumulating SCATTER_ND.

Proof: Index algebra; negation for repeated indices.

### C64 Indexing with tensors selects the same elements

Modelled: The flat modulo broadcasting of the index tensors, the coordinate rows, GATHER_ND and SCATTER_ND.

Proof: Partial for equally shaped indices; negations for broadcasting, negative and repeated indices.

### C65 Masked filling and where keep the unmasked values

Modelled: The emitted arithmetic over numbers extended with infinities and NaN.

Proof: Case analysis; negation for infinite operands.

### C66 Unfold reads the same patches

Modelled: The PAD rows and the index construction.

Proof: Index arithmetic; partial for equal paddings, negation for different ones.

### C67 Arithmetic with a Python scalar uses the scalar's value

Modelled: The cast of the scalar to the tensor's type, integer and float operators.

Proof: Partial for equal kinds; negation for an integer tensor with a fractional scalar.

### C68 Normalisation layers compute PyTorch's statistics

Modelled: The emitted MEAN, SUB, SQUARED_DIFFERENCE, DIV, MUL, ADD sequence.

Proof: Sums over index lists; split and concatenate over groups.

### C69 Matrix products use every operand

Modelled: The emitted operators for every branch.

Proof: Partial for alpha = beta = 1; negation otherwise.

### C70 Convolutions keep their result in the channels-last layout

Modelled: transform for convolutions and depthwise convolutions.

Proof: Index algebra on sums over kernel positions and channels.

### C71 Expanding and repeating copy the right elements

Modelled: Reshape plus TILE, and the gather indices.

Proof: Mod arithmetic per axis.

### C72 Removing operators from the graph keeps every other value

Modelled: elinimate_sequences on graphs of operators with named tensors.

Proof: Invariant on the environment of tensor values; see the theorem for the shape conditions.

### C73 Sharing equal constants keeps every operator's inputs

Modelled: group_tensors_pass.

Proof: Induction over the operators.

### C74 Moving a reshape across an operator keeps the result

Modelled: The remapping formulas of elementwise_op_reshape_passthrough_pass.

Proof: Row-major index algebra.

### C75 In-place updates keep their effect

Modelled: init_operations: running each node on the dummy tensors with real aliasing, tracking, constants taken from the dummy run; PyTorch as a memory with views.

Proof: Simulation between three runs (PyTorch on the actual input, the dummy run, the converted graph), induction over the program; negations for reads after an update through a view and for updated constants.

### C76 Quantized arithmetic with a Python scalar keeps the result

Modelled: The output quantization parameters PyTorch computes, the quantized scalar tensor, TFLite's exact quantized MUL and ADD.

Proof: Real arithmetic with round and clamp; negation for the scalar -1.

### C77 Padding places the input and fills the border

Modelled: The padding matrix, the fill constant and its type, PAD, PADV2, MIRROR_PAD.

Proof: Index arithmetic per axis; negations for cropping and for typed fills.

### C78 Activation functions keep their parameters

Modelled: The emitted operator sequences over reals extended with infinity.

Proof: Case analysis and real arithmetic; negations where a parameter is ignored or inverted.

### C79 Reductions reduce the requested axes

Modelled: handle_reduce: normalised axes, the optional transposes around the operator, the final reshape; norm.

Proof: Index algebra over axis lists.

### C80 Quantized layers keep their bias

Modelled: The bias quantization for each layer kind and target type, the scale rewriting for tiny multipliers.

Proof: Rounding bounds; negations for the separately added bias of transposed convolutions and the rewritten scale.

### C81 Generated code equals the traced model

Modelled: numbering of functions and nodes, constants, the tables from tensor objects to nodes and indices, recording of inputs, calls and outputs, and the generated `__init__` and `forward` with the dropping of variables; the text of a line is kept as names, in-place operators are separate (C82).

Proof: an invariant relating every recorded node to the value it has in the original run, kept by every step of tracing; names are injective in (base name, count); a variable is dropped only after its last reader; induction over the generated lines.

### C83 Dead-graph elimination removes exactly what no output depends on

Modelled: The queue of __active_detection with a bound on the number of rounds that is proved sufficient, the filtering of inputs and calls, the dictionary of active constants; then code generation and execution as for C81.

Proof: Invariant of the search: marked nodes are closed under reading up to the queue; the reads of unmarked nodes bound the remaining rounds. The reduced graph meets what exec_generate (C81) requires.

### C84 Cutting a subgraph out of a traced model keeps its meaning

Modelled: Model/TracerSub.lean: reset_input_output_for_graph with its checks, the new inputs and outputs, the redirection of tensors, the dead-graph pass, and the code generator of C81

Proof: the nodes between the cuts are shown to be exactly those visited; the graph after the cut meets the invariant from which the generated code of C81 is proved correct; witnesses for the cases in which the code of the extracted model is wrong

### C85 Fusing modules before quantization keeps the network

Modelled: Model/Fusable.lean: the prefix tree of rules, the backward walk of is_fusable with its exception for transposed convolutions, the scan over all nodes; the replacement by the fused module and identities is the specification's fuse; that a fused module computes its parts in turn is C36/C12/C13

Proof: the prefix tree accepts exactly the rules; the walk is sound, longest and complete by induction; fusing one run is shown to keep every node's value by strong induction over the nodes, then induction over the runs; witnesses for a result read outside its run and for a shared module

### C86 Editing a traced graph changes only what was asked for

Modelled: Model/GraphEdit.lean: the edits on the graph of C81: new node and its name, the readers' previous nodes, indices and rendered tensor names, the place in the forward list; a run of a graph in which single places are seen differently is the specification (RunsWith)

Proof: invariants of a graph (WellFormed) hold after tracing and are kept by every edit; a run of the old graph with the change in it is a run of the new graph; the code generated from a well-formed graph returns what its run returns (C81); induction over sequences of identity edits; witnesses for insert_between on the second of two places and without a choice of places

### C87 Rewriting functional operations before quantization keeps what the model computes

Modelled: Model/FuncRewrite.lean: the passes 1684-2312 one after the other on a straight-line program; Spec/FuncCall.lean: what PyTorch's functions, FloatFunctional's methods and the modules compute over the reals, with Python's binding of arguments

Proof: each pass maps one call to calls that compute the same under an environment that extends the old one outside the new names; the fusion by a simulation that leaves the intermediate names out; well-formedness, supportedness and freshness are kept by every pass; acceptance from the fact that every intermediate program runs; witnesses for the calls that are rewritten wrongly

### C88 Layers without a quantized counterpart are replaced by equivalent ones

Modelled: Model/QModules.lean: the forward functions, with stubs as identities and broadcasting as in NumPy; Spec/QModules.lean and Spec/Activation.lean: the layers

Proof: elementwise with lemmas on broadcasting and reductions with kept axes; algebra over a field, real case distinctions for PReLU and hardsigmoid; witnesses for missing weights, missing eps and odd axes

### C89 Changing the form of a layer before quantization keeps its results

Modelled: Model/ShapeRewrite.lean: the condition and the slices of the pooling step, the two batch norm steps with the inserted reshapes, the choice of the operand that is expanded, and the index the operand is read at; Spec/ShapeRewrite.lean: pooling with its argument conventions, batch norm with running statistics, Linear, slices, expand

Proof: a window of kernel 1 reads one position, and the length formula with and without ceil_mode equals that of a slice; inserting an axis of size 1 permutes nothing in row-major order, so the statistics of a channel are taken over the same list; the loop over the sizes is an induction with four states; witnesses for single samples, one-element stride lists, divisor_override, matrices and operands of split nodes

### C90 Merging changes of quantization keeps the numbers

Modelled: Model/Requant.lean: the walk over the readers behind an operator, the comparison of quantizations, the merge of one QUANTIZE, the cut and merge of a chain, the fused activation; Spec/Requant.lean: what a stored integer means, QUANTIZE, DEQUANTIZE, requantization and activation ranges of the runtime

Proof: rounding and saturation are Lipschitz up to one step, a covered number is quantized within half a step, a stored integer survives reading and quantizing alike; the scan and the chain are inductions; witnesses for saturation, labels of RESHAPE outputs, DEQUANTIZE readers, pooling and storage types

### C91 A model with quantized inputs and outputs computes the same

Modelled: Model/FuseIo.lean: the choice of the edges, the removal of the nodes, the new lists of inputs and outputs, the tensors of the type pass and the inserted QUANTIZE; Spec/FuseIo.lean: running a list of operators over named tensors, failing when a tensor has no value

Proof: an invariant between the two runs: visible tensors agree, quantized inputs are ready, removed results can be recomputed; induction over the operators; a shift by 128 commutes with reading; witnesses for shared inputs, shared outputs and inputs quantized twice

### C92 Generated calls carry the recorded arguments

Modelled: Model/ArgString.lean: template, tensor names, brace doubling, slices, keywords, the three kinds of generated expression; Spec/PyExpr.lean: a reader for Python argument expressions and str.format

Proof: filling the template yields the text of the arguments (compositional), and the reader returns the argument and the text behind it, by induction over nested arguments; witnesses for quotes, braces without tensors, list subscripts and the empty tuple

### C93 Operators dropped or evaluated while converting leave every value as it was

Modelled: Model/Noop.lean: the conditions on operator and shapes, the selection of operators on constants, the new constant, the rewiring of the readers; Spec/Noop.lean: the data moving operators of the runtime and running a model with constants

Proof: an increasing list of n numbers below n is 0..n-1, which settles slices, gathers and transposes; padding and tiling by arithmetic on shapes; folding by a relation between the two runs and induction over operators and over the pass; witnesses for run-time indices and constant outputs

### C94 Quantized and unquantized parts of a model are kept apart

Modelled: Model/QRegion.lean: the stubs between producer and consumer put by the four insertion passes, the removal of pairs, the breadth first search with its rules for shapes and expand_as; Spec/QRegion.lean: the form of tensors through stubs, the form a node needs, reachability

Proof: case analysis over the passes for placement; an invariant of the search with a measure (queue plus edges of unvisited nodes) for the marking; witnesses for creation functions switched off, bool inputs, integer operands and outputs, mixed operands, expand_as

### C95 Calibration with the KL algorithm stays inside the observed range and compares histograms of equal content

Modelled: Model/KlRange.lean: interval borders, flags, scales, cumulative sums, indexed addition of numpy, the loop over cuts, the two searches; Spec/KlRange.lean: overlap of bins and parts, merging, spreading, folding the tail; the divergence is a parameter, numbers are exact

Proof: overlap computed in the five positions of a bin relative to a part; the parts partition the bins by telescoping; indices written by different parts are distinct, so indexed addition is a sum; loop invariant for the minimum; witnesses for empty shared bins and for fewer than 2048 bins

### C96 The quantizable GRU computes what the GRU it replaces computes

Modelled: Model/Gru.lean: linear layers, chunks, the loop over time, both directions, the loop over layers, splitting of given states, the returned states; Spec/Gru.lean: the recurrence of the documentation for one sequence, layers and directions; exact arithmetic in any commutative ring with arbitrary activation functions

Proof: induction over time with the results collected so far, then over layers; states by arithmetic on positions; witness for the final state of a bidirectional GRU

### C97 The fused attention layer computes what the original one computes, also piece by piece

Modelled: Model/LlamaAttention.lean: concatenated weight, the view and the three chunks, rotation by position, the cache, which keys a query looks at (with and without scaled_dot_product_attention), output projection; Spec/Attention.lean: the original layer on a whole sequence with separate projections; exact arithmetic in any commutative ring, rotation and weighting are parameters

Proof: row arithmetic of the fused matrix; the cache after n tokens is the list of their keys and values, by induction over the pieces; witnesses for two tokens behind a cache and for an ignored mask

### C98 A channel pruner prunes what its configuration asks for

Modelled: Model/PruneConfig.lean: reading the rates, the default, the loop over the operations, the last linear layer, excluded subgraphs, writing the configuration, reset, and the configuration object of the caller afterwards; Spec/PruneConfig.lean: prunable operations and the rate asked for

Proof: lookup lemmas for dictionaries, induction over the operations; the written configuration is read back through the same lemmas; witnesses for a given rate equal to the default, a second pruner, and reset

### C99 Pruning with ADMM follows the method

Modelled: Model/Admm.lean: tensors with their derivative along the recorded computation, register_mask, admm_params_update, the criterion and its backward pass, the learning rate, which subgraphs get an importance; Spec/Admm.lean: the method and slopes of quadratic functions; exact arithmetic

Proof: induction over the rounds; the slope of the dual variable grows by one per round; floor arithmetic for the learning rate; witnesses

### C102 Half-precision constants change a model only by rounding

Modelled: Model/HalfQuant.lean: the loop over the constants, the conversion back, rewiring and the removal of unread constants; Spec/Half.lean: rounding to binary16, networks as systems of equations

Proof: the result of the loop in closed form by induction; solutions are carried over in both directions; error bound from the definition of rounding

### C100 Error analysis reports the worst layers and leaves the model as it was

Modelled: Model/ErrorAnalysis.lean: both functions step by step - mode, hooks, switches, runs, measurements, sorting, restoring; what the model computes is a parameter and may fail; Spec/ErrorAnalysis.lean: modules and what a report of the worst should be

Proof: each step as a map over the modules, composed; sorting by merge sort; witnesses for a frozen layer and a failing run

### C101 Restoring batch normalization keeps the model

Modelled: Model/BnRestore.lean: which paths are wrapped, the running statistics, both wrappers, per channel in exact arithmetic; Spec/BnRestore.lean: batch normalization, running averages

Proof: induction over the history; the root lies between its argument and 1; a limit for channels without variance; witness for shared modules

### C82 In-place operations survive tracing

Modelled: Model/InPlace.lean: recording of calls, the new object noop_handler makes for a result in place, unrecorded assignments, the rebinding line for operators like +=, running the generated code with tuples and storages, dead-code elimination; Spec/InPlace.lean: tensors as parts of storages, execution of the model, which tensors are stale

Proof: simulation: storages of tensors that are not stale correspond one to one, up to the part the generated code works on; induction over the program; witnesses for every excluded case

### C103 Channels that depend on each other are grouped

Modelled: Model/CenterConstraint.lean: collection of the constraints of all leaves, merging per center, the two mappings between channels and positions, the pass over the leaves; Spec/Ties.lean: the graph of channels and positions, connection as equivalence closure

Proof: invariant that every set is connected, by induction over the leaves; a leaf's merged position sets contain its connected components; sets only grow; witnesses for connections through several leaves

### C104 Batch normalization keeps its result when it is not fused

Modelled: Model/BatchNorm.lean: the folded weight and bias, the widened shapes, MUL and ADD with broadcasting, default weight and bias, the operators around it for quantized tensors; Spec/BatchNorm.lean: F.batch_norm in both modes and quantized batch norm

Proof: broadcast index computation for every rank and field algebra; witnesses for training mode and the lost ReLU

### C105 The converted model takes and returns images in the layout that was asked for

Modelled: Model/IoLayout.lean: both passes on graphs of named operators with arbitrary meaning, flag handling, and separately the edge lists with deletion by number; Spec/IoLayout.lean: networks, layouts and what a flag argument means

Proof: a rewiring lemma by induction over the operators (reading a tensor with the same value computes the same), per step and then by induction over the chosen inputs and outputs; witnesses for the failures

### C106 Operations along an axis work on the axis PyTorch means

Modelled: Model/AxisArg.lean: the emitted operators of each conversion; Spec/AxisArg.lean: the axis an argument means, what the PyTorch operations do element by element, and what TFLite accepts

Proof: index arithmetic on permutations, reuse of C02 and C71, induction over shapes for broadcasting; witnesses for the failures

### C107 Making float operators between DEQUANTIZE and QUANTIZE work on quantized tensors keeps the result

Modelled: Model/RewriteQ.lean: the pass on straight-line programs over named tensors; Spec/RewriteQ.lean and Spec/Dataflow.lean: what operators compute on real numbers and stored integers and what running a program means

Proof: an invariant of the program (order, quantization of operands of DEQUANTIZE, use of quantized constants) kept by each replacement, by induction over the operators visited; monotonicity of quantization for minimum and maximum; witnesses for the failures

### C108 Statistics given for inputs fix their quantization

Modelled: Model/InputStats.lean: what is set, the assignment to inputs and the parameters calculated from it; Spec/InputStats.lean: PyTorch's calculation of parameters from a range

Proof: exact arithmetic; induction over inputs and readers; witnesses for the failures, for the KL algorithm with the search modelled for C95

### C109 Changing the number of integers of activations keeps what they can represent

Modelled: Model/InputStats.lean: rescale, sigmoidFirst, rescaleModule

Proof: linear arithmetic with the ratio of the two ranges; witnesses for the failures

### C110 The operands and the result of a quantized concatenation have one quantization

Modelled: Model/CatUnify.lean: the search with its queue, directions and counts, and the assignment of observers; Spec/CatUnify.lean: when a tensor feeds a concatenation with its quantization

Proof: invariant of the search (closed upwards at count 0 and downwards from what was found), groups are disjoint, potential for termination; witness for the failure

### C111 Replacing operators keeps the graph connected

Modelled: Model/Rebuild.lean: removal, addition of operators and restoring of connections; Spec/Rebuild.lean: when a graph is connected

Proof: invariant over the added operators (counts of connections, producers, output vertices); witnesses for other orders and for split_requantize

### C112 Fusing an addition into a matrix product keeps the result

Modelled: Model/BmmAdd.lean: the condition and the operator that is made; Spec/BmmAdd.lean: product, addition and activations over tensors of an ordered ring

Proof: index-wise comparison of the row sums, cases on the flag and the number of axes; witnesses for the lost activation and for quantized operands

### C113 A reshape between two transposes is dropped only if nothing moves

Modelled: Model/WrappedReshape.lean: the three searches for the combined permutation and the decision; Spec/Tensor.lean: transpose and reshape

Proof: equal number of axes: a permutation that keeps the order of axes larger than one is a reshape; end of the search by counting axes of each size; witnesses for added and dropped axes

### C114 The pruner knows which channels every layer receives

Modelled: Model/Track.lean: what is recorded and passed on by every kind of layer along a path; Spec/Track.lean: which elements of a tensor belong to which channels, layer by layer

Proof: invariant relating the numbers in the tensor and the translation table to the channels, by induction over the path; witnesses for the kinds of layers that break it

### C115 A pruned split still hands out its chunks

Modelled: Model/SplitArgs.lean: the table of chunks by reader and the new size or sizes; Spec/SplitArgs.lean: torch.split on a list of slices

Proof: induction over the chunks with the invariant that the table has one entry per chunk in order; counting for a single size; witnesses where readers and chunks are not one to one, chunks lose different numbers, or the split is along another axis

### C116 A channel is judged by its own weights

Modelled: Model/Scores.lean: the norms per kind of layer, the regrouping of gates and directions of recurrent layers and the loop over layers; Spec/Scores.lean: the weights of a channel and the score of a unit

Proof: index computation in concatenated matrices and induction over the layers; symmetry of distances; witnesses for grouped transposed convolutions and random scores of recurrent layers

### C117 Tracing leaves PyTorch as it found it

Modelled: Model/Patches.lean: attributes with inheritance, replacing and putting back group by group, the flags, the kept wrappers, the lock and the slots of __getitem__; Spec/Patches.lean: attribute lookup and the calls a program itself makes

Proof: an invariant over nested sessions (outside the replaced groups attributes are original or copied down), induction over programs and over trees of calls; witnesses for inheritance between listed classes, exceptions, replaced originals and subclasses

### C118 Only what does not depend on the inputs becomes a constant

Modelled: Model/Frozen.lean: one round of the walk per kind of node, which names are tracked, the expansion of lists, operands, the emitted operators and how they run; Spec/Frozen.lean: what programs compute, which names depend on inputs and where only shapes may be read

Proof: an invariant over the walk (every operand evaluates to the model's value; what is not tracked has the value of the example run; shapes agree), induction over the program; witnesses for detach, indexing of lists, lists with constants and hidden unknown operators

### C119 Moving a transpose across a reshape keeps the values

Modelled: Model/MoveAcross.lean: the direction found from the groups of axes, groups taken apart, the test for consecutive axes, the choice of the permutation, the three permutations and the new shape tensor; Model/ReshapeMap.lean: the groups

Proof: a permutation that keeps every group together is a permutation of the groups (induction); moving groups commutes with reshaping inside them (twice the lemma that merges axes); the dictionary lookups give the groups of the other side; witnesses for a reshape whose result is an output of the model and for empty tensors

### C120 Removing dead channels with batch-norm compensation changes nothing

Modelled: Model/BnComp.lean: when the bias is corrected, the new bias, the sliced batch norm and convolution; Spec/BnComp.lean: batch norm, activation and convolution with its padding modes

Proof: the sum over all channels is the sum over the kept ones (in whatever order they are kept) plus the sum over the removed ones; inside of the image a constant channel adds its value times the sum of the kernel; witnesses at the border, for other followers and for functional activations

### C121 The TensorRT comparison tells matching tensors from different ones

Modelled: Model/TrtCompare.lean: the flags of the engine, the outputs that are added, the sizes of the buffers, the verdict on one tensor over the reals, and the course of the function (calls and files); not the parsing of the engine's log

Proof: membership in the list of outputs; the product of a tensor with a multiple of itself is the multiple of its square, so the cosine is one; the call with a missing argument and the two equal paths are followed through

### C122 When several dimensions could be pruned, one is chosen that fits everywhere

Modelled: Model/DimChoose.lean: the search over the operators with its list of visited operators and dictionary of choices, the conflict check, the attempts made at a reshape and at a matrix product, and what is recorded for a tensor without a choice; how operators map dimensions is data of the graph

Proof: induction on the number of operators not visited: with a fitting assignment every step writes only its values and never meets a conflict, and what is visited stays closed under its neighbours; concrete graphs for the failures

### C123 The options of a quantizer reach the layers they are meant for

Modelled: Model/QConfigs.lean: a tree of modules with type names and settings, the two sets of settings built from the options by both quantizers, the walks that hand them out, the override walk, PyTorch's propagation to children, and the rewriting of the weight range; PyTorch's default settings are written down as data

Proof: the settings in force at a position are those of the closest module above that has some; induction on the position for each walk; concrete models and one statement for all models for the failures

### C124 LSTM weights rounded for quantization are put back by convert

Modelled: Model/LstmWeights.lean: the rounding of the four gates, the dictionary of remembered weights filled by preparing and emptied by converting, and the named modules of a model

Proof: the step of a gate is characterised in Spec/LstmWeights.lean; the dictionary is looked up by induction on the modules using that the keys are injective; concrete networks for the failures

### C125 Preparing a model for ONNX export keeps what it computes

Modelled: Model/OnnxExport.lean: the rewriting of a fake-quantizer, of the parameters and the forward of one channel of a fused convolution over the reals, and a weight fake-quantizer with the freezing hooks

Proof: integer arithmetic for the shifted ranges, field arithmetic for the folded batch normalization, idempotence of fake quantization and induction over the later calls for the frozen weights; concrete values for the failures

### C126 Restoring a converted model gives the float model it stands for

Modelled: Model/RestoreFloat.lean: the kinds of modules told apart, what each is replaced by, and the collecting of replacements before they are put in place; PyTorch's operators are parameters

Proof: case analysis on one module, induction over the children and over the calls; general statements for the failures

### C127 Ignoring channels with a tiny variance leaves the others as they are

Modelled: Model/RestoreFloat.lean: the choice of modules and channels, and the hook on the weight

Proof: the unmarked entries are characterised by position; order reasoning for the clamped tensor; a statement for all modules with only tiny variances for the failure

### C128 A generated model constructs its modules with the settings they have

Modelled: Model/CtorLines.lean: the three tables of the tracer, the wrappers around constructors and attribute setting, weak references and addresses, and the choice of the line for a module

Proof: an invariant per address, kept by every event; Spec/CtorLines.lean reads from the history alone how the object at an address came into being; concrete histories for the failures

### C129 A quantizer's error report lists exactly the layers below the threshold and leaves the model as it was

Modelled: Model/QatReport.lean, on top of Model/ErrorAnalysis.lean: hooks, switches, the run, the selection by threshold and the sorting; what the model computes, the ratio and the number of scales are parameters

Proof: the preparing and restoring of a module are composed and shown to cancel; the report is characterised by membership; concrete models for the failures

### C130 Validating a calibrated model uses what calibration found

Modelled: Model/PtqFakeQuant.lean: the module with its switches, the condition under which parameters are recomputed, and sequences of calls; the observer is a parameter

Proof: induction over the calibration and the validation calls; statements for all modules for the failures

### C131 Recurrent states become inputs and outputs of the right shapes

Modelled: Model/StateIo.lean: the shape computation and the two conditions; Spec/StateIo.lean: the shapes after PyTorch's documentation

Proof: induction over the layers; statements about all layers of a kind for the failures

### C132 Copying a reshape or transpose for each of its readers changes nothing but the number of readers

Modelled: Model/BranchExpand.lean: the selection of operators and readers, the copies and the renaming of operands; Spec/BranchExpand.lean: what a network computes, independent of the order of its operators

Proof: values of the old network extend to the new one; conversely copies are shown to have the value of their originals by induction over a rank of the tensors; concrete networks for the failures

### C133 A pruned recurrent layer computes what its masked form computes

Modelled: Model/RnnPrune.lean: masks and cuts of all parameters, on top of Model/GroupPrune.lean and Model/PyOrder.lean; Spec/RnnPrune.lean: stacks of recurrent layers over a ring with arbitrary activations, shown to be the layers of Spec/Rnn.lean; LSTMs with projections are not modelled

Proof: one step is compared gate by gate, then induction over time and over layers; concrete layers for the failures

### C134 A layer that takes over the activation behind it computes what the prepared model computed

Modelled: Model/ActFold.lean: the switches, ranges and parameters of the two quantizers over histories of events, and convert; Spec/ActFold.lean: PyTorch's fake quantizers with moving averages of the range

Proof: invariant over histories: the observed range stays inside the bounds of the activation; then the storage range clips as the activation does

### C135 The files generate_code writes give back the model, and its check accepts exactly models that agree

Modelled: Model/CodeFiles.lean: the lines of __init__, the saved state dictionary, running the lines with arbitrary initial numbers, strict loading, and the check; Spec/CodeFiles.lean: tolist, torch.tensor of lists, load_state_dict and numpy.allclose

Proof: induction on shapes for the way through nested lists; induction on nodes for the lines and the saved entries; lookup in dictionaries with distinct keys

### C136 Modes are put back after quantizing, and frozen batch norm statistics stay as they are

Modelled: Model/Modes.lean: saving and restoring flags over modules() and train(), the flags of fused layers and their methods; Spec/Modes.lean: hierarchies with shared modules, PyTorch's modules() and train()

Proof: modules() lists containers before what they contain, so the last write to a module is its own; invariant of frozen layers over call sequences

### C137 Dequantizing a rewritten model gives a float model that computes the same

Modelled: Models as lists of lines, calls with Python's binding of arguments to the parameters of FloatFunctional and torch; the rewriting as the code does it: stubs removed one after the other, add_relu split, scalar calls renamed, objects dropped.

Proof: A renaming lemma for runs of lines (induction over the lines), applied to each removed stub and each inserted relu; invariants of the sequences of edits show that nothing is left.

### C138 The integer LSTM gets its biases, cell state and hidden state in the units its kernel computes with

Modelled: The pass over a list of operators with the table of replaced bias tensors, the cell range by power of two, and the quantizations given to the state and the intermediate tensor; the kernel's use of them as a specification.

Proof: Invariant on the table of replaced tensors (induction over operators and gates); bounds of the ceiling logarithm and of rounding.

### C139 The file that is written reads back as the model that was built

Modelled: All 158 operator classes and the slots and defaults of the generated Add functions as tables extracted from the source by scripts (tools/ext.py, tools/gen.py); the build methods as functions on them; the flatbuffers library as a maker of objects. The schema is a separate specification, written from TensorFlow's schema.fbs (tools/spec.py).

Proof: Reading a table built from distinct slots gives each value or its default (induction over the calls); agreement of every class with the schema is decided by the kernel over the full table of classes; the rest by lists.

### C140 Preparing observes the modules that work on quantized values and keeps the hooks of the user

Modelled: The steps of both methods on modules with a qconfig, hooks and an observer; PyTorch's propagation of qconfigs and insertion of observers as the library defines them; moving hooks when fusing.

Proof: Each step changes modules one by one, so a fold is an iteration at every module; invariant of the table of uses by induction; propagation along the tree with parents first.

### C141 An epoch takes the steps and schedules it was configured with

Modelled: The loops over abstract parameters, gradients and batches with counters for the schedulers; the gradient scaler is left out.

Proof: Induction over the batches and over the epochs with closed forms of the counters; the running average as an invariant over the samples seen.

### C142 Switched-off layers stay off, and quantize() copes with the files of earlier runs

Modelled: The operations on layerwise_config in rewrite_quantize_graph around abstract rewritings; the search for fused groups of C85; the files code, weights and configuration with every state between two writes.

Proof: Values seen through get(name, True) are invariant under every step; induction over reruns; invariant of the files over histories of interrupted runs.

### C143 No operator of the file writes over the tensor of another

Modelled: The pass that connects unread outputs, over a graph of vertices, labelled edges and the lists of the model, followed by the numbering of tensors of C18.

Proof: Characterisation of the names the pass connects; the numbering theorem of C18 for every order of the labels; for tensors without a label, induction over the numbering shows that the index of the constructor is kept.

### C144 Preparing and converting leave PyTorch's own tables and classes as they were

Modelled: The shared tables as state; each function as the sequence of its replacements around a PyTorch call that returns or raises; Python's stack as a bound on nested closures.

Proof: Fold invariant for the attribute swap of convert; induction over histories; induction on the number of preparations for the nesting of closures.

### C145 In ONNX models exactly the activations that leave the quantized part are not quantized

Modelled: The backward search from the outputs with its state as recursion over the nodes read; the number of queue entries.

Proof: The search finds exactly the inductively defined backward paths; these are decomposed into a part before and a part after the DeQuantStub; induction on the number of layers for the effort.

### C146 Dropout of a converted model is PyTorch's dropout

Modelled: The operators added for the layer as a random function: a finite product distribution over masks and the value for each mask, over the reals.

Proof: Equality of the two distributions sample by sample; the mean by factoring the sum over all masks.

### C147 TensorRT's integer operators read quantized tensors and nothing else is quantized

Modelled: The loop that inserts stubs with the three lists of every node (previous nodes, tensors, indices), the table of stubs, the redirection of insert_between with its count of remaining tensors, what the generated code hands to a node; the switches of the quantizers of a module tree.

Proof: An invariant over the previous nodes visited so far, then induction over the nodes; induction on the module tree; evaluation of the failing case.

### C148 The quantizers repeated for ONNX export change no value

Modelled: The search with its queue and visited set over a graph of operators, the table of hooks by module, the run of the model with and without the hooks; quantizers are any idempotent functions.

Proof: An invariant of the queue: every entry carries a module that quantized last on a way to the tensor read; the values by induction over the operators; evaluation of the failing graphs.

### C149 Quantizing a language model replaces exactly its linear layers

Modelled: A heap of modules with named children, the lookup of a name, the loop over the listed modules with the replaced entry and the emptied layer; PyTorch's named_modules by what it lists.

Proof: An invariant of the loop: names replaced so far lead to new objects, all others to the same object as before with the same content; evaluation of the models with sharing.

### C150 The nodes of a traced graph are the calls made by the model's own code

Modelled: Forward passes as nested calls; the lock, the set of modules to skip, the wrapper of functions and the two hooks of layers.

Proof: By induction over the calls, once with the lock held (nothing changes) and once without; evaluation of the failing nestings.

### C151 The expressions for layers in a rewritten forward function lead to these layers

Modelled: The text of the expressions, the two regular expressions that turn it back and the split at dots; how Python reads a chain of accesses and what each access leads to, in the specification.

Proof: Induction over the name with a text for each step that is read, and replaced, independently of what follows; evaluation of the failing names.

### C152 A generated model returns its results in the form in which the model returned them

Modelled: The branches over the type of the result, the output nodes with and without brackets, the return statement of the generated code and what Python returns for it.

Proof: Induction over the results with an equation for each item; evaluation of the failing forms.

### C153 A converted operator reads the constant its operator reads, whoever else reads it

Modelled: The preparation of constants (conversion to the promoted type, indices moved up and converted to 32 bits), the lookup by name in the graph and the operators written, on tensors of one dimension with whole numbers; the operators of PyTorch and TFLite in the specification.

Proof: Invariant over the operators (what the graph holds was prepared for some operator); evaluation of the failing models.

### C154 Cutting an LSTM with a projection changes nothing beyond its masks

Modelled: The masks and the cuts of weight_ih, weight_hh, weight_hr and the biases with the index arithmetic of the code; LSTMs with projections as in PyTorch's documentation in the specification.

Proof: Simulation between the states of the two layers, induction over time and layers; evaluation of the failing layer.

### C155 The states of LSTM layers can be found in a converted model

Modelled: The input lists of the LSTM operators, the numbering of tensors, the flags and operator codes in the file, and the search through them.

Proof: Computation of the input lists for every layer, lookup of written indices, induction over the operators.

### C156 Lazily constructed objects get the arguments they were given

Modelled: The constructor, get_current and get_next with the variable left over from the first loop; the expected histories in the specification.

Proof: Refinement by induction over the history; evaluation of the failing histories.

### C157 Hooks of layers survive fusing for quantization

Modelled: The four fused forms with the hooks moved to them, the hooks copied with a layer, and deletion from the dictionary iterated over; how hooks are called is the specification.

Proof: Evaluation of both chains for arbitrary hooks, induction over hooks that do not look at the input; evaluation of the failing groups.

### C158 Checkpoints of fused transposed convolutions load in both formats

Modelled: The renaming in the dictionary and the list of missing names; the two formats in the specification.

Proof: Composition of the five renamings, each of which changes two entries; invariance for entries of other layers by induction.

### C159 Sizes read by a traced model are sizes of the tensors it reads them from

Modelled: The wrapper of attribute access for shape, with the two tables indexed by address; reads at arbitrary addresses.

Proof: Invariant: what a table holds at an address comes from an earlier read there, with the size it had; induction over the reads.

### C160 Types named in a model stay those types when it is traced

Modelled: The table from objects to nodes at the objects that are types, reads that write it, arguments that look it up.

Proof: Invariant: the table has an entry for the type of each tensor read, which is a tensor read that had this type; induction over the events.

### C161 Layers whose construction was not seen are written with the settings they have

Modelled: The loop over the parameters, the quoting of strings read by extra_repr; a specification of Python's string literals and of binding arguments to parameters.

Proof: Induction over the parameters; Python's repr is inverted by its string literals for all strings; witnesses for the parameters and strings that are lost.

### C162 A traced graph that is run on other inputs holds the tensors of these inputs

Modelled: The table of tensors, the nodes in the order of their numbers, errors as values.

Proof: Invariant: the table holds exactly the inputs and the outputs of the nodes that have run; induction over the sorted nodes.

### C163 Simulated bfloat16 training rounds every number to the nearest bfloat16 number

Modelled: Numbers as sign and bits, PyTorch's rounding on bits, the recursion through lists and tuples, the flag.

Proof: Float32 numbers are equally spaced between neighbouring bfloat16 numbers, so nearest in bits is nearest in magnitude; induction over paths and over histories.

### C164 The identity pruner works with the settings it documents

Modelled: The preparation of the configuration and the attribute bn_compensation, on top of the model of the one-shot pruner's constructor.

Proof: Reduction to the theorems about the one-shot pruner (C98); the effect of the lost default on a network by the model of the compensation (C120).

### C165 Sample inputs reach the inputs of the converted model, and the model handed in comes back as it was

Modelled: The state of the converter from its construction to the input nodes of its graph, with exceptions and the state of the caller's model; tracing is not modelled, the names of the traced graph's inputs are given.

Proof: Structural induction over the arguments; case analysis over the exceptions; concrete witnesses for nested lists, lists of tensors, changed models and second calls.

### C166 The largest elements of a converted model are PyTorch's

Modelled: The assertions of the conversion and TOPK_V2 on a row; PyTorch's topk is a relation.

Proof: The answer of TOPK_V2 satisfies the relation; any two answers, completed by the other elements in order, are the same sorted row; a witness with equal elements for the places.

### C167 A NetAdapt pruner can be constructed with the settings it documents

Modelled: The checks of the settings, the attributes each constructor and parse_config set, and the attributes the constructor of the one-shot pruner reads.

Proof: Unfolding of the checks for any documented configuration; the attribute skip_last_fc is set by none of the code that runs before it is read, which gives the negation for every configuration and model.

### C168 Exported files lie together and describe every result

Modelled: Replacing text in a path, the flattening of the results and the writing of the configuration.

Proof: Induction over the path: the replacement gives the expected path exactly if the rest does not contain the ending, by comparing lengths; flattening and reading the tensors by induction over the results.

### C169 Powers and reciprocals of a converted model are PyTorch's

Modelled: The conversion of the exponent, the promotion of the operands and TFLite's POW and DIV, at one element, for any power function that multiplies for whole exponents.

Proof: Case analysis over the types of the operands; rounding of the exponent towards zero for integer tensors.

### C170 A pruner that trains uses the items it was given

Modelled: parse_context with the tables of both pruners; the context is a mutable object, items have a Python truth value.

Proof: Induction over the table and over the settings of an item.

## Results

Status per property, what the theorems cover, and which theorems refute the general statement of a property the code violates
(each has a concrete input as witness).

* **C01** (proved) Consecutive transposes collapse to one equivalent transpose. Chains of any length; a removed no-op transpose is the identity.
  Theorems: `C01_transpose_chain`, `C01_noop_transpose`.
* **C02** (proved) Layout wrapping is invisible. Wrapping transposes of channels-last operators and of last-dimension operators.
  Theorems: `C02_nhwc_wrapping`, `C02_last_dim_wrapping`.
* **C03** (proved) Transpose turned into reshape keeps the data.
  Theorems: `C03_transpose_to_reshape`.
* **C04** (partial) Lowering the rank of a transpose keeps the data. False in general: the code lowers with perm where the inverse is needed. Proved for the permutations where the two agree, with counterexamples.
  Theorems: `C04_lower_transpose_partial`, `C04_lowering_uses_inverse`.
  Refutations: `C04_lower_transpose_false`, `C04_pixel_shuffle_false`, `C04_size_one_false`.
* **C05** (proved) Consecutive reshapes collapse and preserve data.
  Theorems: `C05_reshape_chain`.
* **C06** (proved) Simple-reshape detection is exact.
  Theorems: `C06_simple_reshape`.
* **C07** (partial) Reshape axis grouping is a faithful factorisation. False for a rank-0 shape against a rank>=1 shape (IndexError); proved for all other pairs.
  Theorems: `C07_reshape_mapping_partial`.
  Refutations: `C07_scalar_false`.
* **C08** (proved) Consecutive slices collapse to one equivalent strided slice. Any chain length and rank.
  Theorems: `C08_slice_chain`.
* **C09** (partial) Consecutive gathers collapse to one equivalent gather. The fused gather is always equivalent; removal is proved for permutations and false for other sorted index vectors.
  Theorems: `C09_gather_chain_partial`.
  Refutations: `C09_gather_removed_false`, `C09_gather_repeated_false`.
* **C10** (proved) SAME padding arguments match TensorFlow's definition.
  Theorems: `C10_same_padding`, `C10_output_length`, `C10_transpose_conv_slice`.
* **C11** (partial) Zero padding is only absorbed where it is equivalent. Proved for convolutions and for max pooling behind a lowest-value PADV2; false for a zero PAD in front of a max pooling.
  Theorems: `C11_pad_conv`, `C11_pad_max_pool_partial`.
  Refutations: `C11_pad_max_pool_false`.
* **C12** (partial) Batch-norm folding into the preceding convolution is exact. Proved for every CONV_2D/DEPTHWISE_CONV_2D/FULLY_CONNECTED kernel and ungrouped transposed convolution; false for depthwise transposed convolution (wrong weight shape) and grouped transposed convolution (broadcast aborts).
  Theorems: `C12_conv_bn`, `C12_deconv_bn_partial`, `C12_grouped_deconv_aborts`.
  Refutations: `C12_depthwise_deconv_false`.
* **C13** (partial) Batch-norm folding into the following convolution is exact. Proved when the convolution reads no padding (or the BN shift is zero) and the bias has the right length; false with zero padding and for a single-output bias.
  Theorems: `C13_bn_conv_partial`.
  Refutations: `C13_padding_false`, `C13_bias_length_false`.
* **C14** (partial) Channel gathers around a convolution are absorbed correctly. Convolution followed by gather is proved; gather followed by convolution is proved when the gather permutes the channels and is false for other index lists.
  Theorems: `C14_conv_gather`, `C14_gather_conv_partial`.
  Refutations: `C14_gather_conv_false`, `C14_gather_subset_false`.
* **C15** (proved) Dropping a tile before a broadcasting operator is safe.
  Theorems: `C15_tile_removal`, `C15_tile_removal_left`.
* **C16** (partial) Reciprocal square root fusion computes the same quotient. Proved with the square root as divisor and a numerator of ones that does not broadcast; false in the two other cases the matcher accepts.
  Theorems: `C16_rsqrt_partial`.
  Refutations: `C16_numerator_false`, `C16_ones_shape_false`.
* **C17** (proved) Operators are emitted in dependency order. Topological sort and operator collection: for every consistent acyclic graph the order is a permutation in which every producer precedes its consumers.
  Theorems: `C17_topological_sort`, `C17_collect_operators`.
* **C18** (proved) Exported tensor and buffer indices are consistent. Assumes distinct model inputs and distinct tensor objects, as the code's dictionaries by name do.
  Theorems: `C18_tensor_buffers`, `C18_missing_output`.
* **C19** (partial) Changing the quantized storage type keeps the represented values. Proved for quint8/qint8/per-channel storage and for int16 with zero point 0; the symmetric conversion with zero point other than 128 and the int16 conversion with non-zero zero point change the represented reals (negations proved).
  Theorems: `C19_quint8_to_8bit_partial`, `C19_qint8`, `C19_per_channel`, `C19_int16_partial`.
  Refutations: `C19_symmetric_false`, `C19_int16_false`.
* **C20** (proved) Weight-only quantization error is at most half a step. Over exact reals and any nearest-integer rounding.
  Theorems: `C20_hybrid_quantize`, `C20_scale_tight`, `C20_granularity`, `C20_lstm_bias`.
* **C21** (partial) Operator versions follow the runtime's versioning table. Every operator gets the required version except TILE, SPACE_TO_BATCH_ND/BATCH_TO_SPACE_ND and SUB, for which negations are proved.
  Theorems: `C21_versions_partial`, `C21_misversioned_one`, `C21_range`, `C21_process_idempotent`.
  Refutations: `C21_sub_false`, `C21_tile_false`, `C21_space_batch_false`.
* **C22** (proved) Splitting wide concatenations is equivalent. For every concatenation with more than ten inputs: termination, every emitted operator takes between one and ten inputs, written once and before use, and the value is the concatenation of all inputs in order.
  Theorems: `C22_cat_split`.
* **C23** (partial) Grouped convolutions are decomposed correctly. Group convolution: proved in full for float and per-tensor weights. Group transposed convolution: proved when no activation is fused; with a fused activation the rewrite drops it (negation proved). Per-channel quantisation scales are not split (negation proved).
  Theorems: `C23_group_conv`, `C23_group_deconv_partial`.
  Refutations: `C23_group_deconv_false`, `C23_per_channel_false`.
* **C24** (partial) Dead-node cleanup keeps everything the outputs need. Nodes needed for an output are never removed; dead nodes are removed when clean-up runs; the code skips clean-up on a weakly connected graph (negation proved).
  Theorems: `C24_keeps_needed`, `C24_removes_dead_partial`.
  Refutations: `C24_connected_false`.
* **C25** (proved) Channel dependency merging yields the connected components. The model follows merge_constraint with its three tables; set elements are integers.
  Theorems: `C25_merge_constraint`, `C25_minus_one`, `C25_minus_one_first`.
* **C26** (proved) Channel groups are the common refinement. Includes termination (explicit iteration bound) and maximality of the blocks. The final group.sort() is any permutation.
  Theorems: `C26_merge_group`.
* **C27** (proved) Least-important selection is correct. For every linearly ordered score type (no NaN), including tie-breaking.
  Theorems: `C27_get_smallest_k`.
* **C28** (partial) Pruning never removes every channel. Least important first, minimal in each group, at least the requested fraction over the leaf, and something is left in each group whose dependency sets are small enough; otherwise the code can prune every channel (negation proved). Leaves whose centres were pruned through another leaf are missing. When a layer was already pruned through another leaf, a further set is taken exactly while the layer stays within the rate.
  Theorems: `C28_greedy_partial`, `C28_shared`, `C28_shared_stop`.
  Refutations: `C28_all_pruned_false`.
* **C29** (partial) Channel-multiple rounding keeps as many removable channels as possible. When the number of dead channels is not a multiple of m the largest multiple is kept. When it already is a multiple nothing is removed at all (negation proved for every such case).
  Theorems: `C29_multiple_partial`.
  Refutations: `C29_exact_multiple_false`.
* **C30** (partial) Constant shapes are rewritten to the pruned size. The pruned index set is exact. view(): right size when the double rounding is exact or the dimension small; off by one for 49 channels (negation). reshape(): writes the removed count instead of the kept count (characterised and negated).
  Theorems: `C30_pruned_idx`, `C30_view_partial`, `C30_reshape_removed`, `exists_double`.
  Refutations: `C30_view_false`, `C30_reshape_false`.
* **C31** (partial) Physically pruning equals masking. Pruning equals masking for every well-formed network whose kept indices enumerate in ascending order from Python's set; negation with the real CPython set layout at a concatenation; LayerNorm negation. C31_layer_norm says what a pruned LayerNorm computes.
  Theorems: `C31_prune_partial`, `C31_output_partial`, `ascending_of_few`, `C31_layer_norm`.
  Refutations: `C31_set_order_false`, `C31_layer_norm_false`.
* **C32** (partial) Recurrent-layer gate indices are expanded correctly. Gate rows exact. Direction split right when both directions lose the same number of units; negation otherwise.
  Theorems: `C32_gate_rows`, `C32_directions_partial`.
  Refutations: `C32_directions_false`.
* **C33** (partial) Pruned-network FLOPs are those of the smaller network. Proved for networks in which no module is used twice and every layer keeps a channel. Negation: a shared ReLU collects the indices of all its uses and the reported number can be negative.
  Theorems: `C33_flops_partial`.
  Refutations: `C33_shared_module_false`.
* **C34** (partial) NetAdapt search terminates within budget. Termination, strict descent and the three reasons for ending are proved for metrics above -1; exactness of the plan's FLOPs when the cost is linear in the channels. Negations: extrapolated quadratic cost misses the target; metrics at or below -1 stop the search early. The step is proved about the method itself: as C167 shows, the constructor of this pruner raises before any step can be taken.
  Theorems: `C34_search_partial`, `C34_plan_meets_target`, `C34_plan_exact_partial`.
  Refutations: `C34_plan_exact_false`, `C34_negative_metric_false`.
* **C35** (partial) Cross-layer equalization preserves the network function. Function preservation for non-dead channels and balanced ranges (ungrouped pairs) are proved; dead channels give NaN, grouped second layers mix ranges, and a shared module is rescaled twice (negation theorems). For whole networks: equalizing any pairs any number of times keeps what the network computes (C35_network_partial), each step changes its pair only (C35_step).
  Theorems: `C35_function_partial`, `C35_balanced_partial`, `C35_groups_safe`, `C35_network_partial`, `C35_step`, `C35_order`.
  Refutations: `C35_dead_channel_false`, `C35_grouped_balance_false`, `C35_shared_module_false`.
* **C36** (partial) Quantization-aware batch-norm folding is exact. Conv then BN proved for all groups; deconv only with one group, BN then conv only with one group and no padding; QAT forward needs a non-zero scale. Each exclusion has a negation theorem.
  Theorems: `C36_conv_bn`, `C36_deconv_bn_partial`, `C36_bn_conv_partial`, `C36_qat_forward_partial`, `C36_grouped_deconv`.
  Refutations: `C36_grouped_deconv_false`, `C36_bn_conv_padding_false`, `C36_bn_depthwise_false`, `C36_qat_zero_gamma_false`.
* **C37** (partial) TFLite-style fake quantization rounds halves away from zero and leaves its switches alone. Switches and observer input proved in full; rounding proved except within a millionth of the scale below a tie, where it is false; per-channel scales are broadcast along the wrong dimension (negation theorems).
  Theorems: `C37_switches`, `C37_rounding_partial`, `C37_away_unique`.
  Refutations: `C37_below_tie_false`, `C37_per_channel_false`.
* **C38** (proved) Integer weight compression loses at most half a step. All three modes, all bit widths, all rows with a non-zero element; a zero row has no defined result (C38_zero_row_false).
  Theorems: `C38_per_channel`, `C38_per_token`, `C38_per_tensor`.
  Refutations: `C38_zero_row_false`.
* **C39** (proved) 4-bit packing round-trips. Rows of any even length, all signed 4-bit values.
  Theorems: `C39_round_trip`, `C39_range`.
* **C40** (partial) Dynamic quantized linear layers apply the bias once, unscaled. Proved without a bias for one sequence or two-dimensional input; with a bias the code multiplies it by both scales, and three-dimensional batches fail (negation theorems). The easyquant kernels are not in the repository.
  Theorems: `C40_no_bias_partial`, `C40_bias_partial`.
  Refutations: `C40_bias_false`, `C40_batch_false`.
* **C41** (partial) Training returns the best epoch's model. Best epoch proved when some accuracy is positive; otherwise the run fails or loads a stale file. QAT freezes proved for three or more epochs; with fewer, batch norm is never frozen (negation theorems).
  Theorems: `C41_best_epoch_partial`, `C41_qat_partial`.
  Refutations: `C41_no_positive_false`, `C41_qat_false`.
* **C42** (proved) Running averages are exact. All histories; the only error is a zero total weight.
  Theorems: `C42_average`, `C42_error`.
* **C43** (partial) Converter configuration round-trips. Round trip proved under the stated conditions; a single output flag is repeated once per input, so outputs can be lost; prepare_inputs=False always fails (negation theorems).
  Theorems: `C43_round_trip_partial`, `C43_accepts`.
  Refutations: `C43_outputs_false`, `C43_parse_false`.
* **C44** (partial) Converter option validation is complete. All supported combinations accepted, all unsupported rejected except an unknown hybrid weight type, which is accepted (C44_unknown_type_false).
  Theorems: `C44_accepts`, `C44_rejects_partial`.
  Refutations: `C44_unknown_type_false`.
* **C45** (partial) Ceil-mode pooling keeps its output size and values. Sizes and values of max pooling, floor and ceil mode, under the stated conditions; false for larger paddings, even-kernel SAME shortcut, large strides and 16-bit models (negation theorems).
  Theorems: `C45_max_pool_partial`.
  Refutations: `C45_ceil_padding_false`, `C45_even_kernel_false`, `C45_negative_padding_false`, `C45_int16_padding_false`.
* **C46** (proved) Quantized scalar constants are represented exactly.
  Theorems: `C46_scalar_exact`.
* **C47** (partial) Moving a transpose across an operator keeps the result. All operator classes except PACK with a permutation that moves the packed axis and PRELU with vector slopes or a moved batch axis, where the rewriting is wrong (witnesses); operands of larger rank than the permutation and unused UNPACK outputs make the pass fail (witnesses)
  Theorems: `C47_elementwise`, `C47_gather`, `C47_split`, `C47_pad`, `C47_mirror_pad`, `C47_tile`, `C47_slice`, `C47_strided_slice`, `C47_concat`, `C47_unpack`, `C47_pack_partial`, `C47_pack_input_perm`, `C47_binary_partial`, `C47_prelu_partial`, `C47_reduce`, `C47_unused_shape`.
  Refutations: `C47_pack_false`, `C47_prelu_vector_false`, `C47_prelu_batch_false`, `C47_rank_false`, `C47_unpack_unused_false`.
* **C48** (partial) Mask indices accumulate. Input and output indices accumulate sorted over every history with save/restore when the first list is ascending; the last registered mask wins. Negations: custom indices are lost by save/restore; a single unsorted list stays unsorted.
  Theorems: `C48_accumulate_partial`, `C48_custom_partial`, `C48_last_mask`.
  Refutations: `C48_custom_false`, `C48_unsorted_false`.
* **C49** (proved) Overlapping dependency subgraphs are merged. All assignments of centres to operators; the dictionary's key order is not represented.
  Theorems: `C49_division`.
* **C50** (proved) Chains of fusable operators are found completely. All edge lists that form simple paths, in any order.
  Theorems: `C50_chains`.
* **C51** (partial) Slices with run-time bounds keep following them. Proved when a fused slice has constant bounds (whatever the run-time bounds of an unfused pair); C51_dynamic_slices_false: a second slice whose start is computed at run time is frozen to its traced value.
  Theorems: `C51_dynamic_slices_partial`.
  Refutations: `C51_dynamic_slices_false`.
* **C52** (partial) x[start:end:step] selects the same positions after conversion. All axis sizes, ranks, stops and positive steps, for a start inside the axis; C52_start_outside_false: a start before the first element or (step 1) behind the end gives an invalid SLICE, and with a step other elements.
  Theorems: `C52_slice_partial`.
  Refutations: `C52_start_outside_false`.
* **C53** (partial) Identity pruner removes only channels that are dead in every use. Proved when no leaf reads one centre channel in two places with different deadness; negation for batch norm over a concatenation of a tensor with a function of itself.
  Theorems: `C53_dead_partial`, `C53_removed_partial`.
  Refutations: `C53_live_channel_false`.
* **C54** (partial) Grouped convolutions lose exactly each group's own channels. Proved when every group loses the same number of channels; negation otherwise.
  Theorems: `C54_groups_partial`.
  Refutations: `C54_groups_false`.
* **C55** (partial) Pruned recurrent layers keep gate and unit order. Proved when the kept rows keep ascending order in CPython's set table; negation for an LSTM with 8 units.
  Theorems: `C55_gate_order_partial`.
  Refutations: `C55_gate_order_false`.
* **C56** (partial) Bias absorption keeps the function of the two layers. Proved for chains of any length of ungrouped or depthwise convolutions that read no padding: whenever the absorption succeeds, the outputs are equal for every input whose pre-activations stay at or above the absorbed amounts. Padding, grouped convolutions and stale batch-norm parameters after equalization are counterexamples.  C56_groups_partial is the loop over a list of groups taken in the order of the chain; C56_order_false shows that another order changes the result.
  Theorems: `C56_partial`, `C56_defined`, `C56_groups_partial`.
  Refutations: `C56_grouped_false`, `C56_padding_false`, `C56_after_equalization_false`, `C56_order_false`.
* **C57** (partial) Average and adaptive pooling divide by the right count. Both settings of count_include_pad and adaptive pooling for every order-independent reduction. divisor_override and one-dimensional pooling with padding are wrong in the code (negations proved); 2-D windows, values over the rationals.
  Theorems: `C57_avg_pool_partial`, `C57_avg_pool_accepted_partial`, `C57_pool1d_partial`, `C57_adaptive_pool`.
  Refutations: `C57_divisor_false`, `C57_pool1d_padding_false`.
* **C58** (partial) An LSTM layer keeps its recurrence. Unrolled (any layers, directions, biases, layout, gate mode; sequence and final states) and fused (uni, bi, mapped bi; first run) agree with PyTorch when constant initial states are zero. Constant nonzero states are lost, a fused LSTM keeps its state between runs, and separated gates with constant zero c fail (negations proved). Exact arithmetic, arbitrary activations; quantized LSTM not modelled.
  Theorems: `C58_unrolled_partial`, `C58_fused_partial`, `C58_params`.
  Refutations: `C58_constant_state_false`, `C58_second_run_false`, `C58_separated_false`.
* **C59** (partial) A GRU layer keeps its recurrence. Agrees with PyTorch (sequence and final states) when constant initial states are zero; a constant nonzero state is lost (negation proved). Exact arithmetic, arbitrary activations.
  Theorems: `C59_gru_partial`.
  Refutations: `C59_constant_state_false`.
* **C60** (partial) Resizing reads the same source pixels. Nearest and bilinear resizing to a given size: proved for every size. By a scale factor: proved when the resulting size is whole; refuted otherwise. Positions are rational: floating-point rounding of source positions is not modelled.
  Theorems: `C60_nearest_size`, `C60_nearest_factor_partial`, `C60_bilinear_size`, `C60_bilinear_factor_partial`.
  Refutations: `C60_nearest_factor_false`, `C60_bilinear_factor_false`.
* **C61** (proved) Rolling, flipping, chunking and selecting move the right elements. roll (with and without dimensions), flip, select, split, chunk, unbind and stack; empty axes (the converter divides by zero) and flip without dimensions excluded
  Theorems: `C61_roll`, `C61_roll_flat`, `C61_flip`, `C61_select`, `C61_split`, `C61_chunk`, `C61_unbind`, `C61_stack`.
* **C62** (proved) Pixel shuffle and unshuffle keep every pixel's place. rank 4 inputs, the ones the converter supports
  Theorems: `C62_pixel_shuffle`, `C62_pixel_unshuffle`.
* **C63** (partial) gather and scatter address the same elements. gather is proved; scatter is proved for indices without repeated targets and refuted for repeated ones (values are added)
  Theorems: `C63_gather`, `C63_scatter_partial`, `C63_scatter_updates_shape`.
  Refutations: `C63_scatter_repeated_false`.
* **C64** (partial) Indexing with tensors selects the same elements. several indices: proved for non-negative indices whose shapes repeat in row-major order; one index: proved, negative constants included; assignment: proved for distinct targets.  Refuted: inner-axis broadcasting, outer broadcasting, negative indices, constant values with a varying input, repeated targets, constant rows
  Theorems: `C64_index_partial`, `C64_single_partial`, `C64_put_partial`.
  Refutations: `C64_broadcast_false`, `C64_outer_false`, `C64_negative_false`, `C64_single_negative_false`, `C64_put_constant_false`, `C64_put_repeated_false`, `C64_put_row_false`, `C64_put_infinity_false`.
* **C65** (partial) Masked filling and where keep the unmasked values. Every element of masked_fill/where equals the selection, for all shapes that broadcast and all finite (and most infinite or NaN) values. Refuted: infinite input under the mask and infinite same-type tensor fill values give NaN; an infinite number is replaced by the largest finite one. Rounding and the sign of zero are not modelled.
  Theorems: `C65_masked_fill_partial`, `C65_masked_fill_defined`.
  Refutations: `C65_masked_infinity_false`, `C65_infinite_tensor_false`, `C65_clamped_false`.
* **C66** (partial) Unfold reads the same patches. unfold: proved for equal paddings of height and width and images of at most 2^24 elements; refuted for different paddings and for larger images. fold: proved for all paddings, images of at most 2^24 elements.
  Theorems: `C66_unfold_partial`, `C66_fold_partial`.
  Refutations: `C66_padding_false`, `C66_large_false`.
* **C67** (partial) Arithmetic with a Python scalar uses the scalar's value. Proved for every operator when the operand's value survives the conversion to the tensor's type and division is not on integers. Refuted: integer tensor with fractional scalar, integer division, division with a rounding mode (ignored). Numbers are exact: overflow and rounding are not modelled.
  Theorems: `C67_partial`, `C67_defined`.
  Refutations: `C67_fraction_false`, `C67_integer_division_false`, `C67_rounding_mode_false`.
* **C68** (partial) Normalisation layers compute PyTorch's statistics. Layer, instance and group normalisation proved for all shapes, group counts, weights and square-root functions over any field; var and std proved for a non-empty or absent list of axes, every keepdim and correction. An empty list of axes is a counterexample. Rounding of float arithmetic is outside; instance norm with running statistics becomes a batch norm, not part of this model; layer norm without affine parameters and correction=None crash.
  Theorems: `C68_layer_norm`, `C68_instance_norm`, `C68_group_norm`, `C68_var`, `C68_std`.
  Refutations: `C68_var_empty_dims_false`.
* **C69** (partial) Matrix products use every operand. matmul/mm/bmm (2 to 5 axes, broadcast batches), linear, and addmm/addbmm/baddbmm with alpha = beta = 1 proved over any commutative ring. alpha and beta are ignored, a matrix times a vector emits nothing, a row bias is read as a column bias, a matrix bias is rejected: counterexamples.
  Theorems: `C69_matmul_partial`, `C69_vector_matmul_refused`, `C69_linear`, `C69_addmm_partial`, `C69_baddbmm_partial`, `C69_addbmm_partial`.
  Refutations: `C69_matmul_vector_false`, `C69_alpha_false`, `C69_addmm_row_bias_false`, `C69_addmm_matrix_bias_false`.
* **C70** (partial) Convolutions keep their result in the channels-last layout. Proved for 1-D, 2-D and 3-D convolutions (depthwise, grouped and ordinary) and 1-D/2-D/3-D transposed convolutions with any stride, padding, output padding, groups (1-D/2-D), dilation (3-D) and fused activation, with the bias inside the operator or added behind it. Refuted for the vendor operators (enable_mtk_ops): the fused activation is dropped. Per-channel quantization parameters of permuted weights and unbatched inputs are not modelled; 3-D with several groups is rejected by the runtime.
  Theorems: `C70_conv2d`, `C70_conv1d`, `C70_conv3d`, `C70_deconv2d`, `C70_deconv_shape`, `C70_deconv1d`, `C70_deconv3d`, `C70_deconv3d_src`, `C70_deconv3d_shape`, `C70_mtk_partial`.
  Refutations: `C70_mtk_false`.
* **C71** (partial) Expanding and repeating copy the right elements. expand, expand_as, repeat and repeat_interleave with a tensor and counts: proved in full. Refuted: torch.repeat_interleave(repeats) without a tensor.
  Theorems: `C71_repeat`, `C71_expand`, `C71_interleave`, `C71_interleave_flat`, `C71_interleave_self`.
  Refutations: `C71_interleave_self_false`.
* **C72** (partial) Removing operators from the graph keeps every other value. elinimate_sequences on any well-formed graph and any set of runs that do not touch each other: every remaining operator and output reads the value it read before. Missing: runs that touch each other. The unconditional claim is false: two chained no-ops that both have another reader abort the pass (C72_chained_noops_false), and with the last operator kept a constant in front of the run loses its buffer to the wrong tensor (C72_kept_last_constant_false).
  Theorems: `C72_partial`, `C72_single_run_defined`.
  Refutations: `C72_chained_noops_false`, `C72_kept_last_constant_false`.
* **C73** (proved) Sharing equal constants keeps every operator's inputs. Every operand is the tensor it was or a constant with the same key, edges stay one per operand, equal constants are read once, and every operator reads the same values. The pass raises on a constant without a buffer, which every fused LSTM has (C73_optional_false).
  Theorems: `C73`, `C73_computes`.
  Refutations: `C73_optional_false`.
* **C74** (partial) Moving a reshape across an operator keeps the result. Proved for one operator and either reshape that was picked: elementwise operators of one operand, of two operands (each possibly broadcast) when the picked shape is the result's, with a one-element operand; CONCATENATION, SPLIT, GATHER with a vector of indices, PAD, MIRROR_PAD, TILE, SLICE, STRIDED_SLICE and reductions along one axis; PACK and UNPACK when the packed axis or the one before it exists on both sides of the reshape; PRELU whose slopes have two or more axes. The axis the code finds (op_input_dims) is shown to be the only one the operator changes, and composed with the moves. Refuted by witnesses: PACK/UNPACK otherwise (elements change places, or a crash), GATHER with a matrix of indices, an operator that changes two axes or none, a broadcast operand larger than the picked shape, an operand of higher rank, PRELU with slopes of one axis (C74_prelu_vector_false). Missing: the vote and the rewiring.
  Theorems: `C74_map`, `C74_binary_partial`, `C74_scalar`, `C74_concat`, `C74_split`, `C74_gather_partial`, `C74_pad`, `C74_mirror_pad`, `C74_tile`, `C74_slice`, `C74_strided`, `C74_reduce`, `C74_pack_partial`, `C74_pack_next`, `C74_unpack_partial`, `C74_unpack_prev`, `C74_axis_pad`, `C74_axis_size`, `C74_axis_prelu`, `C74_pad_found`, `C74_slice_found`, `C74_tile_found`, `C74_prelu_partial`.
  Refutations: `C74_pack_false`, `C74_pack_crash_false`, `C74_unpack_false`, `C74_gather_false`, `C74_two_axes_false`, `C74_no_axis_false`, `C74_prelu_vector_false`, `C74_binary_crash_false`, `C74_binary_rank_false`.
* **C75** (partial) In-place updates keep their effect. Proved for all programs in which no tensor is read after an in-place update through another tensor of the same storage. Refuted: reading a tensor after updating a view of it, and updating a constant with input-dependent values (the dummy run's value is baked in). Shapes and the lowering of single operations are left to the other properties.
  Theorems: `C75_inplace_partial`.
  Refutations: `C75_view_false`, `C75_baked_false`.
* **C76** (partial) Quantized arithmetic with a Python scalar keeps the result. Multiplication exact for every scalar but -1; for -1 exact characterisation, and refuted for zero point 0 (all positive values become 0). Addition within half a step of the exact sum and within one step of PyTorch, with and without ReLU. Missing: 16-bit storage, fixed-point multipliers of the kernels.
  Theorems: `C76_mul_partial`, `C76_mul_neg_one_partial`, `C76_add_partial`, `C76_add_torch_partial`, `C76_add_relu`.
  Refutations: `C76_mul_neg_one_false`.
* **C77** (partial) Padding places the input and fills the border. Proved for all shapes and nonnegative amounts: float tensors, integer and quantized tensors filled with zero, unsigned quantized tensors with any fill, reflection of every rank through aten::pad and of batched images and sequences. Refuted: negative amounts, integer tensors with a nonzero fill, signed quantized tensors with a nonzero fill, unbatched reflection.
  Theorems: `C77_float_partial`, `C77_int_partial`, `C77_quint8_partial`, `C77_quant_zero_partial`, `C77_reflect`, `C77_reflect2d_partial`, `C77_reflect1d_partial`.
  Refutations: `C77_crop_false`, `C77_int_fill_false`, `C77_int8_fill_false`, `C77_reflect_unbatched_false`.
* **C78** (partial) Activation functions keep their parameters. Clamp, hardtanh (float), hardsigmoid, SiLU, ELU, GLU, PReLU and mish are exact for all real inputs; quantized clamp within half a step; softplus below the threshold. False for quantized hardtanh (bounds compared with stored integers), softplus overflow and threshold, quantized ELU alpha, both GELU modes (flag inverted), PReLU slopes shared between ranks.
  Theorems: `C78_clamp`, `C78_hardtanh`, `C78_clamp_quant_partial`, `C78_hardsigmoid`, `C78_softplus_partial`, `C78_mish`, `C78_elu`, `C78_silu`, `C78_glu`, `C78_prelu_partial`.
  Refutations: `C78_hardtanh_quant_false`, `C78_softplus_overflow_false`, `C78_softplus_threshold_false`, `C78_quantized_elu_false`, `C78_gelu_false`, `C78_prelu_store_false`, `C78_hardtanh_default_false`.
* **C79** (partial) Reductions reduce the requested axes. All reductions except any (not implemented in the converter) for every axis list, sign, order and keepdim flag; norms of order 1 and 2. False for dim=None (crash), for the indices of max/min (never produced) and for a norm over None axes with keepdim (axes dropped); a full 2-norm has shape [1] instead of [].
  Theorems: `C79_reduce_partial`, `C79_norm_partial`, `C79_norm_scalar_partial`.
  Refutations: `C79_none_false`, `C79_indices_false`, `C79_norm_keepdim_false`.
* **C80** (partial) Quantized layers keep their bias. Biases that fit the stored type are within half a unit of the accumulator scale, for convolutions (one scale or per channel) and linear layers; the weight-scale loop stops for all positive scales and moves the result by less than |acc|*10/2^32 output steps. False for transposed convolutions without a bias input (8-bit bias in accumulator units; negative biases lost in uint8); the loop never stops for scale 0.
  Theorems: `C80_rescale`, `C80_conv_partial`, `C80_conv_output_partial`, `C80_linear_partial`, `C80_rescale_effect`.
  Refutations: `C80_rescale_zero_false`, `C80_transposed_false`.
* **C81** (partial) Generated code equals the traced model. Proved for all straight-line models with tensor arguments whose submodule and parameter names cannot be confused with made-up names (NamesOk). Fails, with witnesses: a submodule conv used twice next to a submodule conv_1 (wrong results without any error), list arguments (the generated code reads the whole list), returning a parameter that no call uses (tracing fails).
  Theorems: `C81_generated_code_partial`, `C81_trace_succeeds_partial`, `C81_node_names_distinct`.
  Refutations: `C81_name_clash_false`, `C81_list_argument_false`, `C81_returned_parameter_false`.
* **C82** (partial) In-place operations survive tracing. Proved: returned values agree for all programs that read no stale tensor (one whose storage was since written by += or an assignment to a part through another tensor) and do not apply += to one of several results; methods in place are unrestricted. Refuted otherwise: a view after += on its base, the base after += on a view (y[:,0] += 1), an assignment to a part (not recorded at all), the old name after two +=, += on a chunk (error), the caller's tensor after += on an input, and with eliminate_dead_graph a method in place whose result is unused. Parameters and modules are not part of this model. With elimination of dead code the result is unchanged if the outputs depend on every recorded operation in place.
  Theorems: `C82_returned_partial`, `C82_live_partial`.
  Refutations: `C82_view_false`, `C82_part_false`, `C82_assignment_false`, `C82_twice_false`, `C82_chunk_false`, `C82_caller_false`, `C82_dead_false`.
* **C83** (partial) Dead-graph elimination removes exactly what no output depends on. Both directions of 'left iff needed' are proved for calls, inputs and constants, the search is proved to terminate within the modelled number of rounds, and the generated code is proved equivalent on the inputs that are left, for all models of C81 (names that do not clash with generated ones, plain tensor inputs, no in-place operations). The removed inputs are proved irrelevant. C83_signature_false: an unused input disappears from the signature, so the generated model cannot be called with the original arguments. Missing: in-place operations whose result is not used.
  Theorems: `C83_kept_iff_needed`, `C83_constants_kept_iff_needed`, `C83_generated_code_partial`, `C83_removed_inputs_unused`.
  Refutations: `C83_signature_false`.
* **C84** (partial) Cutting a subgraph out of a traced model keeps its meaning. Proved for input nodes that are submodules (or methods without further tensors), do not read list items, and do not read from an output node. The negative theorems show that each restriction is needed: a function as input node keeps stale argument names, a list item keeps its index, an output read by an input node is replaced by the new input, and any parameter or constant inside the subgraph makes the cut fail. Node lookups by name, data types and module attributes are not modelled.
  Theorems: `C84_subgraph_partial`, `C84_original_run_partial`, `C84_accepts_iff`, `C84_only_needed`.
  Refutations: `C84_function_input_false`, `C84_list_item_input_false`, `C84_constant_false`, `C84_output_read_by_input_false`.
* **C85** (partial) Fusing modules before quantization keeps the network. The runs found are shown to be disjoint, matching, longest and complete. Preservation of the network holds when every fused module is called once and every result inside a run is read once; is_fusable does not check either, and both witnesses (a skip connection from inside a run, a module called twice) change the returned value.
  Theorems: `C85_runs`, `C85_longest`, `C85_complete`, `C85_fused_network_partial`, `C85_code_rules`.
  Refutations: `C85_residual_false`, `C85_shared_module_false`.
* **C86** (partial) Editing a traced graph changes only what was asked for. insert_after, insert_before (outputs), remove_node, replace_node_module and fuse_nodes_to_func in full for nodes returning one tensor; insert_between when the reader reads the chosen place alone or before other places of the same node: for the second of two places the wrong one is redirected and the generated code fails, and without tensor_ptrs a reader of two places gets the first one twice (witnesses). New names are assumed to be fresh. insert_before for a call with several tensors (broadcast_tensors) is not modelled.
  Theorems: `C86_traced`, `C86_generate`, `C86_insert_after`, `C86_insert_between_partial`, `C86_insert_before_output`, `C86_remove`, `C86_replace`, `C86_fuse`, `C86_identity_edits`.
  Refutations: `C86_insert_between_second_false`, `C86_insert_between_all_false`.
* **C87** (partial) Rewriting functional operations before quantization keeps what the model computes. proved over the reals for straight-line programs of the calls described in Spec.FuncCall.Supported, with acceptance for readable numbers, and completeness (no operation to be rewritten is left) for all programs; the _false theorems show the calls that are rewritten wrongly: leaky_relu with keyword slope or inplace (becomes the identity), sub/add with alpha, x.__rsub__(y) of two tensors, numbers printed with an exponent only, cat with axis, integer add+relu, dropout with a fixed mode. Not covered: in-place aliases, prelu, rewiring of edges (C86).
  Theorems: `C87_rewrites_partial`, `C87_accepts_partial`, `C87_complete`.
  Refutations: `C87_leaky_relu_keyword_false`, `C87_leaky_relu_inplace_false`, `C87_sub_alpha_false`, `C87_rsub_tensors_false`, `C87_exponent_false`, `C87_add_alpha_false`, `C87_cat_axis_false`, `C87_integer_add_relu_false`, `C87_dropout_mode_false`.
* **C88** (partial) Layers without a quantized counterpart are replaced by equivalent ones. equality proved for PReLU, SiLU, GLU (even axis), Hardsigmoid and for LayerNorm and RMSNorm with weight, bias and eps, over a field with rsqrt v = 1 / sqrt v; false without weight or bias (raises), RMSNorm without eps (nothing is added), GLU on an axis of size 3 (accepted)
  Theorems: `C88_prelu`, `C88_silu`, `C88_glu`, `C88_hardsigmoid`, `C88_layer_norm_partial`, `C88_rms_norm_partial`.
  Refutations: `C88_layer_norm_no_affine_false`, `C88_rms_norm_no_affine_false`, `C88_rms_norm_no_eps_false`, `C88_glu_odd_false`.
* **C89** (partial) Changing the form of a layer before quantization keeps its results. Proved for batches with one stride, none, or one per axis; for Linear+BatchNorm1d on matrices; for BatchNorm1d on three axes; and for every pair of shapes that can be broadcast, when the operands are single outputs. False: single samples are strided along the last axis only; a list of one stride is used for the first axis only; divisor_override is lost; BatchNorm1d on a matrix that does not follow a Linear layer becomes an error; operands that are outputs of split are read at a wrong index after broadcasting both.
  Theorems: `C89_max_pool_partial`, `C89_avg_pool_partial`, `C89_linear_batch_norm`, `C89_batch_norm_partial`, `C89_broadcast`, `C89_broadcast_operand_partial`.
  Refutations: `C89_single_sample_false`, `C89_single_stride_false`, `C89_divisor_false`, `C89_batch_norm_matrix_false`, `C89_broadcast_operand_false`.
* **C90** (partial) Merging changes of quantization keeps the numbers. Proved up to stated rounding bounds for results within the range of the quantizations, exactly for repeated quantizations and for DEQUANTIZE followed by QUANTIZE. Missing, with counterexamples in the code: saturation to the removed range is lost; readers behind RESHAPE or TRANSPOSE read the new integers with the old label; DEQUANTIZE readers get the narrower range; pooling is given a quantization it cannot produce; the storage type is not compared.
  Theorems: `C90_requantize_partial`, `C90_requantize_direct`, `C90_shared_requantize_partial`, `C90_requantize_again`, `C90_chain_partial`, `C90_dequantize_quantize`, `C90_activation_partial`, `C90_activation_value`.
  Refutations: `C90_requantize_false`, `C90_reshape_reader_false`, `C90_dequantize_reader_false`, `C90_pooling_false`, `C90_chain_false`, `C90_storage_type_false`.
* **C91** (partial) A model with quantized inputs and outputs computes the same. Proved for models in which the removed nodes share their tensors with no other operator; the change between int8 and uint8 is exact. Missing, with counterexamples in the code: an input also read as float and an output also read by an operator lose their producer, and an input quantized twice becomes two inputs.
  Theorems: `C91_fuse_partial`, `C91_input_positions`, `C91_output_positions`, `C91_input_type`, `C91_output_type`, `C91_type_refused`.
  Refutations: `C91_shared_input_false`, `C91_shared_output_false`, `C91_input_count_false`.
* **C92** (partial) Generated calls carry the recorded arguments. Proved for atoms, tensors, float specials, strings without quote/backslash/newline, nested lists and tuples, keywords, and subscripts with slices. Violated: strings with a quote give unreadable text; braces stay doubled in calls without tensor arguments; x[[0, 2]] becomes x[0, 2]; x[()] becomes x[]. Not covered: other argument types (numpy values, devices), tuples and lists are not told apart in the generated text.
  Theorems: `C92_call_partial`, `C92_method_partial`, `C92_index_partial`.
  Refutations: `C92_quote_false`, `C92_braces_false`, `C92_list_index_false`, `C92_empty_index_false`.
* **C93** (partial) Operators dropped or evaluated while converting leave every value as it was. Proved for parameters that are constants; the graph surgery of dropping an operator is C72. Violated: a GATHER with an index computed at run time is dropped when the recorded index was 0..n-1 (the same holds for slices with run-time bounds); a model that delivers a transposed or reshaped constant stops the conversion with an error.
  Theorems: `C93_noop_partial`, `C93_fold_partial`, `C93_fold_defined`, `C93_constant_output`.
  Refutations: `C93_runtime_index_false`, `C93_constant_output_false`.
* **C94** (partial) Quantized and unquantized parts of a model are kept apart. Proved: with the stubs that remain after removal every node receives its float tensors in the form it needs and int32/int64 tensors untouched (no creation function switched off, no other non-float types, integer tensors only around supported operations and single outputs); pairs are removed only where no reader needs the quantized tensor; if every node is fed by one kind of tensor, the search marks exactly the reachable nodes by that kind, in any order. Refuted: a creation function switched off gets two QuantStubs, so its reader receives a quantized tensor; bool inputs get a QuantStub; unsupported operations get stubs on integer tensors; integer tensors in a result with several tensors get a DeQuantStub in the generated model; nodes with mixed operands are marked by whichever comes first; expand_as is skipped when its input has another reader before it.
  Theorems: `C94_fed_partial`, `C94_removal`, `C94_search_partial`.
  Refutations: `C94_disabled_creation_false`, `C94_bool_input_false`, `C94_int_operand_false`, `C94_int_output_false`, `C94_mixed_false`, `C94_expand_as_false`.
* **C95** (partial) Calibration with the KL algorithm stays inside the observed range and compares histograms of equal content. Proved for every histogram, any number of parts and any divergence: the range lies in the observed range and spans at least T bins; the threshold is the first cut with the smallest divergence (other than exactly 1.0) between the spread and the folded histogram; merging gives every part its share and keeps the total; spreading equals the specification and keeps the total if no bin shared by two parts is empty. Refuted: an empty bin shared by two parts receives content (np.logical_and with three arguments); an observer with fewer than 2048 bins fails. Exact numbers; the divergence itself is a parameter.
  Theorems: `C95_range`, `C95_threshold`, `C95_merge`, `C95_expand_partial`.
  Refutations: `C95_expand_false`, `C95_bins_false`.
* **C96** (partial) The quantizable GRU computes what the GRU it replaces computes. Proved: outputs for all layers, directions, first states; final states for one direction. Refuted: with two directions the final state is built from hidden_fw[0] and hidden_bw[0], the first entry of the batch, so it has no batch dimension and loses all other entries.
  Theorems: `C96_output`, `C96_hidden_partial`.
  Refutations: `C96_hidden_false`.
* **C97** (partial) The fused attention layer computes what the original one computes, also piece by piece. Proved: the fused projection gives each head its own rows; a first piece of any length followed by single tokens gives the outputs of the original layer; with explicit masks (old torch) any division into pieces does. False: with scaled_dot_product_attention several tokens behind a cache look at tokens after them, and the mask of the caller (padding) is not used.
  Theorems: `C97_projection`, `C97_generate_partial`, `C97_masked`.
  Refutations: `C97_piece_false`, `C97_mask_false`.
* **C98** (partial) A channel pruner prunes what its configuration asks for. Proved: rates of all prunable operations as asked for (except as below), acceptance, exclusion, reload of the written configuration, second pruner from a number. False: a rate given for a last linear layer is dropped if it equals the default; constructing deletes the default from the dictionary of the caller, so the same dictionary does not give a second pruner; after pruning, calc_flops resets the pruner, which forgets exclusions and no longer prunes 1d convolutions.
  Theorems: `C98_rates_partial`, `C98_accepts`, `C98_reload`, `C98_second`, `C98_excluded`, `C98_reset_rates`, `C98_reset_centers`.
  Refutations: `C98_last_layer_false`, `C98_second_false`, `C98_reset_false`.
* **C99** (partial) Pruning with ADMM follows the method. Proved: both variables follow the method for every training history, projection, criterion, learning rate, updates without skipped subgraphs, and the exact factor of the gradient. False: the dual variable is not detached, so after k rounds training goes down along k + 1 times the slope; a skipped subgraph makes the update fail because it has no importance.
  Theorems: `C99_variables`, `C99_criterion`, `C99_gradient`, `C99_gradient_partial`, `C99_projection`, `C99_learning_rate`, `C99_update_partial`.
  Refutations: `C99_gradient_false`, `C99_skip_false`.
* **C100** (partial) Error analysis reports the worst layers and leaves the model as it was. Proved when the run succeeds and all modules are in the mode of the model; the contents of both reports are proved without that condition. Refuted otherwise: model.train() at the end puts a frozen normalization layer into training mode (C100_frozen_false), and an error in the run leaves the model in evaluation mode with hooks, without fake quantization and observers (C100_error_false).
  Theorems: `C100_unchanged_partial`, `C100_layers`, `C100_graph`.
  Refutations: `C100_frozen_false`, `C100_error_false`.
* **C101** (partial) Restoring batch normalization keeps the model. Proved: nothing changes during calibration; error bound for every history; which layers are wrapped if no module is shared. Refuted: a shared convolution gets a batch normalization at one of its paths only (C101_shared_false); a channel constant on the calibration data is nearly switched off for all later inputs (C101_constant_false). The returned model is in training mode; evaluation mode is what is compared.
  Theorems: `C101_calibration`, `C101_restored`, `C101_layers_partial`.
  Refutations: `C101_shared_false`, `C101_constant_false`.
* **C102** (proved) Half-precision constants change a model only by rounding. For well-formed networks and fresh new names. C102_overflow_false: a constant of 65520 or more becomes infinite. half_exists: every rational has a rounding. A constant that is itself an output of the model stays float32. Tensor contents other than the rounding are abstract.
  Theorems: `C102_error`, `C102_network`, `C102_all`.
  Refutations: `C102_overflow_false`.
* **C103** (partial) Channels that depend on each other are grouped. Grouping is sound, a partition, and complete for chains of steps each through one consumer (so complete with one producer). Connections that need several consumers with several producers are missed: the pass over the consumers is made once (result depends on their order) and cycles are never found, so mismatched channels can be pruned.
  Theorems: `C103_sound`, `C103_complete_partial`, `C103_partition`, `C103_single`.
  Refutations: `C103_cycle_false`, `C103_order_false`.
* **C104** (partial) Batch normalization keeps its result when it is not fused. Proved in evaluation mode (any rank, any field, any square-root function) and for quantized layers without ReLU. Refuted: in training mode the running statistics are used; quantized::batch_norm2d_relu loses its ReLU (RELU is passed in the place of another argument), which shows when the output's zero point is not its smallest value, and is right otherwise.
  Theorems: `C104_float`, `C104_quantized`, `C104_relu_partial`.
  Refutations: `C104_relu_false`, `C104_training_false`.
* **C105** (partial) The converted model takes and returns images in the layout that was asked for. Proved for every valid graph and all flags: if the passes succeed, the converted graph on channels-last inputs returns the channels-last outputs (C105_layout); sufficient conditions for success (C105_succeeds). Missing because false of the code: flags for outputs given as a tuple always raise, and for inputs if one is None (C105_tuple_false); a model that returns its four-dimensional input cannot be converted with the default flags (C105_returned_input_false); edges are deleted by stale numbers when a dequantized output with other users is listed after another output made later, so the edge to the output is lost (C105_edges_false; correct otherwise: C105_edges_partial).
  Theorems: `C105_layout`, `C105_succeeds`, `C105_edges_partial`.
  Refutations: `C105_tuple_false`, `C105_returned_input_false`, `C105_edges_false`.
* **C106** (partial) Operations along an axis work on the axis PyTorch means. Exchanging two axes, t(), softmax, log-softmax, cumsum and broadcast_tensors (and the expansion in copy_) are right for every rank, shape and axis from either end. Defects: permute writes axes counted from the end into TRANSPOSE, which TFLite rejects (C106_permute_false); cat takes the rank of the first tensor and keeps the empty one-dimensional tensors PyTorch leaves out (C106_cat_false). Not modelled: dtype arguments, constants folded at conversion.
  Theorems: `C106_transpose`, `C106_t`, `C106_permute_partial`, `C106_along`, `C106_cumsum`, `C106_cat_partial`, `C106_broadcast`.
  Refutations: `C106_permute_false`, `C106_cat_false`.
* **C107** (partial) Making float operators between DEQUANTIZE and QUANTIZE work on quantized tensors keeps the result. Proved: for a result that is not also returned, MINIMUM and MAXIMUM whose operands and result have one quantization, constants used once and not halfway between steps, and divisions without one-element operands, outputs are unchanged and the program can run; no exception if a constant operand comes with a dequantized one; the standard pattern is really replaced. False in general: a result that is also returned is rounded; MINIMUM/MAXIMUM compare stored integers of different quantizations; a two-sided clamp between DEQUANTIZE and QUANTIZE ends with an exception (missing key); the divisor of a division by one number stays a float operand of a quantized division; a constant shared by two MINIMUM/MAXIMUM keeps the quantization of the first.
  Theorems: `C107_partial`, `C107_succeeds`, `C107_applies`.
  Refutations: `C107_returned_false`, `C107_minmax_false`, `C107_clamp_false`, `C107_div_false`, `C107_shared_false`.
* **C108** (partial) Statistics given for inputs fix their quantization. Proved for affine observers that do not use the KL algorithm and a mean that can be stored: parameters while training and after conversion are the ones asked for, exact for an integer mean and off by less than a step otherwise; each input gets its own statistics; built-in statistics cover softmax and log-softmax for unsigned bytes. False: an input without statistics (None) raises; symmetric scheme converts with another scale; KL uses a sixteenth of the scale; a fractional mean is truncated; with signed bytes softmax results above one half cannot be stored. Arithmetic is exact, not float32.
  Theorems: `C108_partial`, `C108_inputs`, `C108_known`.
  Refutations: `C108_none_false`, `C108_symmetric_false`, `C108_kl_false`, `C108_mean_false`, `C108_signed_false`.
* **C109** (partial) Changing the number of integers of activations keeps what they can represent. Proved for a zero point of 0 or in the middle and integers that begin at the same kind of end (unsigned to unsigned, signed to signed), and for the fixed parameters of sigmoid. False: affine zero points are replaced by the middle, so part of the range is lost; unsigned to signed puts the zero point outside; a sigmoid that is not quantized raises.
  Theorems: `C109_partial`, `C109_sigmoid`.
  Refutations: `C109_affine_false`, `C109_signed_false`, `C109_unquantized_false`.
* **C110** (partial) The operands and the result of a quantized concatenation have one quantization. Proved: if every operation without observer is used once, all operands and the result of every quantized concatenation end with one observer (C110_partial); nothing else is changed (C110_only); the pass ends on every finite graph (C110_ends). Missing: with an operation without observer that is used twice, the search can miss a second concatenation that shares an operand, whose own search then gives that operand another observer (C110_shared_false).
  Theorems: `C110_partial`, `C110_only`, `C110_ends`.
  Refutations: `C110_shared_false`.
* **C111** (partial) Replacing operators keeps the graph connected. Proved when the operators were selected in the order of their numbers and that order is an order of computation (C111_partial): what the new graph contains, who produces each tensor and that connections say what is read; one requantize at a time is such a case (C111_requantize_one). False otherwise: numbers are not an order of computation after operators were created late (C111_order_false), connections are restored with the wrong operator if the selection is in another order (C111_select_false), and split_requantize adds the replacements of earlier operators again (C111_requantize_false).
  Theorems: `C111_partial`, `C111_requantize_one`.
  Refutations: `C111_order_false`, `C111_select_false`, `C111_requantize_false`.
* **C112** (partial) Fusing an addition into a matrix product keeps the result. Proved for products without an activation of their own, whatever the shapes, the flag and the activation of the addition (C112_partial). False with an activation on the product, which is lost (C112_act_false), and for quantized operands, whose bias would need another type (C112_quantized_false). Arithmetic is exact; rounding of floating-point sums is not modelled.
  Theorems: `C112_partial`.
  Refutations: `C112_act_false`, `C112_quantized_false`.
* **C113** (partial) A reshape between two transposes is dropped only if nothing moves. Proved for reshapes that keep the number of axes; the search ends for all reshapes. False when an axis is added or dropped: the axes of the permutation are matched by size in the wrong direction, so a rotation is taken for its inverse and real transposes become a reshape (C113_squeeze_false, C113_unsqueeze_false).
  Theorems: `C113_partial`, `C113_ends`.
  Refutations: `C113_squeeze_false`, `C113_unsqueeze_false`.
* **C114** (partial) The pruner knows which channels every layer receives. Proved for paths of activations and broadcasting operators, reshapes/transposes/slices, pooling, depthwise convolutions, fully connected layers seen along another axis, padding of other axes and concatenations (with other operands in front only if the numbers have not been translated), each reached once; the axis is found if the channels lie along one axis. False for: padding along the channel axis (C114_pad_false), a concatenation behind other operands after pooling (the table is shifted but the numbers are not, C114_cat_false), sums (C114_sum_false), operands with fewer axes in a batch (C114_rank_false), a pooling layer reached along two paths (the first record is reused, C114_twice_false), and axes whose slices have equal sums (C114_axes_false).
  Theorems: `C114_partial`, `C114_axes`.
  Refutations: `C114_pad_false`, `C114_cat_false`, `C114_sum_false`, `C114_rank_false`, `C114_twice_false`, `C114_axes_false`.
* **C115** (partial) A pruned split still hands out its chunks. Proved for a list of sizes when chunks and readers are one to one, and for one size when all chunks lose the same number. False otherwise: a chunk with two readers shifts the sizes of the following chunks, an unread chunk or a reader of two chunks raises IndexError, one size with unequal losses hands a neighbour's channels over, a split along another axis than the pruned one is shrunk too.
  Theorems: `C115_list_partial`, `C115_number_partial`.
  Refutations: `C115_readers_false`, `C115_unread_false`, `C115_number_false`, `C115_axis_false`.
* **C116** (partial) A channel is judged by its own weights. Proved for convolutions, linear layers, transposed convolutions of one group, recurrent layers (both norms, any gates, layers, directions, projection) and the geometric median. False: a transposed convolution with groups gets fewer scores than channels, and each mixes the groups; random scores of a recurrent layer are counted by its inputs instead of its units.
  Theorems: `C116_rows`, `C116_transposed_partial`, `C116_recurrent`, `C116_fpgm`.
  Refutations: `C116_groups_false`, `C116_random_false`.
* **C117** (partial) Tracing leaves PyTorch as it found it. Proved for sessions in which nothing fails and no listed attribute is inherited from another listed one: C117_partial (every lookup as before, all flags down), C117_replaced (meanwhile wrappers), C117_calls (recorded calls are the outermost ones), C117_slots (slots of the class and its bases). False in general: an exception in the traced code leaves all wrappers in place and no later session puts the originals back (C117_fail_false); a listed class that inherits an attribute from a class listed before it (Hardtanh and ReLU6) keeps that class's wrapper (C117_inherit_false); a call that fails and is caught leaves the lock set and nothing is recorded any more (C117_calls_false); a function the user replaces between sessions is traced with its old version (C117_stale_false); subclasses' slots are not reverted (C117_slots_false).
  Theorems: `C117_partial`, `C117_replaced`, `C117_calls`, `C117_slots`.
  Refutations: `C117_calls_false`, `C117_inherit_false`, `C117_fail_false`, `C117_stale_false`, `C117_slots_false`.
* **C118** (partial) Only what does not depend on the inputs becomes a constant. Proved for programs in which untracked operators, indexed lists and taken-apart lists read only shapes of values that depend on inputs (C118_partial); an unknown operator in the graph itself is always an error (C118_unknown). False in general: aten::detach is listed as not tracked, so everything computed from x.detach() is the example's value (C118_detach_false); aten::__getitem__ on a list of computed tensors, as in scripted models, freezes the element (C118_getitem_false); a constant in a list that is put together and taken apart becomes a tensor without producer and buffer (C118_unpack_false); unknown operators inside custom functions are not reported and freeze the result (C118_hidden_false).
  Theorems: `C118_partial`, `C118_unknown`.
  Refutations: `C118_detach_false`, `C118_getitem_false`, `C118_unpack_false`, `C118_hidden_false`.
* **C119** (partial) Moving a transpose across a reshape keeps the values. Proved: C119_same (whenever a RESHAPE is rewritten, the new TRANSPOSE-RESHAPE-TRANSPOSE computes the same tensor, and one of the new transposes undoes an existing one), C119_ends_partial (the pass does not raise on tensors with elements if no consumer of the reshape is a model output). False in the code: C119_output_false (a transpose followed by a reshape that regroups axes and is returned by the model: the branch that resets the hints reads the operator of the output node, which is None, and the conversion stops with an AttributeError at the default optimization level), C119_empty_false (a tensor without elements trips an assertion).
  Theorems: `C119_same`, `C119_ends_partial`.
  Refutations: `C119_output_false`, `C119_empty_false`.
* **C120** (partial) Removing dead channels with batch-norm compensation changes nothing. Proved over any ring: C120_zeroed (after a correction the pruned block computes, at every output that reads no padding zeros, what the block computes with the scale of the removed channels set to zero, for all inputs), C120_partial (hence nothing changes if the removed channels carry their constant), C120_when (exactly when the bias is corrected), C120_inside (which outputs read no padding zeros). False in the code: C120_padding_false (outputs at the border of a zero-padded convolution: the correction counts kernel positions outside of the image), C120_consumers_false and C120_activation_false (no correction with several consumers, another activation or no activation: the constant is lost), C120_function_false (F.relu instead of nn.ReLU: the kind test never applies to functions and calling the traced function with a tensor fails an assertion, so pruning stops).
  Theorems: `C120_zeroed`, `C120_partial`, `C120_when`, `C120_inside`.
  Refutations: `C120_padding_false`, `C120_consumers_false`, `C120_activation_false`, `C120_function_false`.
* **C121** (partial) The TensorRT comparison tells matching tensors from different ones. Proved: C121_flags_partial (a single requested precision is switched on), C121_outputs (the model that is run has the old outputs and exactly the named tensors that a node computes, each once), C121_buffer_partial (the buffer of an input has the size of its data), C121_close and C121_mismatch (values within the tolerance are reported as a match, so a reported difference is one), C121_opposite (a tensor with non-positive product is a match only if it is close). False in the code: C121_raises_false (the second call of build_engine lacks an argument: every comparison ends in a TypeError), C121_overwritten_false (with the argument supplied, the engine overwrites the ONNX model ONNX Runtime loads next: both paths are equal), C121_flags_false (asking for FP16 and INT8 switches FP16 off), C121_scale_false and C121_verdict_false (any positive multiple of a non-zero tensor is reported as a match), C121_output_buffer_false (outputs of unknown batch size get a buffer of negative size).
  Theorems: `C121_flags_partial`, `C121_outputs`, `C121_buffer_partial`, `C121_close`, `C121_mismatch`, `C121_opposite`.
  Refutations: `C121_flags_false`, `C121_output_buffer_false`, `C121_scale_false`, `C121_verdict_false`, `C121_raises_false`, `C121_overwritten_false`.
* **C122** (partial) When several dimensions could be pruned, one is chosen that fits everywhere. If an assignment of one dimension per tensor fits every operator, the search started at a reshape finds it (for the rearmost dimension with more than two entries), for every graph, and leaves nothing undone. Refuted in general: without a fitting assignment success is still reported when a visited operator's choice is overwritten; an operand no pruned layer reaches gives a KeyError; dimensions of size one or two are never tried; matrix products pass an operand's dimension to the other operand, start the search for the second operand at the first one (KeyError, or its producer is never told) and fail with a KeyError on a second attempt; tensors outside reshapes keep several dimensions.
  Theorems: `C122_found_partial`, `C122_reshape_partial`, `C122_accepted_partial`.
  Refutations: `C122_overwritten_false`, `C122_untracked_false`, `C122_small_false`, `C122_matmul_second_false`, `C122_matmul_producer_false`, `C122_matmul_retry_false`, `C122_matmul_shared_false`, `C122_both_false`.
* **C123** (partial) The options of a quantizer reach the layers they are meant for. Proved for every module tree and position. False in the code: with backend onnx or tensorrt per_tensor=False has no effect at all, ConvReLU1d and transposed convolutions stay per-tensor, algorithm='kl' does not reach per-channel convolutions, an override returned for a container does not reach the convolutions in it (so set_ptq_fake_quantize does not reach them when per_tensor=False), and the weight range of an override is overwritten.
  Theorems: `C123_conv_partial`, `C123_per_tensor_partial`, `C123_other_layers_partial`, `C123_fbgemm_partial`, `C123_activation`, `C123_lstm`, `C123_override_partial`, `C123_override_silent`.
  Refutations: `C123_per_channel_ignored_false`, `C123_missing_convs_false`, `C123_kl_false`, `C123_override_false`, `C123_override_range_false`.
* **C124** (partial) LSTM weights rounded for quantization are put back by convert. Proved: preparing rounds both first-layer weights of every LSTM, every gate to its own grid with error at most half a step, and touches nothing else; after calibration convert puts back exactly the user's weights in every module. Disproved for the rest: after quantization-aware training convert overwrites the learned LSTM weights with those from before training (C124_training_lost_false); weights of deeper layers and of the reverse direction are never rounded (C124_deeper_layers_false); a second convert on another copy does not restore anything (C124_twice_false).
  Theorems: `C124_rounded`, `C124_prepared`, `C124_restored`, `C124_roundtrip`.
  Refutations: `C124_training_lost_false`, `C124_deeper_layers_false`, `C124_twice_false`.
* **C125** (partial) Preparing a model for ONNX export keeps what it computes. Proved: unsigned symmetric fake-quantizers and tanh outputs compute the same for every input; signed ones unless the input lies below a range without -128; fused convolutions compute the same for all parameters with a non-zero multiplier; frozen weights stay as they are under any number of calls when observation is off. Disproved for the rest: weights below the range change (C125_signed_false), sigmoid outputs lose half their values though at most 1/128 (C125_sigmoid_partial, C125_sigmoid_false), the default asymmetric configuration fails with an AssertionError (C125_asymmetric_false), preparing twice breaks the model (C125_twice_false), frozen weights drift while observers are on (C125_frozen_false).
  Theorems: `C125_unsigned`, `C125_signed_partial`, `C125_sigmoid_partial`, `C125_conv_bn`, `C125_frozen_partial`.
  Refutations: `C125_signed_false`, `C125_sigmoid_false`, `C125_asymmetric_false`, `C125_twice_false`, `C125_frozen_false`.
* **C126** (partial) Restoring a converted model gives the float model it stands for. Proved for models of layers that have a bias and no fused activation, and all-or-nothing behaviour for all models. Disproved for the rest: a fused ReLU is lost (C126_fused_relu_false), a layer without bias gets an empty bias and fails on every input (C126_no_bias_false), layers inside another module stay quantized (C126_nested_false).
  Theorems: `C126_restored_partial`, `C126_all_or_nothing`.
  Refutations: `C126_fused_relu_false`, `C126_no_bias_false`, `C126_nested_false`.
* **C127** (partial) Ignoring channels with a tiny variance leaves the others as they are. Proved whenever some channel has ordinary variance, and for all untreated modules. Disproved when all channels have a tiny variance: the module raises on every later call (C127_all_small_false).
  Theorems: `C127_clamped_partial`, `C127_untreated`.
  Refutations: `C127_all_small_false`.
* **C128** (partial) A generated model constructs its modules with the settings they have. Proved for every history without repeated constructor calls: a module built by a wrapped class from supported arguments gets exactly its own line, which builds the same constants, until one of its constants is set, and from then on a line written from its current state; modules with unsupported arguments never get a line of another module. Disproved for the rest: a module of a subclass built at the address of a freed module gets the freed module's line (C128_subclass_false), re-initialized modules keep the old line (C128_reinit_false), changes of attributes that are not in __constants__ are lost (C128_other_attribute_false), setting a constant of a module built with unsupported arguments raises KeyError (C128_setattr_error_false).
  Theorems: `C128_own_line_partial`, `C128_unsupported`, `C128_other_class`.
  Refutations: `C128_subclass_false`, `C128_reinit_false`, `C128_other_attribute_false`, `C128_setattr_error_false`.
* **C129** (partial) A quantizer's error report lists exactly the layers below the threshold and leaves the model as it was. Proved: the report is exact and sorted whenever the model runs and is quantized per tensor; a model in training mode throughout is left as it was. Disproved for the rest: every other model comes back in training mode (C129_mode_false), a reported per-channel weight makes the analysis fail and leaves observers off (C129_per_channel_false), an unsupported input leaves hooks and switches changed (C129_input_false).
  Theorems: `C129_report_partial`, `C129_unchanged_partial`.
  Refutations: `C129_mode_false`, `C129_per_channel_false`, `C129_input_false`.
* **C130** (partial) Validating a calibrated model uses what calibration found. Proved for one calibration followed by any number of validations, per tensor. Disproved for the rest: calibrating again after a validation has no effect (C130_recalibration_false), per-channel modules raise on the second validating call (C130_per_channel_false).
  Theorems: `C130_calibrated_partial`.
  Refutations: `C130_recalibration_false`, `C130_per_channel_false`.
* **C131** (partial) Recurrent states become inputs and outputs of the right shapes. add_state_input_outputs (2115-2162). Proved: for batched inputs, no projection in LSTMs and results read by one node, one input and one output per state with PyTorch's shapes, in order; layers that are given states get no inputs. The full statement fails: the cell state of an LSTM with proj_size gets the projection's size (C131_projection_false), inputs without a batch dimension give a dimension too many and the feature or time size as batch size (C131_unbatched_false), a result read by two nodes gives inputs but no outputs (C131_two_readers_false).
  Theorems: `C131_states_partial`, `C131_given_states`.
  Refutations: `C131_projection_false`, `C131_unbatched_false`, `C131_two_readers_false`.
* **C132** (partial) Copying a reshape or transpose for each of its readers changes nothing but the number of readers. branch_reshape_expand_pass, branch_transpose_expand_pass. Proved: the function is the same for every choice of the kept reader, well-formedness is kept, TRANSPOSE never fails, and single readers where no copied operator reads another copied one. The full statement fails: in a chain the copy of the later operator reads the original of the earlier one, which keeps two readers (C132_chain_false); a RESHAPE of a constant that has to be copied is an AttributeError (C132_constant_false; the pass runs before constants are folded).
  Theorems: `C132_same_function`, `C132_wellformed`, `C132_one_reader_partial`, `C132_transpose_total`, `C132_selected`.
  Refutations: `C132_constant_false`, `C132_chain_false`.
* **C133** (partial) A pruned recurrent layer computes what its masked form computes. RNNChannelModifier.register_mask, modify_input, modify_output (1847-2131), without proj_size. Proved: outputs and final states of the cut layer are those of the masked layer on the kept units, for RNN, GRU and LSTM stacks with one or two directions and arbitrary activations, if both directions lose the same number of units, Python's sets of kept positions are ascending and, with two directions, removed input features are zero. The full statement fails: the mask of weight_ih_l0_reverse is never registered, so a removed input feature that is not zero (say, after a sigmoid) still reaches the backward direction of the masked layer (C133_reverse_false); sets that are not ascending mix up the gates (C133_order_false, C55_gate_order_false).
  Theorems: `C133_pruned_partial`, `C133_gru_cell`, `C133_lstm_cell`.
  Refutations: `C133_reverse_false`, `C133_order_false`.
* **C134** (partial) A layer that takes over the activation behind it computes what the prepared model computed. rewrite_quantize_graph 2836-2871, extra_qat_fusion_postprocess 1162-1208, convert 3247-3261. Proved: for asymmetric quantization and activations whose results include zero, the converted layer agrees exactly up to the upper bound and within one step above it, after every history of batches (and switching observers off); relu and relu6 as functions agree exactly with every scheme. The full statement fails: clamp(x, a, b) with a > 0 lets smaller numbers through, because ranges are widened to hold zero (C134_positive_clamp_false); with asymmetric=False a ReLU/ReLU6 module is dropped but negative numbers still fit (C134_symmetric_false); model.apply(enable_observer/enable_fake_quant), as in the project's examples, turns the quantizer of the layer on again (C134_switched_on_false); with the default backend the model is not usable in PyTorch (C134_default_backend_false, documented).
  Theorems: `C134_folded_partial`, `C134_function`.
  Refutations: `C134_positive_clamp_false`, `C134_symmetric_false`, `C134_switched_on_false`, `C134_default_backend_false`.
* **C135** (partial) The files generate_code writes give back the model, and its check accepts exactly models that agree. Proved: for graphs with distinct names, constants without infinities (small ones) and without inner sizes of zero, creating the generated model and loading the weights succeeds for any initial numbers and gives every constant the numbers it had while tracing and every module those it has now (under the name of its first call), hence the current model when constants did not change; the check is right for equally many outputs of equal shapes; training flags are kept when all are the same. Fails: parameters of the model itself trained (or pruned in value) after tracing are saved with the old numbers (C135_trained_false); an infinity or nan in a small constant makes the file raise NameError (C135_infinity_false); an empty parameter of shape (0,4) cannot be loaded (C135_empty_false); the check passes outputs of other shapes (C135_check_shape_false) or additional outputs (C135_check_count_false), raises UnboundLocalError for results that are objects (C135_object_false), and puts frozen submodules in training mode (C135_flags_false).
  Theorems: `C135_lists`, `C135_restored_partial`, `C135_current_partial`, `C135_check_partial`, `C135_outputs_partial`, `C135_flags_partial`, `C135_parameters`.
  Refutations: `C135_trained_false`, `C135_infinity_false`, `C135_empty_false`, `C135_check_shape_false`, `C135_check_count_false`, `C135_object_false`, `C135_flags_false`.
* **C136** (partial) Modes are put back after quantizing, and frozen batch norm statistics stay as they are. Proved: modes are put back for every hierarchy without shared modules (whatever the flags in between) and for any hierarchy in one mode; frozen layers of PyTorch's fused classes keep their statistics, TinyNN's own when their method is called; eval() stops statistics for every reachable layer. Fails: a module shared by parents in different modes ends in the mode of the later parent (C136_shared_false); train() freezes neither ConvTransposeBn2d nor unfused batch norms, because PyTorch's freeze_bn_stats looks for its own classes (C136_apply_false); update_bn_stats in evaluation mode makes evaluation change statistics (C136_update_false).
  Theorems: `C136_modes_partial`, `C136_uniform`, `C136_frozen_partial`, `C136_frozen_method`, `C136_eval`, `C136_reached`.
  Refutations: `C136_shared_false`, `C136_apply_false`, `C136_update_false`.
* **C137** (partial) Dequantizing a rewritten model gives a float model that computes the same. Proved for calls of add, mul, cat, add_relu, add_scalar and mul_scalar with arguments by place (and dim= of cat). False for FloatFunctional.matmul: the call stays and its object is removed, so the float model raises an AttributeError (C137_matmul_false). False for arguments given by name: torch.add has no parameter y (C137_keyword_false).
  Theorems: `C137_same_partial`, `C137_unquantized`.
  Refutations: `C137_matmul_false`, `C137_keyword_false`.
* **C138** (partial) The integer LSTM gets its biases, cell state and hidden state in the units its kernel computes with. Proved for all sequences of operators: biases (if a bias used twice has one unit), cell range, hidden state with output zero point 0, and that the pass only fails for a missing cell output. False in general: a bias tensor shared by gates or operators is stored in the unit of the first (C138_shared_false); the intermediate tensor of the hidden state always has zero point 0, so an output with another zero point is shifted (C138_hidden_false); a cell output that was not quantized is a KeyError (C138_missing_false).
  Theorems: `C138_bias_partial`, `C138_defined`, `C138_cell`, `C138_hidden_partial`.
  Refutations: `C138_shared_false`, `C138_hidden_false`, `C138_missing_false`.
* **C139** (partial) The file that is written reads back as the model that was built. Proved for all classes except BucketizeOperator (its boundaries, floats in the schema, are written as int32s) and VarHandleOperator (its build fails, since a string field has no vector start function); the converter creates neither. Bytes of the flatbuffers library are not modelled; rounding to single precision is any function that keeps 0.
  Theorems: `C139_tensor`, `C139_code`, `C139_operator_partial`, `C139_file_partial`.
  Refutations: `C139_bucketize_false`, `C139_var_handle_false`.
* **C140** (partial) Preparing observes the modules that work on quantized values and keeps the hooks of the user. Proved for the observers (QAT with PyTorch 1.13 or later; calibration for modules not used in both kinds of places) and for the hooks of modules with quantized uses. False: the cleanup removes the last forward hook of every module used on other values only, although no observer hook was added (with older PyTorch it removes the user's hook instead of the observer's, which sits in front, and the model cannot run); calibration drops the observer of a module that is used in both kinds of places; fusing raises with two hooks, since a dictionary changes while it is iterated.
  Theorems: `C140_qat_partial`, `C140_ptq_partial`, `C140_fuse_partial`.
  Refutations: `C140_hooks_false`, `C140_shared_false`, `C140_old_false`, `C140_fuse_false`.
* **C141** (partial) An epoch takes the steps and schedules it was configured with. False as stated: the scheduler per iteration is stepped already in the last iteration of the warm-up (iteration is increased before the test), and train_one_epoch_distill never steps it. Proved: the parameters after an epoch are those of gradient descent over the used batches with the exact rates; number of iterations and warm-up steps over any epochs; without warm-up one step per iteration; training with a teacher equals training with the mixed loss when there is no scheduler per iteration; validation and calibration in full.
  Theorems: `C141_epoch`, `C141_schedule_partial`, `C141_distill_partial`, `C141_loss`, `C141_validate`, `C141_calibrate`.
  Refutations: `C141_iter_false`, `C141_distill_false`.
* **C142** (partial) Switched-off layers stay off, and quantize() copes with the files of earlier runs. False as stated: a fused group is listed under its first layer only, but switching that entry off leaves the other layers quantized, because is_fusable stops at a switched-off node before the value is spread; switching a layer off in the written file can make the next run fail with a KeyError, because the file also lists nodes that are then no longer created; an interruption while the configuration is written leaves an empty file on which every later run fails (None is not iterable), also with force_overwrite; without force_overwrite a cut code or weights file is never repaired, old code can be combined with new weights, and remove_weights_after_load makes the next run overwrite edited code. Proved: which layers stay in floating point; stability under any number of reruns; with force_overwrite the right result from every state of the files but a cut configuration; without it the right result or an error over all histories of one model.
  Theorems: `C142_off`, `C142_rerun`, `C142_fresh_partial`, `C142_cached`.
  Refutations: `C142_group_false`, `C142_edit_false`, `C142_crash_false`, `C142_stuck_false`, `C142_mix_false`, `C142_lost_false`.
* **C143** (partial) No operator of the file writes over the tensor of another. Proved for every graph, for operators whose outputs are in no list (own_partial) and for returned lists that are unpacked (unpack_partial); the pass adds only edges from unread tensors to new nodes (only). False: an output that is also put into a list, as in a, b = x.chunk(2); torch.cat([a, y]), makes the pass treat the operator as unpacked, the other output keeps index 0 and SPLIT writes over tensor 0 (list_false); the same holds for operators of which nothing is read, which stay in weakly connected graphs (dead_false).
  Theorems: `C143_only`, `C143_own_partial`, `C143_unpack_partial`.
  Refutations: `C143_list_false`, `C143_dead_false`.
* **C144** (partial) Preparing and converting leave PyTorch's own tables and classes as they were. Proved: convert puts every class attribute back when it returns (convert) and shows this library's classes to PyTorch meanwhile (inside); QAT preparation puts back LSTM.from_float and no_observer_set when it returns (qat_partial); over all histories the tables hold PyTorch's values or this library's (history). False: post-training preparation never puts no_observer_set back and nests one closure per call, ending in RecursionError for models with nn.GRU (ptq_false); calls that raise leave the replacements, and later calls preserve them (crash_false); PyTorch's default dictionary of custom modules keeps the entry for nn.GRU (custom_false).
  Theorems: `C144_convert`, `C144_inside`, `C144_qat_partial`, `C144_history`.
  Refutations: `C144_ptq_false`, `C144_crash_false`, `C144_custom_false`.
* **C145** (partial) In ONNX models exactly the activations that leave the quantized part are not quantized. Proved for every acyclic graph: the layers found are exactly those whose result, passed on by layers without quantizer, is dequantized on a way to an output through layers only (leaves), and layers of which nothing is dequantized keep quantizing (inner). False: a layer whose result is also read by a quantized layer stops quantizing (reader_false); if a function follows the DeQuantStub the layer keeps its quantizer (func_false); the search has no visited set and takes d^k steps for k layers reading d results of the one before (steps_false).
  Theorems: `C145_leaves`, `C145_inner`.
  Refutations: `C145_reader_false`, `C145_func_false`, `C145_steps_false`.
* **C146** (partial) Dropout of a converted model is PyTorch's dropout. Proved: identity in evaluation mode (eval); for matrices and single batches of them and 0 <= p < 1 every mask is as likely and gives the same tensor as in PyTorch (train_partial), probabilities sum to 1 and the mean is the input (mean_partial). False: p = 1 raises ZeroDivisionError (one_false); other shapes raise (shape_false); dropout of channels in training mode is passed through (feature_false).
  Theorems: `C146_eval`, `C146_train_partial`, `C146_mean_partial`.
  Refutations: `C146_one_false`, `C146_shape_false`, `C146_feature_false`.
* **C147** (partial) TensorRT's integer operators read quantized tensors and nothing else is quantized. Proved when no operator reads two different results of one operator, and for a cell whose two states come last (C147_cell). Defect (C147_order_false): a cell whose input and first state come from one operator and whose second state from another fails an assertion, or silently gets its input as state when the state already has a quantizer.
  Theorems: `C147_reads_partial`, `C147_cell`, `C147_switches`, `C147_everywhere`.
  Refutations: `C147_order_false`.
* **C148** (partial) The quantizers repeated for ONNX export change no value. Proved: every repeated quantizer is the last one on some way to the tensor (C148_sound), and no value changes if operators without quantizer read one tensor and keep its grid and no module is called twice. Defects: x.view(x0.size(0), -1) makes the next layer use the quantizer of x0 when that way is shorter (C148_size_false); a module called twice gets both quantizers in both calls (C148_shared_false); a quantized input that is dequantized at once makes the export fail with AttributeError (C148_input_false).
  Theorems: `C148_sound`, `C148_same_partial`.
  Refutations: `C148_size_false`, `C148_shared_false`, `C148_input_false`.
* **C149** (partial) Quantizing a language model replaces exactly its linear layers. Proved for models in which no module has two names and which are not a single linear layer: with every layer quantizable, each name leads to what it should; however it ends, no layer is left without weights; a second call changes nothing. False of the code: a linear layer used under two names is replaced under one and left without its weight under the other; a model that is a single linear layer raises; the documented mode dynamic_token is refused.
  Theorems: `C149_layers_partial`, `C149_interrupted_partial`, `C149_again`, `C149_modes`.
  Refutations: `C149_shared_false`, `C149_root_false`, `C149_mode_false`.
* **C150** (partial) The nodes of a traced graph are the calls made by the model's own code. Proved for all nestings in which nothing raises and no layer is called while it is running (one re-entry is harmless, see the example). False of the code: a layer that calls itself two levels deep is recorded twice together with its inner calls; an exception inside of a layer that the model catches leaves the lock set, and nothing after it is recorded.
  Theorems: `C150_own_partial`, `C150_layer`.
  Refutations: `C150_reentry_false`, `C150_caught_false`.
* **C151** (partial) The expressions for layers in a rewritten forward function lead to these layers. Proved for layers inside attributes of the model with ordinary names (identifiers that are not reserved words), with sequences, lists, dictionaries and names with dashes further down, and numbered children at their place: Python reads the expression as accesses that lead to the layer; for all names without . ( ) " [ ] the name is got back. False of the code: models that are themselves a sequence, dashes in names directly in the model, and numbered children of a sequence in another order.
  Theorems: `C151_leads_partial`, `C151_back_partial`.
  Refutations: `C151_sequence_false`, `C151_dash_false`, `C151_numbered_false`.
* **C152** (partial) A generated model returns its results in the form in which the model returned them. Proved for a tensor and for sequences of at least two tensors or sequences of tensors; for sequences and dictionaries in general the tensors and their order are proved to be kept, and tracing to fail exactly for tensors that were not recorded. Fails, with witnesses: a tuple with one result (r[0] then is a row of the result), dictionaries (names lost), results that are no tensors (the others move up).
  Theorems: `C152_results_partial`, `C152_tensors`, `C152_fails`.
  Refutations: `C152_single_false`, `C152_dict_false`, `C152_shift_false`.
* **C153** (partial) A converted operator reads the constant its operator reads, whoever else reads it. Proved if operators reading the same constant can share it (sums of one type; indexing inputs of one length, or by indices that are not negative), and for constants used once. Fails, with witnesses: the same indices counted from the end for inputs of two lengths (wrong elements, no error), a constant added to tensors of two types, indices also used in arithmetic (no valid operator).
  Theorems: `C153_operands_partial`, `C153_once`.
  Refutations: `C153_index_false`, `C153_types_false`, `C153_arithmetic_false`.
* **C154** (partial) Cutting an LSTM with a projection changes nothing beyond its masks. Proved for every stack, every choice of removed units and features with at least one removed unit, balanced directions, ascending kept positions (C55) and zero removed inputs of bidirectional layers (the mask of weight_ih_l0_reverse is never registered, C133). Fails if features but no units are removed (the sparsity of the layer is lower than that of its group): the deeper layers keep their columns and PyTorch refuses to run them (C154_no_unit_false).
  Theorems: `C154_pruned_partial`.
  Refutations: `C154_no_unit_false`.
* **C155** (proved) The states of LSTM layers can be found in a converted model. Every converted model with fused LSTM operators; the bytes of the file are C139's.
  Theorems: `C155_states`, `C155_exactly`.
* **C156** (partial) Lazily constructed objects get the arguments they were given. Every history in which lazy objects are passed by keyword only beside the same object as last positional argument. Otherwise a keyword argument is replaced by the last positional one (C156_keyword_false), or an exception is raised (C156_exception_false): get_next reads the wrong variable.
  Theorems: `C156_history_partial`.
  Refutations: `C156_keyword_false`, `C156_exception_false`.
* **C157** (partial) Hooks of layers survive fusing for quantization. Holds for the hooks of C157_Safe.  Otherwise false: a hook after a convolution that follows a batch norm is called twice (the layer is copied with its hooks, then they are moved to the copy), a hook between the layers is given another value or is lost, and two hooks to be moved raise, because the loop deletes from the dictionary it iterates over.  A moved hook is given the input of the whole group.
  Theorems: `C157_hooks_partial`, `C157_raises`, `C157_twice`.
  Refutations: `C157_result_false`, `C157_value_false`, `C157_lost_false`, `C157_two_false`.
* **C158** (proved) Checkpoints of fused transposed convolutions load in both formats. Entries are named by lists of parts; what the base class does with the renamed entries is PyTorch's.
  Theorems: `C158_first_version`, `C158_second_version`, `C158_missing`.
* **C159** (partial) Sizes read by a traced model are sizes of the tensors it reads them from. Holds if no two tensors that have the same size when traced and different sizes later are read at one address (C159_sizes_partial), in particular with the input used for tracing (C159_traced) and if addresses are not used again (C159_kept).  False otherwise: nothing keeps the size object alive after the read, and a later one at its address with an equal value is taken for it, so the graph reads the size of the first tensor instead (C159_reused, C159_reused_false).
  Theorems: `C159_sizes_partial`, `C159_traced`, `C159_kept`, `C159_reused`.
  Refutations: `C159_reused_false`.
* **C160** (partial) Types named in a model stay those types when it is traced. Holds under the condition of C160_types_partial, in particular for the types when traced (C160_traced) and if no type is read (C160_named).  False otherwise: types are single objects, and an object once read from a tensor is taken for the type of that tensor wherever it occurs later (C160_named_after, C160_named_false), and only the tensor read last counts (C160_latest_false).
  Theorems: `C160_types_partial`, `C160_traced`, `C160_named`, `C160_named_after`.
  Refutations: `C160_named_false`, `C160_latest_false`.
* **C161** (partial) Layers whose construction was not seen are written with the settings they have. Proved when all parameters are constants of the class, required ones come first and are no strings, and strings need no escape. Defects: a required parameter that is no constant is left out, so the call fails (TransformerEncoderLayer); an optional one is silently reset; a required string has no quotes; strings with backslashes or quotes change or break the text; {self.x!r} in a description is quoted twice, and a string next to repr(self.y) is not quoted.
  Theorems: `C161_settings_partial`, `C161_strings_partial`, `C161_quoted_twice`, `C161_unquoted`, `C161_required_missing`.
  Refutations: `C161_required_false`, `C161_optional_false`, `C161_required_string_false`, `C161_escape_false`.
* **C162** (partial) A traced graph that is run on other inputs holds the tensors of these inputs. Values are proved for every run that finishes, and that it finishes for graphs whose nodes read inputs, constants and single items of earlier nodes. Defects: a graph in which a tensor inside a nested output is read (the last state of an LSTM) can never be run; a node with fewer outputs than before keeps old tensors after the new ones; with more outputs the run ends with an IndexError.
  Theorems: `C162_values`, `C162_runs_partial`, `C162_nested`.
  Refutations: `C162_nested_false`, `C162_stale_false`, `C162_more_false`.
* **C163** (partial) Simulated bfloat16 training rounds every number to the nearest bfloat16 number. Rounding, ties, switching and the recursion through lists and tuples are proved. Defects: tuples come back as lists; tensors in dictionaries are not rounded; finite numbers from 0x7f7f8000 on become infinite (as bfloat16 has it). NaN is not modelled.
  Theorems: `C163_nearest`, `C163_ties`, `C163_exact`, `C163_overflow`, `C163_overflow_finite`, `C163_everywhere_partial`, `C163_switch`.
  Refutations: `C163_overflow_false`, `C163_tuple_false`, `C163_dict_false`.
* **C164** (partial) The identity pruner works with the settings it documents. Rates, the flag given in the configuration and acceptance of dictionaries are proved. Defects: the constructor switches compensation on, but the constructor of the parent class switches it off before the configuration is read, so by default the pruned network computes something else; a path is never accepted although documented; the caller's dictionary is changed.
  Theorems: `C164_settings_partial`, `C164_accepts`, `C164_off`, `C164_path`.
  Refutations: `C164_default_false`, `C164_path_false`, `C164_config_false`.
* **C165** (partial) Sample inputs reach the inputs of the converted model, and the model handed in comes back as it was. Proved for arguments without lists in lists: inputs in order, flags as asked for, arrays in the right layout, and exactly what happens to the caller's model. Violated: lists in lists stop the conversion; inputs_for_tflite fails for lists of tensors and before convert; a module comes back in evaluation mode on the CPU, also after a conversion that fails; a second call of convert fails for every model with an input.
  Theorems: `C165_inputs_partial`, `C165_starts`, `C165_nested`, `C165_arrays_partial`, `C165_model`, `C165_script`.
  Refutations: `C165_nested_false`, `C165_list_false`, `C165_before_false`, `C165_model_false`, `C165_again_false`.
* **C166** (partial) The largest elements of a converted model are PyTorch's. Elements proved for every row and every answer PyTorch may give; places proved for rows without equal elements. Violated: with equal elements the places may differ. Rows hold elements of a linear order, so NaN is left out.
  Theorems: `C166_legit`, `C166_values`, `C166_places_partial`, `C166_accepts`.
  Refutations: `C166_ties_false`.
* **C167** (partial) A NetAdapt pruner can be constructed with the settings it documents. Reading the settings is proved (C167_read, C167_budget, C167_checked). The constructor is false: the pruner reads skip_last_fc, which its own parse_config never stores, so it raises AttributeError for every configuration and every model with an operation to prune (C167_construct_false, C167_attribute_false). A smallest number of channels of 0 is also accepted (C167_size_false). The number of operations of the model is a parameter.
  Theorems: `C167_read`, `C167_budget`, `C167_checked`.
  Refutations: `C167_construct_false`, `C167_attribute_false`, `C167_size_false`.
* **C168** (partial) Exported files lie together and describe every result. The paths are right exactly if the directory and name do not contain '.pt' (C168_paths, witness C168_paths_false). The entries are right for results nested at most twice and, without a list of flags, at most as many results as inputs (C168_outputs_partial, C168_accepts); otherwise results are lost (C168_outputs_false, for every such model) or the export fails (C168_nested_false). Tracing and saving the model are not modelled.
  Theorems: `C168_paths`, `C168_distinct`, `C168_outputs_partial`, `C168_accepts`.
  Refutations: `C168_paths_false`, `C168_outputs_false`, `C168_nested_false`.
* **C169** (partial) Powers and reciprocals of a converted model are PyTorch's. Proved for floating-point tensors (C169_float) and, for integer tensors, for exponents in tensors and whole Python exponents that are not negative (C169_int_partial). False otherwise: the fraction of a Python exponent is cut off, so that a square root gives 1 for every element (C169_fraction_false, C169_exponent_false, for all elements and exponents), and the reciprocal of an integer tensor is a division with operands of different types (C169_reciprocal). Refused: Python numbers as base, 64-bit tensors (C169_refused). Numbers are exact.
  Theorems: `C169_float`, `C169_int_partial`, `C169_refused`, `C169_reciprocal`.
  Refutations: `C169_fraction_false`, `C169_exponent_false`.
* **C170** (partial) A pruner that trains uses the items it was given. Which items are used is proved (C170_items). A context is accepted exactly if all needed items are true for Python (C170_accepts_partial), so an empty validation loader counts as missing (C170_empty_false). The context handed in is changed, so a second pruner takes over the settings of the first (C170_shared_false, for all configurations). The NetAdapt pruner does not reach this point, see C167.
  Theorems: `C170_items`, `C170_accepts_partial`.
  Refutations: `C170_empty_false`, `C170_shared_false`.

## What each model module covers

* `Model/ActFold.lean`: Activations that quantized layers take over (`clamp`, ReLU6 and the like): the extra fake quantizer behind them, and what `convert` makes of it. Modelled code: tinynn/graph/quantization/quantizer.py rewrite_quantize_graph (2836-2871, the pair of stubs behind the activation) extra_qat_fusion_postprocess (1162-1208) convert (3247-3261) and tinynn/graph/quantization/utils.py clamp_with_fusion (76-79)
* `Model/ActLower.lean`: Model for C78: the operators emitted for activation functions, from /repo/tinynn/converter/operators/torch/aten.py and quantized.py. Floats are reals; the exponential overflows to infinity (`none`) above the largest float `M`. TFLite's operators are taken with exact real arithmetic.
* `Model/Admm.lean`: Model of `ADMMPruner` (`tinynn/prune/admm_pruner.py`): the variables of one layer, the criterion with its derivative as automatic differentiation computes it, the learning rate, and which subgraphs an update looks at.
* `Model/ArgString.lean`: Model of how the tracer writes down the arguments of a traced function (`tinynn/graph/tracer.py`, `TraceFunction`).
* `Model/AtenExpand.lean`: Model of `ATenRepeatOperator`, `ATenRepeatInterleaveOperator`, `ATenExpandOperator` and `ATenExpandAsOperator`, `/repo/tinynn/converter/operators/torch/aten.py` 2822-2907 and 3266-3320, for inputs that are not constants. Each function gives the tensor the emitted operators compute.
* `Model/AtenIndex.lean`: Model of `ATenIndexOperator` and `ATenIndexPutOperator`, `/repo/tinynn/converter/operators/torch/aten.py` 2645-2762 and 3472-3605. The index tensors of the path with several indices (2658-2733) are those of the first axes, without `None` entries; they are constants, or vectors computed by the model (the GATHER of line 2707 reads along axis 0, which agrees with `np.take` only for vectors). `none` i
* `Model/AtenMove.lean`: Model of the operators of `/repo/tinynn/converter/operators/torch/aten.py` that only move elements: flip (1391-1411), stack (1673-1729), select (2187-2224), split (3103-3133), chunk (3136-3164), unbind (4183-4203) and roll (4206-4279). Each function gives the tensors the emitted operators compute. Dimensions are the Python arguments (possibly negative). Quantization parameters, data types and name
* `Model/AtenSlice.lean`: Model of `ATenSliceOperator.parse`, `/repo/tinynn/converter/operators/torch/aten.py` 1957-2078, for bounds that are constants (not in `constant_mapping`), and of the fusability test `is_slice_fusable_edge`, `/repo/tinynn/converter/operators/optimize.py` 4110-4121, with `fuse_slices` 4431-4462 applied to it.
* `Model/AvgPool.lean`: Model of `ATenAvgPool2dOperator.parse_common`, `/repo/tinynn/converter/operators/torch/aten.py` 1017-1083, and of `ATenAdaptiveAvgPool2dOperator.parse_common` and `ATenAdaptiveMaxPool2dOperator.parse_common`, aten.py 1095-1142 and 1153-1208. The tensor is one channel of one batch element with axes height and width; the layout transposes around the operators are C02's.
* `Model/AxisArg.lean`: Model of the conversion of operations that take axes: `ATenTransposeOperator`, `ATenTOperator`, `ATenPermuteOperator`, `ATenSoftmaxOperator`, `ATenLogSoftmaxOperator`, `ATenCumsumOperator`, `ATenCatOperator` and `ATenBroadcastTensorsOperator` (`/repo/tinynn/converter/operators/torch/aten.py` 1325-1340, 2089-2104, 2123-2133, 1616-1635, 2792-2811, 4149-4164, 1731-1750, 4569-4619) and `ATenCopyOperat
* `Model/BFloat.lean`: Simulating bfloat16 in training. Modelled code: tinynn/graph/quantization/fake_quantize.py FakeQuantizeBFloat16.__init__, enable_fake_quant, disable_fake_quant, forward (9-26) and tinynn/graph/quantization/quantizer.py BF16Quantizer.quantize (3600-3610: this module is put behind every layer and in front of every weight) Simplifications: tensors are of type float32 (a sign and the other 31 bits as 
* `Model/BatchNorm.lean`: Model of the conversion of batch normalization: `BatchNormOperator.transform` (`/repo/tinynn/converter/operators/tflite/transformable.py` 82-147), `ATenBatchNormOperator` (`/repo/tinynn/converter/operators/torch/aten.py` 901-925) and the quantized ones (`/repo/tinynn/converter/operators/torch/quantized.py` 179-220). Tensors stand for the numbers the emitted operators compute, in exact arithmetic; 
* `Model/BiasAbsorb.lean`: Model of high bias absorption, `bias_absorb_helper_` and `bias_absorb_`, `/repo/tinynn/graph/quantization/algorithm/cross_layer_equalization.py` 198-252, for layers of class `nn.Conv2d` with a folded batch norm (`fused_bn_`). Floats are elements of an ordered field.
* `Model/BmmAdd.lean`: Model of `fuse_bmm_add_pass` (`/repo/tinynn/converter/operators/optimize.py` 2569-2645) with `is_bmm_add_edge` (4067-4087): which products and additions become one FULLY_CONNECTED and what it computes. How the graph is rebuilt is in `Model/Rebuild.lean`; that the product is read by the addition only and is its first operand is assumed here.
* `Model/BnComp.lean`: Model of the batch-norm compensation in `NormChannelModifier.modify_input` (`/repo/tinynn/graph/modifier.py` 1179-1258) together with `modify_input` of the convolution behind it (2343-2382, the input side). What precedes the batch norm has lost the same channels (C31, C114). The output channels of the convolution are not pruned here (C31).
* `Model/BnFold.lean`: Model of the batch-norm folding and of the gather absorption of `/repo/tinynn/converter/operators/optimize.py`. Arithmetic is over ℝ (the code uses float32); 1-D parameter arrays are lists; weights are tensors in the order PyTorch uses (GENERIC_CONV) or TFLite uses (CONV_2D), as in the code at the time each pass runs.
* `Model/BnRestore.lean`: Model of `tinynn/util/bn_restore.py`. Values are those of one channel, in exact arithmetic; `call o x` is what the convolution `o` computes.
* `Model/BranchExpand.lean`: One copy of a RESHAPE or TRANSPOSE for each of its readers. Modelled code: tinynn/converter/operators/optimize.py branch_reshape_expand_pass (1240-1276) branch_transpose_expand_pass (1278-1314) is_reshape_branch_edge, is_transpose_branch_edge (4150-4169) expand_op_outputs_in_branches (4814-4841) Simplifications: operators are known by their position in the list; the copied attribute tensor (shape 
* `Model/CatSplit.lean`: Model of `cat_split_pass`, `/repo/tinynn/converter/operators/optimize.py` 2937-3010: the operators emitted for one CONCATENATION with more than ten inputs. The removal of the node and the restoration of its edges are not modelled.
* `Model/CatUnify.lean`: Model of `disable_requantization_for_cat_pass` (`/repo/tinynn/graph/quantization/quantizer.py` 1210-1343). `prevs` leaves out the FloatFunctional of an operation, which is its `site`. Not modelled: modules with several sites (bidirectional LSTM and GRU). `none` means that the search did not end within the given number of steps.
* `Model/CenterConstraint.lean`: Model of the first half of `SubGraph.calc_prune_idx` (`tinynn/graph/modifier.py:2916-3010`), which finds out which channels have to be pruned together. Centers are numbered, a leaf has its constraints for the centers of the subgraph (entries for other centers are skipped by the code); dictionaries are lists in order of insertion. Simplified: a position that a center's tables do not have gives no c
* `Model/CodeFiles.lean`: The files `generate_code` writes, and its check. Modelled code: tinynn/graph/tracer.py ConstantNode, ConstantNode.parse (320-389) the creation of constants (883-900) TraceGraph.__gen_init_code (2254-2318) TraceGraph.generate_code (2439-2456 the weights, 2484-2510 the check) and tinynn/util/util.py tensors2ndarray (189-213). Simplifications: names of entries of a state dictionary are pairs instead 
* `Model/ConstUse.lean`: Model of how the converter writes constant operands (/repo/tinynn/converter/operators/torch/base.py, aten.py, /repo/tinynn/converter/operators/graph.py). Simplified: tensors have one dimension and no broadcasting; the other operand of every operator is not a constant (otherwise no operator is written).
* `Model/ConvExport.lean`: Model of `export_converter_files` and of the paths of `generate_converter_config`, /repo/tinynn/util/converter_util.py: 90-104 and 109-165. `none` is an exception. The absolute path of the exported file without its last three characters is `base`.
* `Model/ConvInputs.lean`: Model of the first half of `TFLiteConverter.convert` (`/repo/tinynn/converter/base.py` 512-517) and of `inputs_for_tflite` (630-645). Tracing itself is not modelled: the names of the inputs of the traced graph, one for every tensor of the sample inputs, are given. The exception for a module called `PlaceholderModule` (base.py:285) is left out.
* `Model/ConvLower.lean`: Model of `GenericConvOperator.transform` and `GenericTransposeConvOperator.transform`, tinynn/converter/operators/tflite/transformable.py 188-412 and 458-670, in exact arithmetic. Simplified: quantization parameters and data types are left out; inputs have a batch axis (the branches for a 3-D input of a 2-D convolution, 199 and 473, are not modelled); the warnings (261-266, 526-531) have no effect
* `Model/ConverterConfig.lean`: Model of the converter configuration, `/repo/tinynn/util/converter_util.py`: `tensor_config` 14-44, `generate_converter_config` 47-106, `get_tensor_details`, `prepare_input_arrays`, `data_to_pytorch` and `parse_config` 168-235; and of the checks of `TFLiteConverter.__init__`, `/repo/tinynn/converter/base.py` 177-222. Writing and reading the JSON file is taken to be faithful. `none` is an exception
* `Model/CrossLayer.lean`: Model of cross-layer equalization, `/repo/tinynn/graph/quantization/algorithm/cross_layer_equalization.py`: `equalize` 79-106, `_weight_equal_helper` 109-129, `graph_traverse` 42-68 and `get_cls_set` 71-76. Floats are real numbers, extended by the infinity and the NaN that a division by zero produces. The flattening of multi-dimensional weights is done by index arithmetic; the kernel dimensions ar
* `Model/CrossNet.lean`: Model of the loops of `equalize_model`, /repo/tinynn/graph/quantization/algorithm/cross_layer_equalization.py 152-156: every group is a pair of convolutions that follow each other, given by the place of the first. Every convolution has its own module (a shared module: `C35_shared_module_false`). The log messages (158-168) are left out.
* `Model/CtorLines.lean`: The constructor lines the tracer remembers for modules, by the address of the module. Modelled code: tinynn/graph/tracer.py new_init_gen (995-1036) new_setattr_gen (764-795) register_submodule_tracer (1673-1692, which modules become nodes) TraceGraph.__gen_init_code (2267-2278 and 2305-2314, which line a node gets) Simplifications: `m.id` is a natural number; the tracing lock is free whenever user
* `Model/DeadNodes.lean`: Model of `cleanup_dead_nodes`, `/repo/tinynn/converter/operators/optimize.py` 1054-1084. The nodes that have not been deleted are the list `alive`; deleting vertices deletes their edges, so the out-degree of a node counts the edges to alive nodes. igraph's `is_connected('weak')` is the argument `connected`. Warnings are dropped.
* `Model/Deconv3d.lean`: `GenericTransposeConvOperator.transform` for a 5-D weight, tinynn/converter/operators/tflite/transformable.py 554-672.
* `Model/Dequantize.lean`: Model of `DeQuantizer.rewrite_quantize_graph`, tinynn/graph/quantization/quantizer.py 4038-4146. Simplifications: every node has one result (places in results: C86); `remove_node` and `insert_after` are what C86 proves of them: the readers of the node read its input, or the new node. A node for an object `FloatFunctional` and the object are one; the lines the generated code has are the nodes (C81,
* `Model/DimChoose.lean`: Model of the choice of one dimension per tensor in the channel pruner, tinynn/graph/modifier.py: `DimensionChangeInfo.is_changes_conflict` (373-387) and `merge_t` (389-395), `Modifier.dim_choose_traversal` (955-1028), `Modifier.calc_dim_choices` (1030-1076), `ReshapeModifier.dim_choose` (1369-1410), `MatMulModifier.dim_choose` (1520-1565), `LinearChannelModifier.dim_choose` (1705-1750) and `SubGra
* `Model/DropoutLower.lean`: Model of the conversion of dropout (`/repo/tinynn/converter/operators/torch/aten.py`): ATenDropoutOperator.parse 1551-1601 ATenFeatureDropoutOperator.parse 1604-1613 Floats are real numbers. The TFLite operator MULTINOMIAL draws, for each row of logits and each sample, the class `k` with probability `exp l_k / (exp l_0 + exp l_1)`, independently.
* `Model/DtypeReads.lean`: Model of how types of elements are traced: reading `.dtype`, tinynn/graph/tracer.py `new_getattr_gen` (914-968) with `add_forward_node` (1616-1624), and passing types to functions, `TraceFunction.parse_args` (585-596). Simplifications: nodes are named by the tensor whose type they compute. A `torch.dtype` is one object for each type, wherever it comes from, so the table of objects is a table of ty
* `Model/Elementwise.lean`: Models of `remove_tile_before_binary_elementwise_ops` (optimize.py 508-557) and `fuse_reciprocal_sqrt` (optimize.py 466-505) of `/repo/tinynn/converter/operators/optimize.py`.
* `Model/Eliminate.lean`: Model of `elinimate_sequences`, tinynn/converter/operators/optimize.py 4647-4811, with the graph helpers it uses (tinynn/converter/operators/graph.py). A failed assertion, a missing list element or a failed `list.index` is `none`. The name of an edge to an operator is the name of its tensor, like its label; the name of an edge to an output node is that of the output node, which starts with the lab
* `Model/ErrorAnalysis.lean`: Model of `layer_error_analysis` and `graph_error_analysis` (`tinynn/util/quantization_analysis_util.py:76-291`). A model is the list of its modules, the model itself first. What it computes is a parameter: from mode and fake-quantization switch of every module and the input, either an error or the input every module was last called with (`none`: not called).
* `Model/FakeQuant.lean`: Model of `FakeQuantizeTFLite.forward`, `/repo/tinynn/graph/quantization/fake_quantize.py` 31-55. The super-class is PyTorch's `FakeQuantize` (outside the repository), modelled after its documentation: observe and update the quantization parameters if the observer is enabled, then quantize and dequantize if fake quantization is enabled. Floats are real numbers; a tensor is a function from an index 
* `Model/FlatFile.lean`: Model of the building of the file: tinynn/converter/operators/tflite/base.py 29-46, 71-83, 103-127, 144-153, 283-308, 341-358, 372-387, 390-411, tinynn/converter/operators/tflite/generated_ops.py (the `build` methods), tinynn/converter/operators/graph.py 723-770. Simplification: the builder of the library `flatbuffers` is taken as one that makes objects; an offset is the object itself, and offset 
* `Model/FlatSchema.lean`: Written by a script from tinynn/converter/schemas/tflite/schema_generated.py (the slots and defaults of the `Add` functions; the number in each comment is the line) and tinynn/converter/operators/tflite/generated_ops.py (for each operator class its lines, its code, the number of its options in the union, and the calls in its `build`: which function gets which attribute).
* `Model/Flops.lean`: Model of `BasePruner.calc_flops`, `/repo/tinynn/prune/base_pruner.py` 185-247, and of the registration of the removed indices it reads (`Modifier.register_mask`, `/repo/tinynn/graph/modifier.py` 703-707; `GraphChannelModifier.reset_masker`, 3369-3372). A module that is used several times in a network is one module with one masker, and one graph node per use.
* `Model/FromState.lean`: Constructor calls the tracer writes for layers whose construction it has not seen, from the attributes the layer has. Modelled code: tinynn/graph/tracer.py new_module_getattr_gen (798-845) get_constructor_args (1375-1380, as the list of parameters) gen_module_constrctor_line (1383-1471; 1416-1452 for the classes in `legacy_modules`, 1454-1460 for the others) Simplifications: values other than stri
* `Model/Frozen.lean`: Model of how the converter walks the TorchScript graph (`/repo/tinynn/converter/base.py` 397-491, 493-497, 524-580; `operators/torch/base.py` 186-219, 791-831; `operators/torch/prim.py`; `operators/graph.py` 52-96). Every node is run on the dummy input; nodes that read no tracked tensor leave nothing but their value of that run. Simplifications: one TFLite operator per node, computing the same fun
* `Model/FuncRewrite.lean`: Model of the rewriting of functional operations before quantization, tinynn/graph/quantization/quantizer.py 1684-2290 (`rewrite_quantize_graph`). Simplified: a call is an instruction of a straight-line program, and its arguments are literals instead of text. The passes filter nodes by layer configuration and by the types of the tensors; `on` and `float` stand for the outcomes of these tests. `inpl
* `Model/Fusable.lean`: Model of the search for runs of modules that are fused before quantization-aware training (tinynn/graph/quantization/quantizer.py).
* `Model/FuseEdges.lean`: Model of `fuse_connected_edges`, `/repo/tinynn/converter/operators/optimize.py` 4518-4543. Vertices are values of a type with decidable equality.
* `Model/FuseHooks.lean`: Model of `gen_fuse_known_modules_wrapper` and the fusing functions it calls, tinynn/graph/quantization/fused_modules.py 24-141, with respect to forward hooks. Simplifications: all layers of a group are in the same mode (the assertions of 39, 60 and 77); the fused weights compute the composition of the layers (C36 says when); `nn.utils.fusion.fuse_conv_bn_eval` copies the layer as 50-56 does. `copy
* `Model/FuseIo.lean`: Model of `fuse_quant_dequant_nodes` and `quantize_input_output_type_pass` (`tinynn/converter/operators/optimize.py:3070-3179, 3441-3497`). Simplification: the graph's edges are read off the operators' operands; edges are visited in the order inputs × operators, outputs.
* `Model/FusedBn.lean`: Model of `_ConvTransposeBnNd._load_from_state_dict`, tinynn/graph/quantization/qat_modules.py 527-559, up to the call of the method of the base class. Simplifications: entries in checkpoints are named by lists of parts instead of strings with dots; the parts have no dots.
* `Model/GatherNd.lean`: Model of `ATenGatherOperator` and `ATenScatterOperator`, `/repo/tinynn/converter/operators/torch/aten.py` 3321-3373 and 3376-3468. The index tensor is either a constant (its value is then known when converting) or computed by the model (`dynamic`); in the latter case the converter only knows the traced value. Index data types and the cast to 32 bits are left out.
* `Model/GraphCall.lean`: Running a traced graph again on other inputs. Modelled code: tinynn/graph/tracer.py TraceGraph.__call__ (2954-3025) Simplifications: the module or function of a node is a function from its input tensors to one tensor or a list of tensors (including the treatment of `shape` and `size`, 3003-3008); keyword arguments are ignored there as here; the name `input_{i}_f` is the key `inp i`.
* `Model/GraphEdit.lean`: Model of the edits of a traced graph, tinynn/graph/tracer.py 2610-2950 and 3027-3200. Simplified as in `Verif.Model.TracerSub`: a tensor object is the node that produced it and its place in the result, and `next_nodes` is recomputed from what the nodes read. A failed assertion or exception is `none`. `move_idx` is true, as in all calls but one.
* `Model/GreedyPrune.lean`: Model of the selection of the channels of one leaf in `SubGraph.calc_prune_idx_by_center_importance`, `/repo/tinynn/graph/modifier.py` 2836-2890. Fractions are exact rationals (Python floats in the code). The construction of the leaf constraints and importances from the centres (2741-2834) is not modelled here: they are the argument.
* `Model/GroupConv.lean`: Model of `group_conv_rewrite_pass` and `group_deconv_rewrite_pass`, `/repo/tinynn/converter/operators/optimize.py` 2746-2934: the operators emitted for one grouped (transposed) convolution. The surgery on the graph's edges is not modelled. Tensors are over a semiring (float32 or the quantized values in the code); `none` is the exception `np.split` raises on an uneven division.
* `Model/GroupPrune.lean`: Model of the index computations with which recurrent layers and grouped convolutions are pruned: `tile_indices_with_gate_size` and `split_indices_with_directions`, `/repo/tinynn/graph/modifier.py` 1837-1845, the rows kept by `RNNChannelModifier.modify_output` (2048-2057), and the slices of `ConvChannelModifier.modify_input` for grouped convolutions (2321-2335).
* `Model/GroupTensors.lean`: Model of `group_tensors_pass`, tinynn/converter/operators/optimize.py 1008-1052, and of `replace_operator_input`, tinynn/converter/operators/graph.py 289-318. `key t` is the dictionary key of a tensor: content, element type, shape and, if present, quantization parameters (1016-1033); it is `none` when the tensor has no buffer, where `tensor.buffer.data` raises. A raised exception is `none`.
* `Model/Gru.lean`: Model of the quantizable GRU (`tinynn/graph/quantization/quantizable/gru.py`), without observers: what it computes while floating point. A batch is a function from its index, a sequence a list of batches (`batch_first` is off; with it the input and the output are transposed, 360-361, 402-403).
* `Model/HalfQuant.lean`: Model of `HalfQuantizer` (`tinynn/converter/operators/half_quantizer.py`) followed by `cleanup_dead_nodes` (`tinynn/converter/base.py:559-562`). `κ` are the kinds of operators without the `DEQUANTIZE` this pass creates, which is `none`; `attr` and `trans` are the names made by `create_attr_tensor` and `create_transform_tensor` (26-46).
* `Model/HybridQuant.lean`: Model of `quantize` of `/repo/tinynn/converter/operators/hybrid_quantizer.py` 210-264, and of the choice of granularity in `quantize_pass` (131-188). All call sites pass `torch.qint8`, so only that branch is modelled. Weights are reals (float32 in the code).
* `Model/IdentityInit.lean`: Model of the construction of an `IdentityChannelPruner` (`tinynn/prune/identity_pruner.py` 14-33), which prepares the configuration, sets `bn_compensation` and calls `OneShotChannelPruner.__init__` (`oneshot_pruner.py` 28-92, see `PruneConfig`). The configuration after the call is returned, because it is the object of the caller.
* `Model/IdentityPrune.lean`: Model of `SubGraph.calc_prune_idx_by_bn_variance` (used by the identity pruner), `/repo/tinynn/graph/modifier.py` 2596-2732: which channels of a centre are removed. Simplifications: one centre, so the propagation to dependent centres (2668-2682) is not modelled; the batch-norm leaves that are skipped (2612-2645) are not in the list of leaves; `running_var < 1e-8` is the flag of each leaf channel. 
* `Model/InPlace.lean`: Model of tracing a model with in-place operations and of the code generated for it (`tinynn/graph/tracer.py`). Only what in-place operations add: arguments, modules, constants and the dropping of variables are C81 and C92. A tensor object is named by the node recorded for it and, if the node has several results, an index.
* `Model/Inplace.lean`: Model for C75: how the converter walks a traced program with views and in-place operations. * /repo/tinynn/converter/base.py:296-317 — the lowered graph is used as traced: no pass rewrites in-place operations. * /repo/tinynn/converter/base.py:397-491 `init_operations` — every node is run on the dummy input; the node is tracked when one of its inputs is a tracked tensor. * /repo/tinynn/converter/op
* `Model/InputStats.lean`: Model of `set_module_quantization`, `prepare_quantized_inputs_pass`, `KNOWN_QSTATS` and `rescale_activations_with_quant_min_max` (`/repo/tinynn/graph/quantization/quantizer.py` 1345-1467, 154-159) over exact numbers. `none` is an exception.
* `Model/Int16Lstm.lean`: Model of `HybridQuantizer.int16_lstm_pass`, tinynn/converter/operators/hybrid_quantizer.py 61-129, for operators with an int8 input that are not excluded by the configuration. Simplifications: numbers are rational; weights have one scale (they are quantized per tensor, 157-165). `torch.round` is the parameter `r`. Initial states are variable tensors, which the interpreter fills itself.
* `Model/IoLayout.lean`: Model of how the converter changes the layout of the inputs and outputs of a model: `init_input_transpose` (`/repo/tinynn/converter/base.py` 338-348), `input_transpose_pass` and `output_transpose_pass` (`/repo/tinynn/converter/operators/optimize.py` 3012-3067 and 3181-3393). The graph is a list of operators in an order in which they can run (C17); new operators are put where they can run. The edge
* `Model/KlRange.lean`: Model of `HistogramObserverKL` (`tinynn/graph/quantization/observer.py:39-151`) over exact rational numbers. `T` is the number of bins after merging (128), a histogram is a function that is 0 from its size on. The divergence itself (`F.kl_div`) is a parameter.
* `Model/LayerExpr.lean`: Model of the expressions by which a traced graph refers to the layers of the user's model: `TraceGraph.__tag_nodes`, tinynn/graph/tracer.py 1959-1980, used in `self.<expression>(...)` by `__gen_forward_code` (2354-2355, 2364-2367) for `inplace_commit`, and turned back into names by `get_submodule_with_parent_from_name` and `update_submodule_in_node` (2553-2597). Simplified: `str.isnumeric` is "dig
* `Model/Layout.lean`: Models of the layout passes of `/repo/tinynn/converter/operators/optimize.py` and of the transpose wrapping helpers.
* `Model/LazyArgs.lean`: Model of `LazyObject`, /repo/tinynn/util/util.py 35-120. Simplification: plain values have no method `get_current`.
* `Model/LlamaAttention.lean`: Model of `LlamaAttentionFused` (`tinynn/llm_quant/llama.py`) for one entry of the batch.
* `Model/LlmQuant.lean`: Model of `compress_int` and `QLinear`, `/repo/tinynn/llm_quant/modules.py` 34-61 and 64-179. Floats are real numbers, a matrix is a list of rows. The accelerated paths call kernels of the easyquant library, which is not in the repository; what is modelled is the path without it.
* `Model/LowerTranspose.lean`: Model of `lower_transpose_dim_pass`, /repo/tinynn/converter/operators/optimize.py 2648-2743.
* `Model/LstmStates.lean`: Model of `parse_lstm_states`, /repo/tinynn/converter/utils/tflite.py 12-41, on models the converter writes with `unroll_rnn=False`: the inputs of the LSTM operators (/repo/tinynn/converter/operators/torch/aten.py 26-78, 105-168, 345-420) and the indices of their tensors (/repo/tinynn/converter/operators/graph.py 590-655). Not modelled: the bytes of the file (C139), the loading by path or bytes (13
* `Model/LstmWeights.lean`: The weights of LSTMs that are kept out of quantization: they are rounded when the model is prepared, and put back when it is converted. Modelled code: tinynn/graph/quantization/quantizer.py QATQuantizer.fake_quantize_lstm_weights (3548-3568) QATQuantizer.restore_lstm_weights (3570-3578) QATQuantizer.convert (3244-3245, the call of the latter) tinynn/graph/quantization/utils.py fake_quantize (88-10
* `Model/MaskedFill.lean`: Model of `ATenMaskedFillOperator` and `ATenWhereOperator`, `/repo/tinynn/converter/operators/torch/aten.py` 3925-4031 and 4111-4121, on floating-point tensors: the result is computed as `x * (1 - mask) + value * mask`.
* `Model/Masker.lean`: Model of `ChannelMasker`, `/repo/tinynn/graph/masker.py`: the removed indices that are accumulated per module, the registered masks, and saving and restoring the state. Masks are an arbitrary type `μ`; the forward hook is not modelled.
* `Model/Matmul.lean`: Model of `ATenMatmulOperator` (also used for `mm` and `bmm`), `ATenAddmmOperator`, `ATenLinearOperator`, `ATenAddbmmOperator` and `ATenBaddbmmOperator`, `/repo/tinynn/converter/operators/torch/aten.py` 1515-1543, 1659-1676, 2251-2285, 4498-4538. Each function gives the tensor the emitted operators compute (`none` inside `ops` when an operator rejects its operands). Operands of which both are const
* `Model/MergeConstraint.lean`: Model of `merge_constraint` in `/repo/tinynn/graph/modifier.py` lines 194-239. A Python `set` is represented by the list of its elements in the order in which CPython iterates over it; nothing is assumed about that order. The Python lists `constraint`, `reindex_list` and the dictionary `homology_idx`, which are only ever accessed at indices below `len(constraint)`, are represented by functions of 
* `Model/MergeGroup.lean`: Model of `merge_group` and `get_smallest_k` in `/repo/tinynn/graph/modifier.py`.
* `Model/Modes.lean`: Modes of models, and freezing of batch norm. Modelled code: tinynn/graph/quantization/quantizer.py QATQuantizer.set_model_mode (424-440), PostQuantizer.set_model_mode (3645-3661) QATQuantizer.restore_model_mode (442-456) their use in QATQuantizer.quantize (467, 526) and tinynn/graph/quantization/qat_modules.py _ConvTransposeBnNd: the flags in __init__ (409-410, 423-431), update_bn_stats (450-453),
* `Model/MoveAcross.lean`: Model of `elementwise_reshape_transpose_passthrough_pass` (`/repo/tinynn/converter/operators/optimize.py` 1316-1590) on one RESHAPE operator next to a TRANSPOSE: whether the operator is rewritten, and with which permutations and shape. Left out: the bookkeeping of names and edges, the set `processed_nodes` (an operator whose neighbour was already touched is left alone) and consumers that are `UNUS
* `Model/NetAdapt.lean`: Model of the NetAdapt search, `/repo/tinynn/prune/netadapt_pruner.py`: `find_prune_plan` 205-294 and `prune` 303-376. Simplifications: training and validation are the accuracy a plan gets (`Sub.acc`); `calc_flops` after masking a subgraph down to `c` channels is `Sub.flops c`; how the subgraphs look in a round is any function of the plans taken so far; the target is computed exactly instead of in 
* `Model/NetAdaptInit.lean`: Model of the construction of `NetAdaptPruner` (`/repo/tinynn/prune/netadapt_pruner.py` 29-125) on top of `OneShotChannelPruner.__init__` (`oneshot_pruner.py` 29-92) and `BasePruner.parse_config` (`base_pruner.py` 62-101). The attributes of the object are a list of names: reading one that was never set is an exception.
* `Model/Noop.lean`: Model of the removal of operators without effect and of the folding of constants (`tinynn/converter/operators/optimize.py`).
* `Model/Norm.lean`: Model of `ATenLayerNormOperator`, `ATenInstanceNormOperator`, `ATenGroupNormOperator`, `ATenVarOperator` and `ATenStdOperator`, `/repo/tinynn/converter/operators/torch/aten.py` 2432-2642 and 2968-3066. Each function gives the tensor the emitted operators compute; the square root is a parameter. Instance normalisation with running statistics becomes a batch normalisation and is not part of this mod
* `Model/OnnxExport.lean`: Getting a prepared model ready for export: `prepare_onnx_export` and `freeze_weights`. Modelled code: tinynn/graph/quantization/quantizer.py QATQuantizer.prepare_onnx_export (3342-3361 the fake-quantizers, 3426-3456 the fused convolutions) QATQuantizer.freeze_weights (3515-3546) Floats are real numbers. Not modelled: the replacement of the `forward` of fake-quantizers (3363-3424), which picks anot
* `Model/OnnxLeaves.lean`: Model of the search for layers whose activation is not quantized in ONNX models (`/repo/tinynn/graph/quantization/quantizer.py`): QATQuantizer.prepare_qat 1079-1107 (`leaf_nodes`) QATQuantizer.prepare_onnx_export 3336-3338 Simplifications: the queue holds (node, state) pairs and every pair is handled on its own, so it is modelled as recursion over the nodes read; the order of `leaf_nodes` does not
* `Model/OnnxRepeat.lean`: Model of the repeated quantizers of ONNX models, tinynn/graph/quantization/quantizer.py 1109-1155 (which ones) and 3456-3510 (the hooks). Simplified: `next_nodes` are the readers in the order of the graph; the places of a functional module are counted without the module itself (3497-3498 subtract one); modules are called with positional arguments. The search runs for a given number of steps; the t
* `Model/OpVersion.lean`: Model of `OPVersioner.process_op` and `process`, `/repo/tinynn/converter/operators/op_version.py` 19-315. `version` is the value of `op.op.version` on entry. `str(dtype)` comparisons are comparisons of `DType`.
* `Model/OutShape.lean`: Model of how the results of a traced model are recorded and written into the generated code (/repo/tinynn/graph/tracer.py). Simplified: tensors are opaque values, and an expression in the generated code stands for the tensor it was written for (that the expressions compute these tensors is C81). An attribute of an object whose reading fails is not modelled, nor are the methods and class attributes
* `Model/Outermost.lean`: Model of how the tracer tells calls made by the model from calls made inside of layers and functions, tinynn/graph/tracer.py: `no_catch` (732-740), `new_func_gen` (1046-1097), and the hooks of layers, `_submodule_pre_tracer` and `_submodule_tracer` (1645-1666), with the global `lock` (140) and `skip_modules` (169). Simplified: what a node contains is left out; a graph is being traced all the time.
* `Model/PadLower.lean`: Model for C77: padding. * /repo/tinynn/converter/operators/torch/aten.py:928-958 `ATenConstantPadNdOperator` * /repo/tinynn/converter/operators/torch/aten.py:4285-4319 `ATenPadOperator` * /repo/tinynn/converter/operators/torch/aten.py:3071-3101 `ATenReflectionPad2dOperator`, `ATenReflectionPad1dOperator` Raw tensor contents are reals: the number itself for float and integer tensors, the stored int
* `Model/Patches.lean`: Model of how the tracer replaces functions of PyTorch for a while (`/repo/tinynn/graph/tracer.py` 732-751, 1046-1097, 1307-1372, 3261-3322, `/repo/tinynn/graph/_utils.py` 296-373). Objects and names are numbers. The key of an attribute (`qualified_name`) is the object and the name; the code's text keys are assumed to tell attributes apart. An exception is a `true` beside the state. Not modelled: t
* `Model/PixelShuffle.lean`: Model of `ATenPixelShuffleOperator` and `ATenPixelUnshuffleOperator`, `/repo/tinynn/converter/operators/torch/aten.py` 3167-3231, with the transposes of `wrap_ops_with_nhwc_nchw_transposes` (base.py), for inputs of rank 4. Each function gives the tensor the emitted operators compute.
* `Model/Pool.lean`: Model of the conversion of pooling operators: `ATenMaxPool2dOperator.parse_common`, `/repo/tinynn/converter/operators/torch/aten.py` 1468-1512, `OperatorConverter.handle_padding`, `get_minimum_constant` and `get_pool_ceil_padding`, `/repo/tinynn/converter/operators/torch/base.py` 516-567, 569-590 and 759-788. The tensor is one channel of one batch element, its axes are height and width.
* `Model/PowLower.lean`: Model of `ATenPowOperator` (/repo/tinynn/converter/operators/torch/aten.py 1437-1450) and `ATenReciprocalOperator` (1236-1248), with `elementwise_binary` (base.py 336-361), at one element.
* `Model/PrepHooks.lean`: Model of the module side of `prepare_qat`: tinynn/graph/quantization/quantizer.py 889-1053 (QATQuantizer) and 3794-3885 (PostQuantizer) for PyTorch 1.8 and later, and of the hooks moved by tinynn/graph/quantization/fused_modules.py 110-141. Simplifications: modules are numbers, a node whose module is a function does not occur (it has neither hooks nor a qconfig); PyTorch's `propagate_qconfig_`, `_
* `Model/PruneConfig.lean`: Model of how `OneShotChannelPruner` (`tinynn/prune/oneshot_pruner.py`) reads its configuration and writes it back. Dictionaries are association lists (the first entry of a key counts); the configuration object after the call is returned, because it is the object of the caller.
* `Model/PruneNet.lean`: Model of masking (`register_mask`) and physical pruning (`modify_input`, `modify_output`) of convolutions without groups, transposed convolutions, linear layers, batch norms, PReLUs and depthwise convolutions, `/repo/tinynn/graph/modifier.py` 1133-1156, 1163-1178, 1179-1258, 1658-1706, 2253-2316, 2343-2382, 2438-2483. Which indices are removed at each node is `Net.removed`: the analysis that deriv
* `Model/PrunerContext.lean`: Model of `BasePruner.parse_context`, /repo/tinynn/prune/base_pruner.py 104-120, with the tables of admm_pruner.py 14-19 and netadapt_pruner.py 38-43. `truthy` is Python's truth value of an item. A context is a mutable object: the result is the object after the call.
* `Model/PtqFakeQuant.lean`: The fake-quantizer for post-training quantization: `PTQFakeQuantize.forward` (tinynn/graph/quantization/fake_quantize.py:84-107). Floats are real numbers; `S` is the state of the observer; a tensor is a function from an index type.
* `Model/PyOrder.lean`: Model of `complementary_list`, `/repo/tinynn/graph/modifier.py` 14-15: `list(set(a).difference(set(b)))`. The order of the result is the iteration order of a CPython set of small non-negative integers (their hash is the number itself), so the hash table of CPython's `Objects/setobject.c` (3.8 to 3.12) is modelled: `set_add_entry`, `set_table_resize` and the two branches of `set_difference`.
* `Model/QBias.lean`: Bias of quantized layers (tinynn/converter/operators/torch/quantized.py, `QuantizedConv2dOperator.parse_common`, `QuantizedLinearOperator.parse_common`; base.py, `rescale_weight_scale_for_qnnpack`, `quantize`). Scales are reals.
* `Model/QConfigs.lean`: 
* `Model/QModules.lean`: Model of the replacements for layers without a quantized counterpart, tinynn/graph/quantization/modules.py, before quantization: `QuantStub` and `DeQuantStub` return their argument and the methods of `FloatFunctional` are the float operations. `rsqrt` is a parameter. An exception is `none`.
* `Model/QRegion.lean`: Model of the placement of QuantStub and DeQuantStub nodes and of the search for the quantized nodes (`tinynn/graph/quantization/quantizer.py`). Placement is described per tensor that a node reads: the chain of stubs between producer and consumer. That `insert_after`, `insert_before` and `insert_between` put a node exactly there is C86.
* `Model/QScalar.lean`: Model for C76: quantized multiplication and addition with a Python number. * /repo/tinynn/converter/operators/torch/quantized.py:17-52 `QuantizedMulScalarOperator`, `QuantizedMulOperator.parse_common` * /repo/tinynn/converter/operators/torch/quantized.py:223-228, 279-311 `QuantizedAddScalarOperator`, `QuantizedAddOperator.parse_common`, `QuantizedAddReluOperator` * storage of tensors and scalars: 
* `Model/QatFold.lean`: Model of `fuse_conv_bn_weights` and `fuse_bn_conv_weights`, `/repo/tinynn/graph/quantization/utils.py` 4-23 and 26-52, and of the forward pass of the quantization-aware transposed convolution with batch norm, `/repo/tinynn/graph/quantization/qat_modules.py` 461-485. Floats are real numbers. A weight tensor has two channel dimensions and one kernel dimension; broadcasting follows PyTorch.
* `Model/QatReport.lean`: The report of a quantizer on a model prepared for training: `QATQuantizer.error_analysis` (tinynn/graph/quantization/quantizer.py:3064-3185). Models, runs and the pieces it shares with the functions of quantization_analysis_util.py are those of `Verif.Model.ErrorAnalysis`. The signal-to-noise ratio (3133-3136) is a parameter with rational values (infinite ratios and NaN, of zero tensors, are left 
* `Model/QuantFc.lean`: Model of `quant_fc` (without `fuse_qkv`), tinynn/llm_quant/modules.py 207-237, with `get_submodule_with_parent_from_name`, tinynn/llm_quant/util.py 34-49, and what `QLinear.__init__`, 63-95, does to the layer it is given. Simplified: `named_modules` is listed before the loop; in the code it is a generator, but an iteration only changes the entry of the module just listed. An exception sets `raised
* `Model/QuantRuns.lean`: Model of the files and of the configuration of layers in `quantize()`, tinynn/graph/quantization/quantizer.py 459-535 and the parts of `rewrite_quantize_graph` 1529-2987 that read or change `self.layerwise_config`.
* `Model/QuantStore.lean`: Model of how quantized tensors are stored: `Tensor.__init__` of `/repo/tinynn/converter/operators/tflite/base.py` 173-274 and `quantize_scalar_tensor` of `/repo/tinynn/converter/operators/torch/base.py` 675-696. Scales are reals (the code uses Python floats and float32).
* `Model/Rebuild.lean`: Model of how passes replace operators (`/repo/tinynn/converter/operators/optimize.py`: `split_requantize` 658-704, `transform_graph` 706-745, `fuse_bmm_add_pass` 2569-2645, `lower_transpose_dim_pass` 2648-2743, `group_conv_rewrite_pass` 2746-2838, `group_deconv_rewrite_pass` 2841-2934, `cat_split_pass` 2937-3010), with `add_nodes`, `add_node`, `add_outputs`, `add_operator` and `try_restore_edges` 
* `Model/ReduceLower.lean`: Lowering of reductions (tinynn/converter/operators/torch/base.py, `OperatorConverter.handle_reduce`; aten.py, `ATenNormOperator`).
* `Model/Requant.lean`: Model of the converter's passes that merge quantization nodes (`tinynn/converter/operators/optimize.py`). Activations are quantized per tensor, so the `dim` compared by the code is left out. A tensor is a function of the position; RESHAPE and TRANSPOSE are moves of positions.
* `Model/ReshapeMap.lean`: Models of `is_simple_reshape` (optimize.py 4544-4582) and `reshape_mapping` (optimize.py 4585-4644) of `/repo/tinynn/converter/operators/optimize.py`.
* `Model/ReshapeMask.lean`: Model of `Modifier.get_pruned_idx` and `ReshapeModifier.apply_mask`, `/repo/tinynn/graph/modifier.py` 791-812 and 1412-1455. `fl` is the rounding of Python floats. Only the shape argument is kept; `none` in a shape argument stands for text that is not a number (`-1` or an expression), for which `str.isdigit` is false.
* `Model/ReshapePass.lean`: Model of `elementwise_op_reshape_passthrough_pass`, tinynn/converter/operators/optimize.py 2127-2566, for one operator: the shapes it picks, the RESHAPE operators it puts in front of and behind the operator, and the changed arguments. Simplified: which reshapes win the vote (2283-2313) is not modelled, the theorems hold for whichever reshape was picked; the rewiring of edges is the subject of C72 
* `Model/ReshapePrelu.lean`: More of `elementwise_op_reshape_passthrough_pass`: the axis an operator works along, and PRELU. Modelled code: tinynn/converter/operators/optimize.py op_input_dims (4315-4358) for PAD, PADV2, MIRROR_PAD, SLICE, STRIDED_SLICE, TILE, PRELU and reductions elementwise_op_reshape_passthrough_pass, the part on PRELU (2434-2444) Negative axes do not occur here. A raised exception is `none`.
* `Model/Resize.lean`: Model of `ATenUpsampleNearest2dOperator` and `ATenUpsampleBilinear2dOperator`, `/repo/tinynn/converter/operators/torch/aten.py` 960-1007, with the transposes of `wrap_ops_with_nhwc_nchw_transposes` (base.py 450-478).
* `Model/RestoreFloat.lean`: Turning a converted model back into a float model, and clamping the weights of channels with a tiny variance. Modelled code: tinynn/graph/quantization/quantizer.py QATQuantizer.restore_to_original (3187-3231) QATQuantizer.optimize_conv_bn_fusion (3302-3327)
* `Model/RewriteQ.lean`: Model of `elementwise_op_quantize_passthrough_pass` (`/repo/tinynn/converter/operators/optimize.py` 1595-1783, option `rewrite_quantizable`): operators between DEQUANTIZE and QUANTIZE are made to work on quantized tensors. The graph is a list of operators in an order in which they can run (C17), constants included; new operators are put where they can run. Not modelled: LSTM operators, and constan
* `Model/Rnn.lean`: The lowering of LSTM and GRU, tinynn/converter/operators/torch/aten.py 25-870. A 2-D tensor (batch, features) or a weight is a function of two indices, a bias a matrix with one column. Every `let` below is an operator the converter emits, evaluated. Not modelled: quantized LSTM, dropout (the converter requires evaluation mode), the recorded shapes.
* `Model/RnnProj.lean`: Pruning LSTMs with a projection: the masks (`RNNChannelModifier.register_mask`, /repo/tinynn/graph/modifier.py:1847-1970) and the cut weights (`modify_input` 1972-1985, `modify_output` 1987-2131). `features` are the pruned features of the output (`pruned_idx_o`, `remove_idx_proj`), `units` the pruned units (`remove_idx`, 1860-1869), chosen by their importance: any choice here. `removedIn` are the 
* `Model/RnnPrune.lean`: Pruning recurrent layers: the masks (`RNNChannelModifier.register_mask`, tinynn/graph/modifier.py:1847-1970) and the cut weights (`modify_input` 1972-1985, `modify_output` 1987-2131). `removed` are the pruned features of the output (`pruned_idx_o`), `removedIn` those of the input (`pruned_idx_i`). Not modelled: LSTMs with a projection (`proj_size`). A mask is applied by multiplying the parameter w
* `Model/SamePad.lean`: Model of the SAME-padding fusion of `/repo/tinynn/converter/operators/optimize.py`: `get_same_padding_args` (4844-4856), `is_padding_fusable_edge` (3669-3700), `fuse_same_padding` (269-320) and `fuse_same_padding_slicing` (323-383).
* `Model/ScalarOps.lean`: Model of the conversion of elementwise binary operators, `/repo/tinynn/converter/operators/torch/aten.py` 1285-1320 (sub, rsub), 1343-1356 (mul), 1414-1426 (div), 1853-1886 (floor_divide), 2136-2151 (add), 3760-3768 and 4046-4108 (comparisons, minimum, remainder) and `elementwise_binary`, base.py 336-361, at one element.
* `Model/Scores.lean`: Model of the importance metrics of the pruner (`/repo/tinynn/graph/modifier.py` 27-146). A matrix is the list of its rows; the kernels of a convolution are flattened, since the norms run over all their axes. Numbers are real. `none` is an exception.
* `Model/ShapeRewrite.lean`: Model of the rewriting steps of `rewrite_quantize_graph` in tinynn/graph/quantization/quantizer.py that change the form of a layer: pooling with kernel 1 becomes slicing (2362-2415), `Linear` followed by `BatchNorm1d` becomes a 1x1 convolution followed by `BatchNorm2d` (2417-2489), a remaining `BatchNorm1d` becomes `BatchNorm2d` (2491-2539), and the operands of a binary operation are broadcast bef
* `Model/SizeReads.lean`: Model of `new_getattr_gen`, tinynn/graph/tracer.py 906-973, for the attribute `shape` of tensors. Simplifications: nodes are named by the tensor whose size they compute. All other objects the graph knows by address are kept alive by its nodes (1575-1576, 1501), so only addresses of `torch.Size` objects, which nothing keeps (the tuple of tensors made of it is returned instead, 948-959), are used ag
* `Model/Slice.lean`: Model of the slice fusion in `/repo/tinynn/converter/operators/optimize.py`: `fuse_slices` (4431-4458) and the operator built by `fuse_simple_slice_pass` (947-1005). Attribute tensors are lists with one entry per axis; NumPy's elementwise arithmetic is `List.zipWith`. Simplification: the int32 range of the attributes is not modelled.
* `Model/SplitArgs.lean`: Model of `SplitModifier` (`/repo/tinynn/graph/modifier.py` 1280-1343, used for `split` by 2545): the sizes written into a call of `split` after channels have been removed. Tensors are known by their content, since `torch.equal` compares contents (1295). Not modelled: the text of the arguments (`args_parsed`, `get_split_dim`, 1301-1309 and 1343).
* `Model/StateIo.lean`: Making the states of recurrent layers inputs and outputs of a traced model: `TraceGraph.add_state_input_outputs` (tinynn/graph/tracer.py:2115-2162). A node of the graph is reduced to what the function looks at.
* `Model/Subgraph.lean`: Model of `SubGraphDivider.divide_subgraph`, `/repo/tinynn/graph/modifier.py` 3282-3327. An operator is its position in `self.modifiers`. A dictionary is a partial function (the order of its keys is not represented); the set of operators of a subgraph is a list. `none` results are KeyErrors or lack of fuel.
* `Model/TensorBuffers.lean`: Model of `CommonGraph.collect_tensor_buffers`, `/repo/tinynn/converter/operators/graph.py` 582-657, and of the operand numbering of `collect_operators` (552-580). A tensor object is identified with its name; `tensor_map` is therefore the table `info`. Simplification: distinct names denote distinct tensor objects with distinct buffer objects, and a variable tensor has a buffer (otherwise line 620 r
* `Model/Topk.lean`: Model of the conversion of `torch.topk` (`/repo/tinynn/converter/operators/torch/aten.py` 4132-4146).
* `Model/TopoSort.lean`: Model of `CommonGraph.topological_sort` and the operator list of `CommonGraph.collect_operators`, `/repo/tinynn/converter/operators/graph.py` 462-575. The Python set `visited` is a list; log messages are dropped; igraph's iteration over `graph.vs` is by increasing index, and the order of incident edges is whatever the tables of the graph say.
* `Model/TorchTables.lean`: Model of the changes that the quantizers make to tables and classes of PyTorch itself (`/repo/tinynn/graph/quantization/quantizer.py`): QATQuantizer.prepare_qat 978-1014 (for PyTorch 1.13 and later; earlier versions change nothing) PostQuantizer.prepare_qat 3826-3868 QATQuantizer.convert 3281-3298 (also used by PostQuantizer, where it changes nothing, 3297-3298) PyTorch's own functions `add_observ
* `Model/Tracer.lean`: Model of tracing a model and generating code from the trace, tinynn/graph/tracer.py. Modelled: numbering of nodes, constants, the tables from tensor objects to nodes, the recording of function and module calls, inputs and outputs, `recompute_forward_order`, and the generated `__init__` and `forward`. Simplified: the text of a line is kept as the names it assigns, calls and reads (the text of the a
* `Model/TracerElim.lean`: Model of dead-graph elimination, tinynn/graph/tracer.py 2005-2014 and 2057-2076. Simplified: the flag `active` is the list of nodes that have been marked; a constant, which keeps the flag `True` it is created with (231), is marked when it is reached, which makes no difference because it reads nothing.
* `Model/TracerSub.lean`: Model of `reset_input_output_for_graph`, tinynn/graph/tracer.py 2164-2245. Simplified: a tensor object is identified with the node that produced it and its place in the result; comparing nodes by name is comparing positions (names are distinct, C81); `next_nodes` is recomputed from scratch, while the code leaves old readers in the lists (they can only delay the dropping of a variable). `shape i` i
* `Model/Track.lean`: Model of how the pruner finds out which channels of a layer a later layer receives (`/repo/tinynn/graph/modifier.py`: `calc_dim_constraint`, `calc_dim_changes`, `update_i`, `fill_tensor_by_dim_changes` and the methods `dim_change_forward`), for one pruned layer and one path from it. The tensors recorded while tracing are filled with channel numbers, and every operator is run on them. Numbers are i
* `Model/Train.lean`: Model of `train` and `AverageMeter`, `/repo/tinynn/util/train_util.py` 60-82 and 85-157. Accuracies and meter values are rational numbers (no NaN).
* `Model/TrainLoop.lean`: Model of the loops of tinynn/util/cifar10.py: `compute_accuracy` 84-89, `train_one_epoch` 92-179, `train_one_epoch_distill` 182-285, `validate` 288-324 and `calibrate` 327-359. Parameters, gradients and batches are of arbitrary types; `grad` is the gradient of the loss of a batch, `opt` the step of the optimizer. Left out: the gradient scaler, devices, printing and timing.
* `Model/TransposePass.lean`: Model of the rewriting of one operator in `elementwise_op_transpose_passthrough_pass`, `/repo/tinynn/converter/operators/optimize.py` 1794-2124: the inputs of the operator are transposed with `inv_perm_arr`, its outputs with `perm_arr_post`, and its axis arguments are renamed. The selection of operators (counting transposes, direction hints), the graph edges and tensor names are not modelled.
* `Model/TrtCompare.lean`: Model of `/repo/tinynn/converter/utils/tensorrt.py`: the precision flags of the engine (`build_engine`, 112-131), the outputs added to the ONNX model (`add_outputs_for_onnx_model`, 192-211), the buffers of the engine (`allocate_buffers`, 49-82) and the inputs put in them (273-303), the verdict on one tensor (315-337) and the course of `compare_onnx_tensorrt` (214-346). Not modelled: TensorRT, CUDA
* `Model/TrtStubs.lean`: Model of the preparation for TensorRT, tinynn/graph/quantization/quantizer.py 1468-1527 (with `insert_between`, tinynn/graph/tracer.py 2710-2828) and 1054-1073. Simplified: tensor objects are the node that made them and their place in its result (the id of a tensor is unique while the graph exists), and the nodes are visited in the order of `forward_nodes`. `next_nodes`, the order of execution and
* `Model/Unfold.lean`: Model of `ATenIm2colOperator` and `ATenCol2imOperator`, `/repo/tinynn/converter/operators/torch/aten.py` 4416-4500, for batched inputs. Each function gives the tensor the emitted operators compute.
* `Model/UnusedOutputs.lean`: Model of the treatment of outputs that nobody reads (`/repo/tinynn/converter/operators/`): optimize.py GraphOptimizer.connect_unused_tensors_pass 3395-3424, is_multi_output_op_node 3807-3808 graph.py CommonGraph.add_outputs 211-229, the labels of the edges as tensors of the file 604-605 Tensors are identified with their names. Left out: the passes between this one and the writing of the file; the 
* `Model/WrappedReshape.lean`: Model of `fuse_wrapped_reshape_within_transpose_pass` (`/repo/tinynn/converter/operators/optimize.py` 1188-1238) on one sequence TRANSPOSE, RESHAPE, TRANSPOSE, with `fuse_transpose_perms_extended` (4473-4515). How sequences are found (`is_wrapped_reshape_within_transpose_edge`, `fuse_connected_edges`) and taken out of the graph (`elinimate_sequences`) is modelled elsewhere.
