/-!
Model of `CommonGraph.collect_tensor_buffers`, `/repo/tinynn/converter/operators/graph.py` 582-657, and of
the operand numbering of `collect_operators` (552-580).

A tensor object is identified with its name; `tensor_map` is therefore the table `info`.  Simplification:
distinct names denote distinct tensor objects with distinct buffer objects, and a variable tensor has a
buffer (otherwise line 620 raises).
-/

namespace Verif.Model

/-- The fields of `tfl.Tensor` that matter here (tflite/base.py 162-263, 308-318): whether it has a buffer object and
whether it is a variable.  The `index` field is part of the state below. -/
structure TensorInfo where
  hasBuffer : Bool
  isVariable : Bool

/-- The mutable state: `tensor.index` and `tensor.buffer.index` of every tensor and the local variables. -/
structure CTB (α : Type) where
  idx : α → Int
  bufIdx : α → Nat
  tensorIdx : Nat
  bufferIdx : Nat
  tensors : List α
  /-- `none` is the empty buffer `tfl.Buffer(bytes(0))`, `some l` the buffer object of tensor `l`. -/
  buffers : List (Option α)
  inputIdx : List Int
  outputIdx : List Int

variable {α : Type} [DecidableEq α]

/-- Field assignment on one tensor. -/
def setAt {β : Type} (f : α → β) (l : α) (b : β) : α → β := fun x => if x = l then b else f x

/-- graph.py 632-635 and 637-640: write `v` at every position of `names` equal to `label`. -/
def fillIdx (names : List α) (idx : List Int) (label : α) (v : Int) : List Int :=
  List.zipWith (fun x i => if x = label then v else i) names idx

/-- graph.py 616-640: one iteration of `for label in labels`. -/
def ctbLabel (info : α → TensorInfo) (inputs outputs : List α) (st : CTB α) (label : α) : CTB α :=
  let st :=
    if st.idx label ≠ -1 then
      let st := if (info label).isVariable then { st with bufIdx := setAt st.bufIdx label 0 } else st
      let st := { st with idx := setAt st.idx label st.tensorIdx, tensorIdx := st.tensorIdx + 1,
                          tensors := st.tensors ++ [label] }
      if (info label).hasBuffer && !(info label).isVariable then
        { st with bufIdx := setAt st.bufIdx label st.bufferIdx, bufferIdx := st.bufferIdx + 1,
                  buffers := st.buffers ++ [some label] }
      else st
    else st
  let st := if inputs.contains label then { st with inputIdx := fillIdx inputs st.inputIdx label (st.idx label) } else st
  if outputs.contains label then { st with outputIdx := fillIdx outputs st.outputIdx label (st.idx label) } else st

/-- graph.py 650-656: one iteration of `for name in missing_inputs`.  `inputs.index(name)` is the first position. -/
def ctbMissing (inputs : List α) (st : CTB α) (name : α) : CTB α :=
  { st with idx := setAt st.idx name st.tensorIdx, tensorIdx := st.tensorIdx + 1, tensors := st.tensors ++ [name],
            inputIdx := st.inputIdx.set (inputs.idxOf name) st.tensorIdx }

/-- graph.py 608-614: the initial state; `idx`, `bufIdx` are the field values left by the construction of the graph. -/
def ctbInit (idx : α → Int) (bufIdx : α → Nat) (inputs outputs : List α) : CTB α :=
  { idx := idx, bufIdx := bufIdx, tensorIdx := 0, bufferIdx := 1, tensors := [], buffers := [none],
    inputIdx := List.replicate inputs.length (-1), outputIdx := List.replicate outputs.length (-1) }

/-- `collect_tensor_buffers`, graph.py 582-657; `none` is the failed assertion on missing outputs (645).  `labels` is a
Python set in its iteration order. -/
def collectTensorBuffers (info : α → TensorInfo) (idx : α → Int) (bufIdx : α → Nat)
    (labels inputs outputs : List α) : Option (CTB α) :=
  let st := labels.foldl (ctbLabel info inputs outputs) (ctbInit idx bufIdx inputs outputs)
  let missingInputs := ((inputs.zip st.inputIdx).filter (fun x => decide (x.2 < 0))).map Prod.fst
  let missingOutputs := ((outputs.zip st.outputIdx).filter (fun x => decide (x.2 < 0))).map Prod.fst
  if missingOutputs.isEmpty then some (missingInputs.foldl (ctbMissing inputs) st) else none

/-- The buffer index written into the model for a tensor: `Tensor.build`, tflite/base.py 286-288. -/
def exportedBuffer (info : α → TensorInfo) (st : CTB α) (l : α) : Nat := if (info l).hasBuffer then st.bufIdx l else 0

/-- graph.py 577-578: `[x.index for x in op.inputs]`. -/
def operandIdx (st : CTB α) (names : List α) : List Int := names.map st.idx

end Verif.Model
