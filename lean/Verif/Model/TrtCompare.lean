import Verif.Spec.TrtCompare

/-!
Model of `/repo/tinynn/converter/utils/tensorrt.py`: the precision flags of the engine (`build_engine`, 112-131), the outputs added to the ONNX model (`add_outputs_for_onnx_model`, 192-211), the buffers
of the engine (`allocate_buffers`, 49-82) and the inputs put in them (273-303), the verdict on one tensor (315-337) and the course of `compare_onnx_tensorrt` (214-346).
Not modelled: TensorRT, CUDA and ONNX Runtime themselves, and the parsing of the engine's log (`get_needed_outputs`, 134-189): the set of tensors it names is an argument.
-/

namespace Verif.Model.TrtCompare
open Verif.Spec.TrtCompare

/-- Lines 122-125: `config.flags`, from the value `d` TensorRT starts with. -/
def flags (d : Nat) (fp16 int8 : Bool) : Nat :=
  let f := if fp16 then 1 <<< Precision.fp16.bit else d
  if int8 then 1 <<< Precision.int8.bit else f

/-- Lines 192-206: the outputs of the model that is run; `nodes` are the outputs of the nodes in order. -/
def addOutputs (needed : List String) (orig : List String) (nodes : List (List String)) : List String :=
  orig ++ nodes.flatten.filter fun o => decide (o ∈ needed) && decide (o ∉ orig)

/-- The two tables of shapes the caller passes, 214-222: what the engine is built for (smallest, usual, largest) and what it is run with. -/
structure Shapes where
  build : List (String × List Int × List Int × List Int)
  eval : List (String × List Int)

/-- Lines 58-63: the number of elements of the buffer of a binding. -/
def bufferSize (s : Shapes) (engine : List Int) (maxBatch : Int) (b : String) : Int :=
  match s.eval.lookup b with
  | some sh => volume sh
  | none => match s.build.lookup b with
    | some (_, opt, _) => volume opt
    | none => volume engine * maxBatch

/-- Lines 281-300: the shape of the data of an input; `none` is a KeyError.  A file is read only for inputs in the table of evaluation shapes (276-281). -/
def dataShape (s : Shapes) (engine : List Int) (b : String) : Option (List Int) :=
  match s.eval.lookup b with
  | some sh => some sh
  | none => if (-1) ∈ engine then (s.build.lookup b).map (fun e => e.2.1) else some engine

/-- Lines 329-337: the verdict on one tensor. -/
def Aligned (onnx trt : List ℝ) : Prop := AllClose onnx trt ∨ dot onnx trt / (norm onnx * norm trt) > 999 / 1000

/-- What a run ends with. -/
inductive Outcome
  | typeError
  | loaded (file : Nat)
  deriving DecidableEq

/-- A call of a function without default arguments. -/
def call (params args : Nat) (k : Outcome) : Outcome := if args = params then k else .typeError

/-- Lines 236-310, the course of `compare_onnx_tensorrt`: two engines are built (`build_engine` takes six arguments, the second call passes `second`); the model with the new outputs (content 1) is
written at 249, the engine (content 2) at 254-255, and ONNX Runtime loads `new_onnx_path` at 310.  `paths` are `new_onnx_path` and `new_trt_path`. -/
def course (second : Nat) (paths : String × String) : Outcome :=
  call 6 6 (call 6 second (
    let files1 : String → Nat := fun p => if p = paths.1 then 1 else 0
    let files2 : String → Nat := fun p => if p = paths.2 then 2 else files1 p
    .loaded (files2 paths.1)))

/-- Lines 234-235. -/
def newPaths (fn ext : String) : String × String := (fn ++ "_with_outputs" ++ ext, fn ++ "_with_outputs" ++ ext)

/-- `compare_onnx_tensorrt`; the second call of `build_engine` (251-253) has five arguments. -/
def compare (fn ext : String) : Outcome := course 5 (newPaths fn ext)

end Verif.Model.TrtCompare
