/-!
Model of the converter configuration, `/repo/tinynn/util/converter_util.py`: `tensor_config` 14-44, `generate_converter_config` 47-106,
`get_tensor_details`, `prepare_input_arrays`, `data_to_pytorch` and `parse_config` 168-235; and of the checks of `TFLiteConverter.__init__`,
`/repo/tinynn/converter/base.py` 177-222.  Writing and reading the JSON file is taken to be faithful.  `none` is an exception.
-/

namespace Verif.Model

/-- A tensor as far as the configuration sees it. -/
structure ConfTensor where
  shape : List Nat
  dtype : String
  deriving DecidableEq

/-- A transpose argument: `None`, a boolean, a list or tuple (an element that is not a boolean is `none`), or anything else. -/
inductive TransArg
  | none
  | one (b : Bool)
  | many (l : List (Option Bool))
  | other

/-- The JSON object. -/
structure ConvConfig where
  srcModel : String
  dstModel : String
  inputs : List (List Nat × String × Bool)
  outputs : List (String × Bool)
  deriving DecidableEq

/-- converter_util.py 73-88: make a list of flags, for inputs (`n` inputs, repeated `n` times) and outputs (`n` outputs, but repeated `rep` times). -/
def resolveFlags (arg : TransArg) (n rep : Nat) : Option (List (Option Bool)) :=
  match arg with
  | .many l => if l.length ≠ n ∨ ¬ l.all (fun x => x.isSome) then none else some l
  | .one b => some (List.replicate rep (some b))
  | .none => some (List.replicate rep none)
  | .other => none

/-- converter_util.py 39-41: a missing flag is replaced by whether the tensor has four dimensions. -/
def flagOf (t : ConfTensor) (f : Option Bool) : Bool := f.getD (t.shape.length == 4)

/-- `generate_converter_config`, converter_util.py 47-106 (`tensor_config` zips tensors and flags).  Line 86 repeats the output flag `len(inputs)` times. -/
def generateConfig (inputs outputs : List ConfTensor) (inT outT : TransArg) (exportFile tflitePath : String) : Option ConvConfig :=
  (resolveFlags inT inputs.length inputs.length).bind (fun fi =>
    (resolveFlags outT outputs.length inputs.length).map (fun fo =>
      { srcModel := exportFile, dstModel := tflitePath,
        inputs := (inputs.zip fi).map (fun p => (p.1.shape, p.1.dtype, flagOf p.1 p.2)),
        outputs := (outputs.zip fo).map (fun p => (p.1.dtype, flagOf p.1 p.2)) }))

/-- numpy's `transpose` of a shape; `none` is the ValueError for axes that do not match. -/
def permShape (perm shape : List Nat) : Option (List Nat) := if perm.length = shape.length then some (perm.map (fun a => shape.getD a 0)) else none

/-- `prepare_input_arrays` and `data_to_pytorch`, converter_util.py 183-203, for one input: the shape of the tensor handed to the model. -/
def prepareInput (shape : List Nat) (trans : Bool) : Option (List Nat) :=
  if trans then (permShape [0, 2, 3, 1] shape).bind (permShape [0, 3, 1, 2]) else some shape

/-- The result of `parse_config`. -/
structure Parsed where
  torchModel : String
  tfliteModel : String
  inputTranspose : List Bool
  inputs : List (List Nat × String)
  outputTranspose : List Bool
  deriving DecidableEq

/-- `parse_config`, converter_util.py 206-235; `prepare_inputs=False` leaves `input_transpose` unbound (UnboundLocalError at the return). -/
def parseConfig (c : ConvConfig) (prepareInputs : Bool) : Option Parsed :=
  if prepareInputs then
    (c.inputs.mapM (fun i => (prepareInput i.1 i.2.2).map (fun s => (s, i.2.1)))).map (fun ins =>
      { torchModel := c.srcModel, tfliteModel := c.dstModel, inputTranspose := c.inputs.map (·.2.2), inputs := ins, outputTranspose := c.outputs.map (·.2) })
  else none

/-- The options of `TFLiteConverter.__init__` that are validated; paths are truth values (empty or missing is `false`). -/
structure ConvOptions where
  targetType : String
  strictSymmetric : Bool
  inputOutputType : Option String
  fuseQuantDequant : Bool
  hybrid : Bool
  hybridPerChannel : Bool
  hybridWeightType : Option String
  dumpConfig : Bool
  dumpJit : Bool
  deriving DecidableEq

/-- The attributes set from them: `q_type`, `quantize_input_output_type`, and `hybrid_q_type` (`none` if the attribute is never set). -/
structure ConvAttrs where
  qType : String
  inputOutputType : Option String
  hybridQType : Option String
  deriving DecidableEq

/-- base.py 177-189. -/
def checkTarget (o : ConvOptions) : Option String :=
  if o.targetType = "uint8" then some "uint8"
  else if o.targetType = "int8" then some "int8"
  else if o.targetType = "int16" then (if !o.strictSymmetric then none else some "int16")
  else none

/-- base.py 191-202. -/
def checkInputOutput (o : ConvOptions) : Option (Option String) :=
  match o.inputOutputType with
  | none => some none
  | some t =>
    if !o.fuseQuantDequant then none
    else if ¬ (t = "int8" ∨ t = "uint8" ∨ t = "int16") then none
    else if t = "int16" ∧ o.targetType ≠ "int16" then none
    else some (some t)

/-- base.py 204-220. -/
def checkHybrid (o : ConvOptions) : Option (Option String) :=
  let t := o.hybridWeightType.getD o.targetType
  if t = "uint8" then (if o.hybrid && o.hybridPerChannel then none else some (some "uint8"))
  else if t = "int8" then some (some "int8")
  else if t = "int16" then (if o.hybrid then none else some (some "int16"))
  else some none

/-- base.py 177-226. -/
def converterInit (o : ConvOptions) : Option ConvAttrs :=
  (checkTarget o).bind (fun q => (checkInputOutput o).bind (fun io => (checkHybrid o).bind (fun h =>
    if o.dumpConfig && !o.dumpJit then none else some ⟨q, io, h⟩)))

end Verif.Model
