import Verif.Model.FlatSchema
/-!
Model of the building of the file: tinynn/converter/operators/tflite/base.py 29-46, 71-83, 103-127, 144-153, 283-308, 341-358, 372-387, 390-411, tinynn/converter/operators/tflite/generated_ops.py (the
`build` methods), tinynn/converter/operators/graph.py 723-770.
Simplification: the builder of the library `flatbuffers` is taken as one that makes objects; an offset is the object itself, and offset 0 is `null`.  Bytes, alignment and deduplication are left to it.
-/

namespace Verif.Model.FlatFile
open Verif.Spec.FlatFile Verif.Model.FlatSchema

/-- `enforce_number` of the library: a number that does not fit is a TypeError. -/
def accepted : Kind → Obj → Bool
  | .bool, .bool _ => true
  | .i8, .int x => decide (-128 ≤ x ∧ x ≤ 127)
  | .u8, .int x => decide (0 ≤ x ∧ x ≤ 255)
  | .i32, .int x => decide (-2147483648 ≤ x ∧ x ≤ 2147483647)
  | .u32, .int x => decide (0 ≤ x ∧ x ≤ 4294967295)
  | .i64, .int x => decide (-9223372036854775808 ≤ x ∧ x ≤ 9223372036854775807)
  | .f32, .num _ => true
  | .off, .int _ => false
  | .off, .num _ => false
  | .off, .bool _ => false
  | .off, _ => true
  | _, _ => false

/-- `x != d` of the library. -/
def same : Obj → Obj → Bool
  | .int a, .int b => decide (a = b)
  | .num a, .num b => decide (a = b)
  | .bool a, .bool b => decide (a = b)
  | .null, .null => true
  | _, _ => false

/-- What is put in the file. -/
def stored (f32 : ℚ → ℚ) : Obj → Obj
  | .num x => .num (f32 x)
  | o => o

/-- `StartObject`, some `Prepend...Slot`s, `EndObject`: values equal to the default are left out; a later call for a slot wins. -/
def writeTable (f32 : ℚ → ℚ) : List (Slot × Obj) → Option (List (ℕ × Obj))
  | [] => some []
  | (s, v) :: l =>
    if accepted s.kind v then (writeTable f32 l).map fun t => t ++ (if same v s.dflt then [] else [(s.slot, stored f32 v)])
    else none

def table (f32 : ℚ → ℚ) (l : List (Slot × Obj)) : Option Obj := (writeTable f32 l).map .table

/-- 414-425 for int32, numpy's conversion. -/
def wrap32 (x : ℤ) : ℤ := Int.bmod x 4294967296

def int32s (l : List ℤ) : Obj := .ints (l.map wrap32)

/-- 390-411: items are prepended, the last one first. -/
def offsetVector (l : List Obj) : Obj := .objs (l.reverse.foldl (fun acc o => o :: acc) [])

/-- 86-127; scale and zero point are lists (a number is put in one). -/
structure Quant where
  scale : List ℚ
  zp : List ℤ
  dim : Option ℤ

def Quant.build (f32 : ℚ → ℚ) (q : Quant) : Option Obj :=
  table f32 ([(QuantizationParametersAddMin, .null), (QuantizationParametersAddMax, .null), (QuantizationParametersAddScale, .nums (q.scale.map f32)),
    (QuantizationParametersAddZeroPoint, .ints (q.zp.map fun z => Int.bmod z 18446744073709551616))] ++
    match q.dim with
    | some d => [(QuantizationParametersAddQuantizedDimension, .int d)]
    | none => [])

/-- 164-281: what `build` uses of a tensor; `buffer` is the index of its buffer. -/
structure Tensor where
  name : String
  shape : List ℤ
  dtype : String
  quant : Option Quant
  buffer : Option ℤ
  isVariable : Bool

/-- 283-308; `none` for a type without a number: KeyError. -/
def Tensor.build (f32 : ℚ → ℚ) (t : Tensor) : Option Obj :=
  (dtypes.lookup t.dtype).bind fun ty =>
    (match t.quant with
      | some q => q.build f32
      | none => some .null).bind fun q =>
      table f32 [(TensorAddBuffer, .int (t.buffer.getD 0)), (TensorAddIsVariable, .bool t.isVariable), (TensorAddName, .str t.name), (TensorAddShape, int32s t.shape), (TensorAddType, .int ty),
        (TensorAddQuantization, q)]

/-- 16-27 -/
structure OpCode where
  code : ℤ
  version : ℤ
  custom : Option String

/-- 29-46 -/
def OpCode.build (f32 : ℚ → ℚ) (c : OpCode) : Option Obj :=
  table f32 ((if c.code < placeholder then [(OperatorCodeAddDeprecatedBuiltinCode, .int c.code)] else []) ++
    [(OperatorCodeAddBuiltinCode, .int c.code), (OperatorCodeAddVersion, .int c.version)] ++
    match c.custom with
    | some s => [(OperatorCodeAddCustomCode, .str s)]
    | none => [])

/-- 144-153 -/
def bufferBuild (f32 : ℚ → ℚ) (data : List ℕ) : Option Obj :=
  table f32 [(BufferAddData, if data.length ≠ 0 then .bytes data else .null)]

/-- The kinds of operators: a class of generated_ops.py with its attributes, or a custom operator with its options. -/
inductive OpKind where
  | builtin (c : OpClass) (attrs : String → Obj)
  | custom (options : Option (List ℕ))

structure Op where
  kind : OpKind
  index : ℤ
  version : ℤ
  customCode : Option String
  inputs : List ℤ
  outputs : List ℤ
  intermediates : List ℤ

/-- `self.op`, set by the constructors. -/
def Op.opCode (o : Op) : OpCode :=
  match o.kind with
  | .builtin c _ => ⟨c.code, o.version, o.customCode⟩
  | .custom _ => ⟨FlatSchema.custom, o.version, o.customCode⟩

/-- What a call in `build` hands to an `Add` function. -/
def arg (attrs : String → Obj) (a : String × Src) : Option Obj :=
  match a.2 with
  | .direct => some (attrs a.1)
  | .int32s => match attrs a.1 with
    | .ints l => some (int32s l)
    | .nums l => some (.ints (l.map fun x => wrap32 (if 0 ≤ x then x.floor else x.ceil)))
    | _ => none
  | .fails => none

/-- The part all `build` methods have in common. -/
def Op.common (o : Op) : List (Slot × Obj) :=
  [(OperatorAddOpcodeIndex, .int o.index), (OperatorAddInputs, int32s o.inputs), (OperatorAddOutputs, int32s o.outputs), (OperatorAddIntermediates, int32s o.intermediates)]

/-- The options of a class. -/
def optionsBuild (f32 : ℚ → ℚ) (c : OpClass) (attrs : String → Obj) : Option Obj :=
  (c.adds.mapM fun a => (arg attrs a.2).map fun v => (a.1, v)).bind (table f32)

/-- `build`: 71-83 for classes without options, generated_ops.py otherwise; custom operators: generated_ops.py 860-883. -/
def Op.build (f32 : ℚ → ℚ) (o : Op) : Option Obj :=
  match o.kind with
  | .builtin c attrs =>
    match c.union with
    | none => table f32 o.common
    | some u => (optionsBuild f32 c attrs).bind fun opts => table f32 (o.common ++ [(OperatorAddBuiltinOptionsType, .int u), (OperatorAddBuiltinOptions, opts)])
  | .custom options =>
    table f32 (o.common ++ [(OperatorAddBuiltinOptionsType, .int 0), (OperatorAddBuiltinOptions, .null)] ++
      match options with
      | some b => [(OperatorAddCustomOptionsFormat, .int flexbuffers), (OperatorAddCustomOptions, .bytes b)]
      | none => [])

/-- 341-358 -/
def subGraphBuild (f32 : ℚ → ℚ) (tensors ops : List Obj) (inputs outputs : List ℤ) : Option Obj :=
  table f32 [(SubGraphAddInputs, int32s inputs), (SubGraphAddOutputs, int32s outputs), (SubGraphAddName, .str "main_graph"), (SubGraphAddTensors, offsetVector tensors),
    (SubGraphAddOperators, offsetVector ops)]

/-- 372-387 -/
def modelBuild (f32 : ℚ → ℚ) (buffers opcodes subgraphs : List Obj) : Option Obj :=
  table f32 [(ModelAddBuffers, offsetVector buffers), (ModelAddDescription, .str "TinyNeuralNetwork Converted."), (ModelAddVersion, .int 3), (ModelAddOperatorCodes, offsetVector opcodes),
    (ModelAddSubgraphs, offsetVector subgraphs)]

/-- `build_model`, graph.py 723-770. -/
def buildModel (f32 : ℚ → ℚ) (ops : List Op) (tensors : List Tensor) (buffers : List (List ℕ)) (inputs outputs : List ℤ) : Option Obj :=
  (tensors.mapM (Tensor.build f32)).bind fun ts => (ops.mapM (Op.build f32)).bind fun os => (ops.mapM fun (o : Op) => o.opCode.build f32).bind fun cs => (buffers.mapM (bufferBuild f32)).bind fun bs =>
    (subGraphBuild f32 ts os inputs outputs).bind fun g => modelBuild f32 bs cs [g]

end Verif.Model.FlatFile
