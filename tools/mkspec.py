import sys; sys.path.insert(0,'/root/w/gs')
from spec import *
r,f=gen()
def wrap(xs,n=4): return ',\n'.join('  '+', '.join(xs[i:i+n]) for i in range(0,len(xs),n))
open('/verif/lean/Verif/Spec/FlatFile.lean','w').write('''import Mathlib.Data.Rat.Defs
/-!
TFLite files as a reader sees them: objects referring to each other, and tables with numbered fields, where fields that were left out have a default.  Field numbers, operator and options numbers are
those of TensorFlow's schema.fbs (the version with the operators up to SIGN), written down independently of the code in `/repo`.
-/

namespace Verif.Spec.FlatFile

/-- Objects of a file: scalars, and what an offset can refer to; `null`: no object. -/
inductive Obj where
  | int (x : ℤ) | num (x : ℚ) | bool (b : Bool) | null
  | str (s : String) | ints (l : List ℤ) | nums (l : List ℚ) | bytes (l : List ℕ)
  | objs (l : List Obj) | table (l : List (ℕ × Obj))

/-- Types of fields: scalars and references. -/
inductive Kind where
  | bool | i8 | u8 | i32 | u32 | i64 | f32 | off | ints | nums | str
  deriving DecidableEq

/-- A field of a table in the schema. -/
structure Field where
  name : String
  id : ℕ
  kind : Kind
  dflt : Obj

/-- Reading a field. -/
def get (o : Obj) (id : ℕ) (dflt : Obj) : Obj :=
  match o with
  | .table t => (t.lookup id).getD dflt
  | _ => dflt

/-- The letters and digits of a name, in lower case. -/
def letters (s : String) : List Char := (s.toList.filter fun c => decide (c ≠ '_')).map Char.toLower

/-- What a field can hold. -/
def Fits : Kind → Obj → Prop
  | .bool, .bool _ => True
  | .i8, .int x => -128 ≤ x ∧ x ≤ 127
  | .u8, .int x => 0 ≤ x ∧ x ≤ 255
  | .i32, .int x => -2147483648 ≤ x ∧ x ≤ 2147483647
  | .u32, .int x => 0 ≤ x ∧ x ≤ 4294967295
  | .i64, .int x => -9223372036854775808 ≤ x ∧ x ≤ 9223372036854775807
  | .f32, .num _ => True
  | .ints, .ints l => ∀ x ∈ l, -2147483648 ≤ x ∧ x ≤ 2147483647
  | .nums, .nums _ => True
  | .str, .str _ => True
  | _, _ => False

/-- What is left of a value in a field of the given type, with `f32` rounding to single precision. -/
def kept (f32 : ℚ → ℚ) : Obj → Obj
  | .num x => .num (f32 x)
  | .nums l => .nums (l.map f32)
  | o => o

/-- The parts of a file. -/
structure QuantRec where
  scale : List ℚ
  zp : List ℤ
  dim : ℤ
  deriving DecidableEq

structure TensorRec where
  shape : List ℤ
  type : ℤ
  buffer : ℤ
  name : String
  quant : Option QuantRec
  isVariable : Bool
  deriving DecidableEq

structure CodeRec where
  code : ℤ
  version : ℤ
  custom : Option String
  deriving DecidableEq

structure OpRec where
  index : ℤ
  inputs : List ℤ
  outputs : List ℤ
  intermediates : List ℤ
  union : ℤ
  options : Obj
  customOptions : Option (List ℕ)

structure ModelRec where
  version : ℤ
  codes : List CodeRec
  tensors : List TensorRec
  inputs : List ℤ
  outputs : List ℤ
  ops : List OpRec
  buffers : List (List ℕ)

/-- `QuantizationParameters`: min 0, max 1, scale 2, zero_point 3, details 4 and 5, quantized_dimension 6. -/
def readQuant (o : Obj) : Option (Option QuantRec) :=
  match o with
  | .null => some none
  | o => match get o 2 .null, get o 3 .null, get o 6 (.int 0) with
    | .nums s, .ints z, .int d => some (some ⟨s, z, d⟩)
    | _, _, _ => none

/-- `Tensor`: shape 0, type 1, buffer 2, name 3, quantization 4, is_variable 5. -/
def readTensor (o : Obj) : Option TensorRec :=
  match get o 0 .null, get o 1 (.int 0), get o 2 (.int 0), get o 3 .null, readQuant (get o 4 .null), get o 5 (.bool false) with
  | .ints s, .int t, .int b, .str n, some q, .bool v => some ⟨s, t, b, n, q, v⟩
  | _, _, _, _, _, _ => none

/-- `OperatorCode`: deprecated_builtin_code 0, custom_code 1, version 2, builtin_code 3; the code is the larger one of the two. -/
def readCode (o : Obj) : Option CodeRec :=
  match get o 0 (.int 0), get o 1 .null, get o 2 (.int 1), get o 3 (.int 0) with
  | .int d, .null, .int v, .int c => some ⟨max d c, v, none⟩
  | .int d, .str s, .int v, .int c => some ⟨max d c, v, some s⟩
  | _, _, _, _ => none

/-- `Operator`: opcode_index 0, inputs 1, outputs 2, builtin_options type 3 and value 4, custom_options 5, custom_options_format 6, mutating_variable_inputs 7, intermediates 8. -/
def readOp (o : Obj) : Option OpRec :=
  match get o 0 (.int 0), get o 1 .null, get o 2 .null, get o 8 .null, get o 3 (.int 0), get o 5 .null with
  | .int i, .ints a, .ints b, .ints c, .int u, .null => some ⟨i, a, b, c, u, get o 4 .null, none⟩
  | .int i, .ints a, .ints b, .ints c, .int u, .bytes x => some ⟨i, a, b, c, u, get o 4 .null, some x⟩
  | _, _, _, _, _, _ => none

/-- `Buffer`: data 0. -/
def readBuffer (o : Obj) : Option (List ℕ) :=
  match get o 0 .null with
  | .null => some []
  | .bytes l => some l
  | _ => none

/-- `Model`: version 0, operator_codes 1, subgraphs 2, description 3, buffers 4; `SubGraph`: tensors 0, inputs 1, outputs 2, operators 3, name 4.  Files with one subgraph. -/
def readModel (o : Obj) : Option ModelRec :=
  match get o 0 (.int 0), get o 1 .null, get o 2 .null, get o 4 .null with
  | .int v, .objs cs, .objs [g], .objs bs =>
    match get g 0 .null, get g 1 .null, get g 2 .null, get g 3 .null with
    | .objs ts, .ints i, .ints out, .objs ops =>
      (cs.mapM readCode).bind fun cs => (ts.mapM readTensor).bind fun ts => (ops.mapM readOp).bind fun ops => (bs.mapM readBuffer).map fun bs => ⟨v, cs, ts, i, out, ops, bs⟩
    | _, _, _, _ => none
  | _, _, _, _ => none

/-- `TensorType`. -/
def tensorTypes : List (String × ℤ) := [("float32", 0), ("float16", 1), ("int32", 2), ("uint8", 3), ("int64", 4), ("bool", 6), ("int16", 7), ("int8", 9), ("float64", 10)]

/-- `BuiltinOperator` and the options that belong to each operator. -/
def operators : List (String × ℤ × String) := [
%s]

/-- `BuiltinOptions`, in order. -/
def unions : List String := [
%s]

/-- The fields of the options; tables that are not listed have none. -/
def fields : List (String × List Field) := [
%s]

end Verif.Spec.FlatFile
''' % (wrap(r,3), wrap(['"%s"'%u for u in UNI],6), ',\n'.join(f)))
