import re,sys
sys.path.insert(0,'/root/w/gs')
from ext import *
CORE=['Model','SubGraph','Tensor','QuantizationParameters','OperatorCode','Buffer','Operator']
KIND={'Bool':'bool','Int8':'i8','Uint8':'u8','Int32':'i32','Uint32':'u32','Int64':'i64','Float32':'f32','UOffsetTRelative':'off'}
def d(kind,v):
    if kind=='Bool': return '.bool true' if v in('1','True') else '.bool false'
    if kind=='Float32':
        assert float(v)==int(float(v)); return f'.num {int(float(v))}'
    if kind=='UOffsetTRelative': assert v=='0'; return '.null'
    return f'.int {v}'
slotdefs=[]
need=[]
for f,(k,s,dv,n) in adds.items():
    for c in CORE:
        if re.fullmatch(c+'Add[A-Z]\w*',f) and not (c=='Model' and f.startswith('ModelAddX')):
            need.append(f)
usedopts=[]
for o in ops:
    for f,a in o['adds']:
        if f not in need: need.append(f)
# written by the builders
W=set(re.findall(r'tflite\.(\w+Add\w+)\(',open('/repo/tinynn/converter/operators/tflite/base.py').read()))|set(f for o in ops for f,_ in o['adds']+o['opadds'])
need=[f for f in need if f in W]
need.sort(key=lambda f:adds[f][3])
out=[]
for f in need:
    k,s,dv,n=adds[f]
    out.append(f'/-- {n} -/\ndef {f} : Slot := ⟨.{KIND[k]}, {s}, {d(k,dv)}⟩')
src=open('/repo/tinynn/converter/schemas/tflite/schema_generated.py').read()
rows=[]
for o in ops:
    if o['name']=='CustomOperator': continue
    code=enums['BuiltinOperator'][o['code']]
    es=[]
    for f,a in o['adds']:
        if a.startswith('self.'):
            attr=a[5:]; kind='direct'
        else:
            attr=a
            body='\n'.join(lines[o['line']-1:o['end']])
            m=re.search(a+r' = create_numpy_array\(\s*builder, tflite\.(\w+)\.(\w+), self\.(\w+)\s*\)',body)
            assert m,(o['name'],a)
            attr=m[3]
            kind='int32s' if f'def {m[1]}Start{m[2]}Vector' in src else 'fails'
        es.append(f'({f}, "{attr}", .{kind})')
    opt=f'some {enums["BuiltinOptions"][o["opt"]]}' if o['opt'] else 'none'
    rows.append(f'  -- {o["line"]}-{o["end"]}\n  ⟨"{o["name"]}", "{o["code"]}", {code}, {opt}, [{", ".join(es)}]⟩')
dt=open('/repo/tinynn/converter/operators/tflite/base.py').read()
dm=re.search(r'numpy_tflite_dtype_mappings = \{(.*?)\}',dt,re.S)[1]
dts=[(m[0],enums['TensorType'][m[1]]) for m in re.findall(r"'(\w+)': tflite\.TensorType\.(\w+)",dm)]
L=f'''import Verif.Spec.FlatFile
/-!
Written by a script from tinynn/converter/schemas/tflite/schema_generated.py (the slots and defaults of the `Add` functions; the number in each comment is the line) and
tinynn/converter/operators/tflite/generated_ops.py (for each operator class its lines, its code, the number of its options in the union, and the calls in its `build`: which function gets which attribute).
-/

namespace Verif.Model.FlatSchema
open Verif.Spec.FlatFile

/-- The arguments of a call `builder.Prepend<Kind>Slot(slot, x, default)`. -/
structure Slot where
  kind : Kind
  slot : ℕ
  dflt : Obj

/-- What is handed to an `Add` function: the attribute, what `create_numpy_array` makes of it (an array of int32, its default), or nothing as `create_numpy_array` fails
(base.py 414-425: there is no function to start such a vector). -/
inductive Src where
  | direct | int32s | fails
  deriving DecidableEq

/-- A class of generated_ops.py: name, operator, its number (`BuiltinOperator`), the number of its options (`BuiltinOptions`), `none` if it uses the `build` of `BaseOperator`, and the calls. -/
structure OpClass where
  name : String
  op : String
  code : ℤ
  union : Option ℤ
  adds : List (Slot × String × Src)

{chr(10).join(out)}

/-- `PLACEHOLDER_FOR_GREATER_OP_CODES` -/
def placeholder : ℤ := {enums['BuiltinOperator']['PLACEHOLDER_FOR_GREATER_OP_CODES']}

/-- `BuiltinOperator.CUSTOM`, `CustomOptionsFormat.FLEXBUFFERS` -/
def custom : ℤ := {enums['BuiltinOperator']['CUSTOM']}
def flexbuffers : ℤ := {enums['CustomOptionsFormat']['FLEXBUFFERS']}

/-- `numpy_tflite_dtype_mappings`, base.py 454-464. -/
def dtypes : List (String × ℤ) := [{", ".join(f'("{a}", {b})' for a,b in dts)}]

/-- The classes of generated_ops.py, except `CustomOperator`. -/
def opClasses : List OpClass := [
{(","+chr(10)).join(rows)}]

end Verif.Model.FlatSchema
'''
open('/verif/lean/Verif/Model/FlatSchema.lean','w').write(L)
print(len(need),len(rows))
