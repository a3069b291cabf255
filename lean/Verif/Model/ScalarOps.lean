import Verif.Spec.ScalarOps

/-!
Model of the conversion of elementwise binary operators, `/repo/tinynn/converter/operators/torch/aten.py` 1285-1320 (sub, rsub), 1343-1356 (mul), 1414-1426 (div), 1853-1886
(floor_divide), 2136-2151 (add), 3760-3768 and 4046-4108 (comparisons, minimum, remainder) and `elementwise_binary`, base.py 336-361, at one element.
-/

namespace Verif.Model
open Verif.Spec

/-- The second operand: a Python scalar or an element of a tensor. -/
inductive Operand
  | scalar (v : Num)
  | tensor (v : Num)

def Operand.value : Operand → Num
  | .scalar v => v
  | .tensor v => v

/-- `torch.tensor([v], dtype=like.dtype)` and `.to(dtype=...)`: a conversion to an integer type drops the fraction. -/
def castLike (like v : Num) : Num :=
  match like with
  | .int _ => .int (truncQ v.val)
  | .flt _ => .flt v.val

/-- base.py 336-356: with `autocast` both operands are converted to `torch.promote_types` of their types. -/
def promote (x y : Num) : Num × Num := if x.isInt && y.isInt then (x, y) else (.flt x.val, .flt y.val)

/-- The operator that is emitted; `rounding_mode` is never read (1414-1426). -/
def emitted : BinOp → TflBin
  | .add => .ADD
  | .sub | .rsub => .SUB
  | .mul => .MUL
  | .div _ => .DIV
  | .floorDivide => .FLOOR_DIV
  | .remainder => .FLOOR_MOD
  | .minimum => .MINIMUM
  | .eq => .EQUAL
  | .ne => .NOT_EQUAL
  | .lt => .LESS
  | .le => .LESS_EQUAL
  | .gt => .GREATER
  | .ge => .GREATER_EQUAL

/-- Scalars are converted to the type of the first operand (1294-1295 and the like); floor_divide converts tensors as well (1859-1876). -/
def operandFor (op : BinOp) (x : Num) : Operand → Num
  | .scalar v => castLike x v
  | .tensor v => if op = .floorDivide then castLike x v else v

/-- The emitted operators: `rsub` swaps the operands (1317-1318); floor_divide refuses floating-point and negative operands (1878-1884; the converter can only test the
traced values) and is not promoted. -/
def applyBin (op : BinOp) (x y : Num) : Option OpResult :=
  if op = .floorDivide then (if x.isInt && y.isInt && decide (0 ≤ x.val) && decide (0 ≤ y.val) then tflBin .FLOOR_DIV x y else none)
  else if op = .rsub then tflBin .SUB (promote y x).1 (promote y x).2
  else tflBin (emitted op) (promote x y).1 (promote x y).2

/-- The result of the converted operator; `none` when the conversion fails. -/
def convertBin (op : BinOp) (x : Num) (other : Operand) : Option OpResult := applyBin op x (operandFor op x other)

end Verif.Model
