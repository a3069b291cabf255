import Verif.Spec.PowLower
import Verif.Model.ScalarOps

/-! Model of `ATenPowOperator` (/repo/tinynn/converter/operators/torch/aten.py 1437-1450) and `ATenReciprocalOperator` (1236-1248), with `elementwise_binary` (base.py 336-361), at one element. -/

namespace Verif.Model.PowLower
open Verif.Spec Verif.Spec.PowLower Verif.Model

/-- The base: an element of a tensor with its type, or a Python number. -/
inductive Base
  | tensor (d : Dtype) (x : Num)
  | scalar (x : Num)

/-- aten.py 1437-1450: the type of the base is asserted (1442-1445; a Python number has none and raises), a Python exponent takes the type of the base (1447-1448), and both are promoted.
`none` is an exception or a kernel that refuses its operands. -/
def convertPow (pw : ℚ → ℚ → ℚ) (b : Base) (e : Operand) : Option ℚ :=
  match b with
  | .scalar _ => none
  | .tensor d x =>
    if d ∈ [Dtype.float32, Dtype.int32] then
      let y := match e with
        | .scalar v => castLike x v
        | .tensor v => v
      tflPow pw (promote x y).1 (promote x y).2
    else none

/-- aten.py 1236-1248: the quotient of the floating-point number 1 and the element, as it is in the graph; nothing is promoted. -/
def convertReciprocal (x : Num) : Option OpResult := tflBin .DIV (.flt 1) x

end Verif.Model.PowLower
