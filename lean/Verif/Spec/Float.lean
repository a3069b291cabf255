import Verif.Spec.Broadcast
import Mathlib.Data.Rat.Defs
import Mathlib.Algebra.Order.Ring.Rat

/-! Floating-point numbers with infinities and NaN.  Finite arithmetic is exact (rounding, overflow and the sign of zero are left out): the products with 0 and 1 and the
sums with 0 the theorems are about are exact in IEEE-754 as well. -/

namespace Verif.Spec

inductive FVal
  | nan
  | inf (neg : Bool)
  | fin (x : ℚ)
  deriving DecidableEq

namespace FVal

def isFin : FVal → Prop
  | .fin _ => True
  | _ => False

def add : FVal → FVal → FVal
  | .nan, _ => .nan
  | _, .nan => .nan
  | .inf a, .inf b => if a = b then .inf a else .nan
  | .inf a, .fin _ => .inf a
  | .fin _, .inf b => .inf b
  | .fin x, .fin y => .fin (x + y)

def neg : FVal → FVal
  | .nan => .nan
  | .inf a => .inf (!a)
  | .fin x => .fin (-x)

def sub (x y : FVal) : FVal := add x (neg y)

def mul : FVal → FVal → FVal
  | .nan, _ => .nan
  | _, .nan => .nan
  | .inf a, .inf b => .inf (a != b)
  | .inf a, .fin y => if y = 0 then .nan else .inf (a != decide (y < 0))
  | .fin x, .inf b => if x = 0 then .nan else .inf (decide (x < 0) != b)
  | .fin x, .fin y => .fin (x * y)

/-- A truth value converted to a number. -/
def ofBool (b : Bool) : FVal := if b then .fin 1 else .fin 0

end FVal

/-- `torch.where(mask, value, x)` and `x.masked_fill(mask, value)` at one element. -/
def torchSelect (mask : Bool) (value x : FVal) : FVal := if mask then value else x

end Verif.Spec
