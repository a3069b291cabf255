import Mathlib.Data.Rat.Floor
import Mathlib.Algebra.Order.Field.Rat

/-! Elementwise arithmetic and comparison of PyTorch and TFLite on numbers of integer or floating-point type.  Numbers are exact: overflow and rounding are left out. -/

namespace Verif.Spec

/-- A number together with its element type. -/
inductive Num
  | int (z : ℤ)
  | flt (q : ℚ)
  deriving DecidableEq

def Num.val : Num → ℚ
  | .int z => z
  | .flt q => q

def Num.isInt : Num → Bool
  | .int _ => true
  | .flt _ => false

/-- `torch.div`'s rounding mode. -/
inductive Rounding | none | floor | trunc
  deriving DecidableEq

inductive BinOp
  | add | sub | rsub | mul
  | div (mode : Rounding)
  | floorDivide | remainder | minimum
  | eq | ne | lt | le | gt | ge
  deriving DecidableEq

/-- A result: a number or a truth value. -/
inductive OpResult
  | num (q : ℚ)
  | bool (b : Bool)
  deriving DecidableEq

/-- Rounding a rational number towards zero. -/
def truncQ (q : ℚ) : ℤ := if 0 ≤ q then ⌊q⌋ else ⌈q⌉

/-- The value PyTorch computes for one element `x` and the second operand `y`, whatever their types: the operands are first brought to a common type that holds both. -/
def torchBin (op : BinOp) (x y : Num) : OpResult :=
  match op with
  | .add => .num (x.val + y.val)
  | .sub => .num (x.val - y.val)
  | .rsub => .num (y.val - x.val)
  | .mul => .num (x.val * y.val)
  | .div .none => .num (x.val / y.val)
  | .div .floor => .num (⌊x.val / y.val⌋ : ℤ)
  | .div .trunc => .num (truncQ (x.val / y.val) : ℤ)
  | .floorDivide => .num (⌊x.val / y.val⌋ : ℤ)
  | .remainder => .num (x.val - y.val * ⌊x.val / y.val⌋)
  | .minimum => .num (min x.val y.val)
  | .eq => .bool (x.val = y.val)
  | .ne => .bool (x.val ≠ y.val)
  | .lt => .bool (x.val < y.val)
  | .le => .bool (x.val ≤ y.val)
  | .gt => .bool (x.val > y.val)
  | .ge => .bool (x.val ≥ y.val)

/-- TFLite's elementwise operators. -/
inductive TflBin | ADD | SUB | MUL | DIV | FLOOR_DIV | FLOOR_MOD | MINIMUM | EQUAL | NOT_EQUAL | LESS | LESS_EQUAL | GREATER | GREATER_EQUAL
  deriving DecidableEq

/-- A TFLite operator on two numbers of the same type (`none`: the kernel refuses different types); integer DIV truncates. -/
def tflBin (op : TflBin) : Num → Num → Option OpResult
  | .int x, .int y => some (match op with
    | .ADD => .num ((x + y : ℤ) : ℚ)
    | .SUB => .num ((x - y : ℤ) : ℚ)
    | .MUL => .num ((x * y : ℤ) : ℚ)
    | .DIV => .num (Int.tdiv x y : ℤ)
    | .FLOOR_DIV => .num (Int.fdiv x y : ℤ)
    | .FLOOR_MOD => .num (Int.fmod x y : ℤ)
    | .MINIMUM => .num ((min x y : ℤ) : ℚ)
    | .EQUAL => .bool (x = y)
    | .NOT_EQUAL => .bool (x ≠ y)
    | .LESS => .bool (x < y)
    | .LESS_EQUAL => .bool (x ≤ y)
    | .GREATER => .bool (x > y)
    | .GREATER_EQUAL => .bool (x ≥ y))
  | .flt x, .flt y => some (match op with
    | .ADD => .num (x + y)
    | .SUB => .num (x - y)
    | .MUL => .num (x * y)
    | .DIV => .num (x / y)
    | .FLOOR_DIV => .num (⌊x / y⌋ : ℤ)
    | .FLOOR_MOD => .num (x - y * ⌊x / y⌋)
    | .MINIMUM => .num (min x y)
    | .EQUAL => .bool (x = y)
    | .NOT_EQUAL => .bool (x ≠ y)
    | .LESS => .bool (x < y)
    | .LESS_EQUAL => .bool (x ≤ y)
    | .GREATER => .bool (x > y)
    | .GREATER_EQUAL => .bool (x ≥ y))
  | _, _ => none

end Verif.Spec
