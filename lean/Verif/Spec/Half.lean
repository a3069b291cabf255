import Verif.Spec.Float
import Mathlib.Algebra.Order.Field.Rat
import Mathlib.Algebra.Order.Group.Int
import Mathlib.Algebra.Ring.Int.Parity

/-! IEEE-754 binary16 rounding, to nearest with ties to even, and networks of operators as systems of equations. -/

namespace Verif.Spec.Half
open Verif.Spec

/-- `y` is `x` rounded to half precision: 11 bits of significand, smallest unit `2^-24`, infinity from 65520 on. -/
def RoundsTo (x : ℚ) (y : FVal) : Prop :=
  (65520 ≤ |x| ∧ y = .inf (decide (x < 0))) ∨
  (|x| < 65520 ∧ ∃ (e m : ℤ), -24 ≤ e ∧ |x| < (2 : ℚ) ^ (11 : ℕ) * (2 : ℚ) ^ e ∧ (e = -24 ∨ (2 : ℚ) ^ (10 : ℕ) * (2 : ℚ) ^ e ≤ |x|) ∧
    |x / (2 : ℚ) ^ e - m| ≤ 1 / 2 ∧ (|x / (2 : ℚ) ^ e - m| = 1 / 2 → Even m) ∧ y = .fin (m * (2 : ℚ) ^ e))

/-- An operator: what it does, the names of its inputs and outputs. -/
structure Op (κ : Type) where
  kind : κ
  inputs : List String
  outputs : List String

/-- Types of constants. -/
inductive DType
  | f32 | f16 | other
  deriving DecidableEq

/-- A constant. -/
structure Const (V : Type) where
  name : String
  dtype : DType
  data : V

/-- A network. -/
structure Net (κ V : Type) where
  consts : List (Const V)
  ops : List (Op κ)
  outputs : List String

/-- `v` gives every tensor its value: constants their data, outputs of operators what the operator computes. -/
def Solves {κ V : Type} (sem : κ → List V → List V) (g : Net κ V) (v : String → V) : Prop :=
  (∀ c ∈ g.consts, v c.name = c.data) ∧ ∀ o ∈ g.ops, o.outputs.map v = sem o.kind (o.inputs.map v)

/-- The network with every constant of type float32 rounded. -/
def roundConsts {κ V : Type} (half : V → V) (g : Net κ V) : Net κ V :=
  { g with consts := g.consts.map fun c => if c.dtype = .f32 then { c with data := half c.data } else c }

/-- Names of constants of type float32. -/
def floatNames {κ V : Type} (g : Net κ V) : List String := (g.consts.filter fun c => c.dtype = .f32).map Const.name

end Verif.Spec.Half
