import Verif.Spec.Matmul
import Verif.Spec.AxisOps
import Mathlib.Order.Lattice

/-! A matrix product followed by an addition, as TFLite computes them. -/

namespace Verif.Spec.BmmAdd
open Verif.Spec

/-- Fused activations. -/
inductive Act
  | none
  | relu
  | relu6
  deriving DecidableEq

/-- What an activation does to a number. -/
def Act.fn {R : Type} [CommRing R] [LinearOrder R] : Act → R → R
  | .none, v => v
  | .relu, v => max v 0
  | .relu6, v => min (max v 0) 6

/-- The operator that computes the product: BATCH_MATMUL, or FULLY_CONNECTED with its flag, bias and activation. -/
inductive Kind (R : Type)
  | bmm
  | fc (keepNumDims : Bool) (bias : Option (Tensor R)) (act : Act)

/-- The product with its activation; a missing bias is zero. -/
def product {R : Type} [CommRing R] [LinearOrder R] (k : Kind R) (x w : Tensor R) : Option (Tensor R) := match k with
  | .bmm => batchMatmul x w
  | .fc keep b act => (fullyConnected keep x w (b.getD ⟨[w.shape.getD 0 0], fun _ => 0⟩)).map (mapTensor act.fn)

/-- ADD of a tensor to the product, with its activation. -/
def productAdd {R : Type} [CommRing R] [LinearOrder R] (k : Kind R) (x w b : Tensor R) (act : Act) : Option (Tensor R) := do
  let p ← product k x w
  (elementwise (· + ·) p b).map (mapTensor act.fn)

/-- Types of tensors. -/
inductive DType
  | float
  | int8
  | uint8
  | int16
  | int32
  deriving DecidableEq

/-- The types of operands TFLite accepts: ADD wants one type, FULLY_CONNECTED a bias of the type of floating-point operands and of 32 bits for 8-bit ones (64 bits for 16-bit ones). -/
def addAccepts (a b : DType) : Prop := a = b

def fcAccepts (x bias : DType) : Prop := match x with
  | .float => bias = .float
  | .int8 | .uint8 => bias = .int32
  | _ => False

end Verif.Spec.BmmAdd
