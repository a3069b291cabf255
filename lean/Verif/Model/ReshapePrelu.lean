import Verif.Model.ReshapePass
/-!
More of `elementwise_op_reshape_passthrough_pass`: the axis an operator works along, and PRELU.

Modelled code: tinynn/converter/operators/optimize.py
  op_input_dims                                              (4315-4358) for PAD, PADV2, MIRROR_PAD, SLICE, STRIDED_SLICE, TILE, PRELU and reductions
  elementwise_op_reshape_passthrough_pass, the part on PRELU (2434-2444)
Negative axes do not occur here.  A raised exception is `none`.
-/

namespace Verif.Model.ReshapePass
open Verif.Spec

/-- `np.nonzero(v)[0]`. -/
def nonzeroIdx (v : List Int) : List Nat := (List.range v.length).filter fun i => v.getD i 0 ≠ 0

/-- `if nonzero_idx.size == 1: dim_indices = nonzero_idx[0]`. -/
def onlyOne (v : List Int) : Option Nat := match nonzeroIdx v with
  | [d] => some d
  | _ => none

/-- 4324-4329: the padded axis. -/
def padAxis (lo hi : List Nat) : Option Nat := onlyOne (List.zipWith (fun (a b : Nat) => (a : Int) + b) lo hi)

/-- 4335-4342: the axis along which the sizes differ. -/
def sizeAxis (before after : List Nat) : Option Nat := onlyOne (List.zipWith (fun (a b : Nat) => (b : Int) - a) before after)

/-- 4330-4334: the axis of the slopes, which have no axis for the batch. -/
def preluAxis (slopes : List Nat) : Option Nat := (onlyOne (slopes.map fun (d : Nat) => (d : Int) - 1)).map (· + 1)

/-- 4354-4357: a reduction along one axis. -/
def reduceAxis (axes : List Nat) : Option Nat := match axes with
  | [d] => some d
  | _ => none

/-- `new_shape` for the slopes (2438-2439); `new_dim - 1` is the last place when `new_dim` is 0, and `none` an IndexError. -/
def slopeShape (prev : List Int) (a : Nat) (size : Nat) : Option (List Nat) :=
  let n := prev.length - 1
  if a = 0 then (if n = 0 then none else some ((List.replicate n 1).set (n - 1) size)) else some ((List.replicate n 1).set (a - 1) size)

/-- PRELU (2434-2444): slopes of rank one are left alone, others get a RESHAPE. -/
def passPrelu {α β γ : Type} (prev next : List Int) (f : α → β → γ) (x : Tensor α) (w : Tensor β) : Option (Tensor γ) := do
  let y ← moveIn prev next x
  if w.shape.length = 1 then
    let z ← elementwise f y w
    moveOut prev x.shape z
  else
    let a ← holeIdx prev
    let b ← holeIdx next
    let s ← slopeShape prev a (w.shape.getD (b - 1) 0)
    let w' ← if s.prod = w.shape.prod then some (reshape s w) else none
    let z ← elementwise f y w'
    moveOut prev x.shape z

end Verif.Model.ReshapePass
