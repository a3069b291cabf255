import Verif.Spec.AxisArg
import Verif.Model.Layout
import Verif.Model.AtenExpand

/-!
Model of the conversion of operations that take axes: `ATenTransposeOperator`, `ATenTOperator`, `ATenPermuteOperator`, `ATenSoftmaxOperator`, `ATenLogSoftmaxOperator`, `ATenCumsumOperator`,
`ATenCatOperator` and `ATenBroadcastTensorsOperator` (`/repo/tinynn/converter/operators/torch/aten.py` 1325-1340, 2089-2104, 2123-2133, 1616-1635, 2792-2811, 4149-4164, 1731-1750, 4569-4619) and
`ATenCopyOperator` (3654-3711).  Each function gives the tensor the emitted operators compute; `none` is an exception or an invalid model.
-/

namespace Verif.Model.AxisArg
open Verif.Spec Verif.Spec.AxisArg

variable {α : Type}

/-- Indexing a NumPy array of length `n`. -/
def npIndex (n : ℕ) (d : ℤ) : Option ℕ :=
  if -(n : ℤ) ≤ d ∧ d < n then some (if d < 0 then d + n else d).toNat else none

/-- `perm[dim_1], perm[dim_2] = perm[dim_2], perm[dim_1]` on `np.arange(n)` (aten.py:1334-1335). -/
def swapPerm (n : ℕ) (d1 d2 : ℤ) : Option (List ℕ) := do
  let i ← npIndex n d1
  let j ← npIndex n d2
  let perm := List.range n
  some ((perm.set i (perm.getD j 0)).set j (perm.getD i 0))

/-- `aten::transpose` (aten.py:1325-1340). -/
def convertTranspose (d1 d2 : ℤ) (t : Tensor α) : Option (Tensor α) := do
  let perm ← swapPerm t.shape.length d1 d2
  tflTranspose (perm.map fun (k : ℕ) => (k : ℤ)) t

/-- `aten::t` (aten.py:2089-2104): all axes in reverse; a RESHAPE to the same shape below two axes. -/
def convertT (t : Tensor α) : Option (Tensor α) :=
  if t.shape.length ≥ 2 then tflTranspose ((List.range t.shape.length).reverse.map fun (k : ℕ) => (k : ℤ)) t
  else some (reshape t.shape t)

/-- `aten::permute` (aten.py:2123-2133): the axes as given. -/
def convertPermute (dims : List ℤ) (t : Tensor α) : Option (Tensor α) := tflTranspose dims t

/-- `if dim < 0: dim += n`. -/
def addRank (n : ℕ) (d : ℤ) : ℤ := if d < 0 then d + n else d

/-- `aten::softmax` and `aten::log_softmax` (aten.py:1616-1635, 2792-2811; torch/base.py:480-514): `f` along the last axis between transposes. -/
def convertAlong (f : List α → ℕ → α) (d : ℤ) (t : Tensor α) : Tensor α :=
  let p := lastDimPerm t.shape.length (addRank t.shape.length d).toNat
  transpose (npArgsort p) (alongAxis (t.shape.length - 1) f (transpose p t))

/-- `aten::cumsum` (aten.py:4149-4164); `f` is the sum of the elements up to a position. -/
def convertCumsum (f : List α → ℕ → α) (d : ℤ) (t : Tensor α) : Tensor α := alongAxis (addRank t.shape.length d).toNat f t

/-- `aten::cat` (aten.py:1731-1750): the rank of the first tensor, and all tensors. -/
def convertCat [Inhabited α] (d : ℤ) (ts : List (Tensor α)) : Option (Tensor α) :=
  match ts with
  | [] => none
  | t :: _ => tflConcat (addRank t.shape.length d) ts

/-- One tensor of `aten::broadcast_tensors` (aten.py:4586-4616), and `aten::copy_` without a cast (3664-3708): a RESHAPE to the same shape, or RESHAPE and TILE. -/
def broadcastOne (out : List ℕ) (t : Tensor α) : Tensor α :=
  if out = t.shape then reshape t.shape t
  else
    let actual := if out.length > t.shape.length then reshape (List.replicate (out.length - t.shape.length) 1 ++ t.shape) t else t
    tile (expandCounts actual.shape out) actual

/-- `aten::broadcast_tensors`. -/
def convertBroadcast (ts : List (Tensor α)) : Option (List (Tensor α)) := (bcAll (ts.map fun t => t.shape)).map fun out => ts.map (broadcastOne out)

end Verif.Model.AxisArg
