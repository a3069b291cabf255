import Verif.Model.Layout
import Verif.Spec.AxisOps

/-!
Model of the rewriting of one operator in `elementwise_op_transpose_passthrough_pass`, `/repo/tinynn/converter/operators/optimize.py` 1794-2124: the inputs of
the operator are transposed with `inv_perm_arr`, its outputs with `perm_arr_post`, and its axis arguments are renamed.  The selection of operators (counting
transposes, direction hints), the graph edges and tensor names are not modelled.
-/

namespace Verif.Model
open Verif.Spec

/-- Lines 1860-1862 and 1905-1907: the permutation of an input of PACK (of an output of UNPACK), for the rank with the axis. -/
def liftPerm (axis : Nat) (perm : List Nat) : List Nat := (perm.map (fun i => if i < axis then i else i + 1)).insertIdx axis axis

/-- Line 1964: `np.argsort(perm_arr)`. -/
def passInv (perm : List Nat) : List Nat := npArgsort perm

/-- `arr[arr != axis]` with the entries above `axis` decremented, lines 1967-1968 and 1975-1976. -/
def dropAxis (axis : Nat) (arr : List Nat) : List Nat := (arr.filter (fun i => i != axis)).map (fun i => if i > axis then i - 1 else i)

/-- Lines 1966-1970, UNPACK: (permutation for the input, permutation for the outputs). -/
def passPermsUnpack (axis : Nat) (perm : List Nat) : List Nat × List Nat := (passInv perm, npArgsort (dropAxis axis (passInv perm)))

/-- Lines 1971-1978, PACK: (permutation for the inputs, permutation for the output). -/
def passPermsPack (axis : Nat) (perm : List Nat) : List Nat × List Nat := (npArgsort (dropAxis axis perm), perm)

/-- Lines 2044-2061: `np.where(inv == axis)[0][0]`; `none` is the IndexError. -/
def passAxis (inv : List Nat) (axis : Nat) : Option Nat := if axis ∈ inv then some (inv.idxOf axis) else none

/-- Lines 2062-2070 and 2080-2088: `arg[inv]` (for a pad tensor: of its rows). -/
def passArg {β : Type} (d : β) (inv : List Nat) (arg : List β) : List β := inv.map (fun i => arg.getD i d)

/-- Lines 2098-2103: the axes of a reduction. -/
def passAxes (inv : List Nat) (axes : List Nat) : Option (List Nat) := axes.mapM (passAxis inv)

/-- Lines 2016-2021: the recorded shape of an output that is not used, `orig_shape[inv_perm_arr]`; `none` is the IndexError. -/
def passUnusedShape (inv shape : List Nat) : Option (List Nat) := if inv.all (fun i => decide (i < shape.length)) then some (inv.map (fun i => shape.getD i 0)) else none

/-- Lines 1995-2011: an input of a broadcasting operator is reshaped to the rank of the permutation if it has fewer axes; `none` is NumPy's
ValueError for a tensor with more axes. -/
def passOperand {α : Type} (inv : List Nat) (t : Tensor α) : Option (Tensor α) :=
  if t.shape.length ≤ inv.length then
    some (transpose inv (if t.shape.length ≠ inv.length then reshape (List.replicate (inv.length - t.shape.length) 1 ++ t.shape) t else t))
  else none

/-- `op_input_indices`, lines 4368-4377: an operand of an arithmetic operator with a single element is left alone. -/
def isSingle (s : List Nat) : Bool := s.length == 1 && s.getD 0 0 == 1

/-- The operands after the rewriting, for the arithmetic operators. -/
def passOperands {α : Type} (inv : List Nat) (a b : Tensor α) : Option (Tensor α × Tensor α) :=
  if isSingle b.shape then (passOperand inv a).map (·, b)
  else if isSingle a.shape then (passOperand inv b).map (a, ·)
  else (passOperand inv a).bind (fun a' => (passOperand inv b).map (a', ·))

/-- Lines 2071-2079: the slope tensor of PRELU; `none` is the AssertionError. -/
def passPrelu {α : Type} (inv : List Nat) (w : Tensor α) : Option (Tensor α) :=
  if w.shape.length ≠ 1 then
    if w.shape.length + 1 = inv.length then some (transpose (npArgsort (npArgsort inv.tail)) w) else none
  else some w

end Verif.Model
