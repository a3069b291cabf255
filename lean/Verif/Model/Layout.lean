import Verif.Spec.Tensor
import Mathlib.Data.List.Sort

/-!
Models of the layout passes of `/repo/tinynn/converter/operators/optimize.py` and of the transpose
wrapping helpers.
-/

namespace Verif.Model
open Verif.Spec

/-- NumPy fancy indexing `cur[next]` on a 1-D array (indices in range and non-negative). -/
def npTake (cur next : List Nat) : List Nat := next.map (fun k => cur.getD k 0)

/-- `fuse_transpose_perms`, optimize.py 4461-4470: the loop over the operators' permutation (or index)
tensors; `none` before the first one. -/
def fusePermsLoop : Option (List Nat) → List (List Nat) → Option (List Nat)
  | cur, [] => cur
  | none, p :: ps => fusePermsLoop (some p) ps
  | some cur, p :: ps => fusePermsLoop (some (npTake cur p)) ps

/-- `fuse_transpose_perms`, optimize.py 4461-4470. -/
def fuseTransposePerms (ps : List (List Nat)) : Option (List Nat) := fusePermsLoop none ps

/-- `np.array_equal(new_perm, np.sort(new_perm))`, optimize.py 772 and 812: the test that lets the
whole chain be dropped. -/
def isSortedPerm (p : List Nat) : Bool := p == p.insertionSort (· ≤ ·)

/-- `fuse_simple_transpose_pass`, optimize.py 748-785, on one chain: `none` when the chain is dropped,
otherwise the single permutation that replaces it. -/
def fuseTransposeChain (ps : List (List Nat)) : Option (Option (List Nat)) :=
  (fuseTransposePerms ps).map (fun p => if isSortedPerm p then none else some p)

/-- `(np.diff(perm) == 1).all()`, optimize.py 4030: the no-op test for a single TRANSPOSE. -/
def diffsAreOne : List Nat → Bool
  | a :: b :: r => (b == a + 1) && diffsAreOne (b :: r)
  | _ => true

/-- `np.argsort` (of distinct keys). -/
def npArgsort (l : List Nat) : List Nat :=
  (List.range l.length).insertionSort (fun a b => l.getD a 0 ≤ l.getD b 0)

/-- transformable.py 51-58 and torch/base.py `wrap_ops_with_nhwc_nchw_transposes`: the pair
(permutation in front of the operator, permutation after it) for each rank, `none` where the code
fails its assertion. -/
def wrapPerms (ndim : Nat) : Option (List Nat × List Nat) :=
  if ndim = 4 then some ([0, 2, 3, 1], [0, 3, 1, 2])
  else if ndim = 5 then some ([0, 2, 3, 4, 1], [0, 4, 1, 2, 3])
  else none

/-- torch/base.py 492: `[i for i in range(n_dim) if i != dim] + [dim]`. -/
def lastDimPerm (n dim : Nat) : List Nat := (List.range n).filter (fun i => i != dim) ++ [dim]

/-- `np.arange(n).reshape(shape)`: element = its own row-major offset. -/
def arange (s : List Nat) : Tensor Nat := ⟨s, fun idx => flat s idx⟩

/-- `tensor.flatten()`. -/
def flatten {α : Type} (t : Tensor α) : List α := (List.range t.shape.prod).map (fun k => t.get (unflat t.shape k))

/-- `is_transpose_same_to_reshape_op`, optimize.py 4243-4256.  `outShape` is the recorded shape of the
operator's output. -/
def isTransposeSameToReshape (inShape outShape perm : List Nat) : Bool :=
  if inShape.filter (fun d => d != 1) == outShape.filter (fun d => d != 1) then
    flatten (transpose perm (arange inShape)) == flatten (arange inShape)
  else false

/-- `fuse_simple_reshape_pass`, optimize.py 906-944, on one chain: `args` are the shape tensors of the
chain (possibly with `-1`), `orig` the shape of the chain's input.  `none` when the chain is dropped,
otherwise the shape tensor of the RESHAPE that replaces it. -/
def fuseReshapeChain (orig : List Nat) (args : List (List Int)) : Option (Option (List Int)) :=
  args.getLast?.map (fun newShape => if newShape = orig.map Int.ofNat then none else some newShape)

end Verif.Model
