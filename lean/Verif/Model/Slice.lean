import Verif.Spec.Slice

/-!
Model of the slice fusion in `/repo/tinynn/converter/operators/optimize.py`: `fuse_slices`
(4431-4458) and the operator built by `fuse_simple_slice_pass` (947-1005).  Attribute tensors are
lists with one entry per axis; NumPy's elementwise arithmetic is `List.zipWith`.  Simplification: the
int32 range of the attributes is not modelled.
-/

namespace Verif.Model
open Verif.Spec (SliceOp)

/-- The local variables `(cur_start, cur_end, cur_strides)` once they are all set. -/
structure SliceAcc where
  start : List Nat
  stop : List Nat
  strides : List Nat
  deriving DecidableEq, Repr

/-- optimize.py 4437 and 4445-4446, 4448-4450: `next_start`, the end and the strides of a node. -/
def sliceStart : SliceOp → List Nat
  | .slice s _ => s
  | .strided s _ _ => s

/-- `next_start + next_size` for SLICE (4445), `inputs[2].tensor` for STRIDED_SLICE (4448). -/
def sliceEnd : SliceOp → List Nat
  | .slice s z => List.zipWith (· + ·) s z
  | .strided _ e _ => e

/-- 4446 (`np.ones_like`) and 4450. -/
def sliceStrides : SliceOp → List Nat
  | .slice s _ => s.map (fun _ => 1)
  | .strided _ _ d => d

/-- optimize.py 4438-4454: the first node.  `cur_start` is all zeros and `cur_strides` all ones, so
`next_end = 0 + end * 1`. -/
def sliceFirst (op : SliceOp) : SliceAcc :=
  let curStrides := (sliceStart op).map (fun _ => 1)
  let curStart := (sliceStart op).map (fun _ => 0)
  { start := sliceStart op
    stop := List.zipWith (· + ·) curStart (List.zipWith (· * ·) (sliceEnd op) curStrides)
    strides := sliceStrides op }

/-- optimize.py 4445/4449 and 4455-4457: a later node. -/
def sliceNext (acc : SliceAcc) (op : SliceOp) : SliceAcc :=
  let nextEnd := List.zipWith (· + ·) acc.start (List.zipWith (· * ·) (sliceEnd op) acc.strides)
  { start := List.zipWith (· + ·) acc.start (List.zipWith (· * ·) (sliceStart op) acc.strides)
    stop := List.zipWith min acc.stop nextEnd
    strides := List.zipWith (· * ·) acc.strides (sliceStrides op) }

/-- `fuse_slices`, optimize.py 4431-4458, on a non-empty sequence. -/
def fuseSlices (op : SliceOp) (rest : List SliceOp) : SliceAcc := rest.foldl sliceNext (sliceFirst op)

/-- optimize.py 962-1003: the operator that replaces the chain. -/
def emitSlice (acc : SliceAcc) : SliceOp :=
  if acc.strides.all (· == 1) then .slice acc.start (List.zipWith (· - ·) acc.stop acc.start)
  else .strided acc.start acc.stop acc.strides

end Verif.Model
