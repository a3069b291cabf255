import Verif.Spec.PixelShuffle
import Verif.Spec.Slice
import Verif.Spec.AxisOps
import Mathlib.Data.List.Sort

/-!
Model of `ATenPixelShuffleOperator` and `ATenPixelUnshuffleOperator`, `/repo/tinynn/converter/operators/torch/aten.py` 3167-3231, with the transposes of
`wrap_ops_with_nhwc_nchw_transposes` (base.py), for inputs of rank 4.  Each function gives the tensor the emitted operators compute.
-/

namespace Verif.Model
open Verif.Spec

/-- `np.arange(n)`. -/
def npArange (n : Nat) : Tensor Nat := ⟨[n], fun idx => idx.getD 0 0⟩

/-- `.flatten()`: the elements in row-major order. -/
def npFlatten {α : Type} (t : Tensor α) : List α := (allIndices t.shape).map t.get

/-- Line 3190: `np.arange(c).reshape(c // (bs**2), bs, bs).transpose(1, 2, 0).flatten()`. -/
def shufflePerm (c bs : Nat) : List Nat := npFlatten (transpose [1, 2, 0] (reshape [c / (bs * bs), bs, bs] (npArange c)))

/-- Line 3221: `np.arange(c * (bs**2)).reshape(bs, bs, c).transpose(2, 0, 1).flatten()`. -/
def unshufflePerm (c bs : Nat) : List Nat := npFlatten (transpose [2, 0, 1] (reshape [bs, bs, c] (npArange (c * (bs * bs)))))

/-- Lines 3191, 3222: a GATHER on the channels (axis 3) is inserted unless `np.array_equal(np.sort(perm), perm)`. -/
def reorder {α : Type} (perm : List Nat) (t : Tensor α) : Tensor α := if perm.insertionSort (· ≤ ·) ≠ perm then gather 3 perm t else t

/-- Lines 3167-3198: TRANSPOSE, GATHER, DEPTH_TO_SPACE, TRANSPOSE. -/
def convertPixelShuffle {α : Type} (bs : Nat) (t : Tensor α) : Tensor α :=
  transpose [0, 3, 1, 2] (depthToSpace bs (reorder (shufflePerm (t.shape.getD 1 0) bs) (transpose [0, 2, 3, 1] t)))

/-- Lines 3201-3231: TRANSPOSE, SPACE_TO_DEPTH, GATHER, TRANSPOSE. -/
def convertPixelUnshuffle {α : Type} (bs : Nat) (t : Tensor α) : Tensor α :=
  transpose [0, 3, 1, 2] (reorder (unshufflePerm (t.shape.getD 1 0) bs) (spaceToDepth bs (transpose [0, 2, 3, 1] t)))

end Verif.Model
