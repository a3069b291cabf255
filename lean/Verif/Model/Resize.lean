import Verif.Spec.Resize

/-!
Model of `ATenUpsampleNearest2dOperator` and `ATenUpsampleBilinear2dOperator`, `/repo/tinynn/converter/operators/torch/aten.py` 960-1007, with the transposes of
`wrap_ops_with_nhwc_nchw_transposes` (base.py 450-478).
-/

namespace Verif.Model
open Verif.Spec

/-- Lines 967-971 (990-994): the given output size, or `(input_sizes * scale_factors).astype('int32')`, which truncates. -/
def outputSize (n : Nat) : AxisSize → Nat
  | .size o => o
  | .factor f => ⌊(n : ℚ) * f⌋.toNat

/-- Lines 960-980: TRANSPOSE, RESIZE_NEAREST_NEIGHBOR (no aligned corners, no half-pixel centers), TRANSPOSE. -/
def convertNearest {α : Type} (h w : AxisSize) (t : Tensor α) : Tensor α :=
  transpose [0, 3, 1, 2] (nearestTfl (outputSize (t.shape.getD 2 0) h) (outputSize (t.shape.getD 3 0) w) (transpose [0, 2, 3, 1] t))

/-- Lines 983-1007: TRANSPOSE, RESIZE_BILINEAR with `half_pixel_centers = not align_corners`, TRANSPOSE. -/
def convertBilinear (align : Bool) (h w : AxisSize) (t : Tensor ℚ) : Tensor ℚ :=
  transpose [0, 3, 1, 2] (bilinearTfl align (!align) (outputSize (t.shape.getD 2 0) h) (outputSize (t.shape.getD 3 0) w) (transpose [0, 2, 3, 1] t))

end Verif.Model
