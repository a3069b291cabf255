import Verif.Spec.Tensor

/-! PyTorch's pixel_shuffle and pixel_unshuffle, and TFLite's DEPTH_TO_SPACE and SPACE_TO_DEPTH. -/

namespace Verif.Spec

/-- `torch.pixel_shuffle` of an `N x C x H x W` tensor: channel `c * r * r + i * r + j` of pixel `(y, x)` becomes pixel `(y * r + i, x * r + j)` of channel `c`. -/
def pixelShuffle {α : Type} (r : Nat) (t : Tensor α) : Tensor α where
  shape := [t.shape.getD 0 0, t.shape.getD 1 0 / (r * r), t.shape.getD 2 0 * r, t.shape.getD 3 0 * r]
  get := fun idx => t.get [idx.getD 0 0, idx.getD 1 0 * (r * r) + idx.getD 2 0 % r * r + idx.getD 3 0 % r, idx.getD 2 0 / r, idx.getD 3 0 / r]

/-- `torch.pixel_unshuffle`, the other way round. -/
def pixelUnshuffle {α : Type} (r : Nat) (t : Tensor α) : Tensor α where
  shape := [t.shape.getD 0 0, t.shape.getD 1 0 * (r * r), t.shape.getD 2 0 / r, t.shape.getD 3 0 / r]
  get := fun idx => t.get [idx.getD 0 0, idx.getD 1 0 / (r * r), idx.getD 2 0 * r + idx.getD 1 0 % (r * r) / r, idx.getD 3 0 * r + idx.getD 1 0 % r]

/-- DEPTH_TO_SPACE of an `N x H x W x C` tensor: the block position is the slower part of the channel. -/
def depthToSpace {α : Type} (r : Nat) (t : Tensor α) : Tensor α where
  shape := [t.shape.getD 0 0, t.shape.getD 1 0 * r, t.shape.getD 2 0 * r, t.shape.getD 3 0 / (r * r)]
  get := fun idx => t.get [idx.getD 0 0, idx.getD 1 0 / r, idx.getD 2 0 / r,
    (idx.getD 1 0 % r * r + idx.getD 2 0 % r) * (t.shape.getD 3 0 / (r * r)) + idx.getD 3 0]

/-- SPACE_TO_DEPTH of an `N x H x W x C` tensor. -/
def spaceToDepth {α : Type} (r : Nat) (t : Tensor α) : Tensor α where
  shape := [t.shape.getD 0 0, t.shape.getD 1 0 / r, t.shape.getD 2 0 / r, t.shape.getD 3 0 * (r * r)]
  get := fun idx => t.get [idx.getD 0 0, idx.getD 1 0 * r + idx.getD 3 0 / t.shape.getD 3 0 / r, idx.getD 2 0 * r + idx.getD 3 0 / t.shape.getD 3 0 % r,
    idx.getD 3 0 % t.shape.getD 3 0]

end Verif.Spec
