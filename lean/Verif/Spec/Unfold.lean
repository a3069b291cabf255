import Verif.Spec.AxisOps

/-! `torch.nn.functional.unfold` (im2col) and `fold` (col2im) of `N x C x H x W` images. -/

namespace Verif.Spec

/-- The sliding window: kernel, dilation and stride of both spatial axes. -/
structure Patch where
  kh : Nat
  kw : Nat
  dh : Nat
  dw : Nat
  sh : Nat
  sw : Nat

namespace Patch

/-- Number of window positions along the height and the width of a padded image. -/
def rows (p : Patch) (h : Nat) : Nat := (h - (p.dh * (p.kh - 1) + 1)) / p.sh + 1
def cols (p : Patch) (w : Nat) : Nat := (w - (p.dw * (p.kw - 1) + 1)) / p.sw + 1

/-- The window is not empty, moves, and fits into a padded image of this size. -/
def Fits (p : Patch) (h w : Nat) : Prop :=
  0 < p.kh ∧ 0 < p.kw ∧ 0 < p.sh ∧ 0 < p.sw ∧ p.dh * (p.kh - 1) + 1 ≤ h ∧ p.dw * (p.kw - 1) + 1 ≤ w

/-- The position in the padded image (of width `w`) that element `idx` of the patches shows: column `idx[2]` is the window position, row `idx[1]` is the channel and the place
in the window. -/
def pos (p : Patch) (w : Nat) (idx : List Nat) : List Nat :=
  let row := idx.getD 1 0
  let col := idx.getD 2 0
  [idx.getD 0 0, row / (p.kh * p.kw), col / p.cols w * p.sh + row / p.kw % p.kh * p.dh, col % p.cols w * p.sw + row % p.kw * p.dw]

/-- Shape of the patches of a padded image of this size. -/
def shape (p : Patch) (n c h w : Nat) : List Nat := [n, c * (p.kh * p.kw), p.rows h * p.cols w]

end Patch

/-- `unfold` with padding `ph`, `pw`: the positions outside the image are 0. -/
def unfold {α : Type} [Zero α] (p : Patch) (ph pw : Nat) (t : Tensor α) : Tensor α where
  shape := p.shape (t.shape.getD 0 0) (t.shape.getD 1 0) (t.shape.getD 2 0 + 2 * ph) (t.shape.getD 3 0 + 2 * pw)
  get := fun idx =>
    let at' := p.pos (t.shape.getD 3 0 + 2 * pw) idx
    let y := at'.getD 2 0
    let x := at'.getD 3 0
    if ph ≤ y ∧ y < ph + t.shape.getD 2 0 ∧ pw ≤ x ∧ x < pw + t.shape.getD 3 0 then t.get [at'.getD 0 0, at'.getD 1 0, y - ph, x - pw] else 0

/-- `fold` to an image of size `oh x ow` with padding `ph`, `pw`: every pixel is the sum of the patch elements that show it. -/
def fold {α : Type} [AddCommMonoid α] (p : Patch) (oh ow ph pw : Nat) (t : Tensor α) : Tensor α where
  shape := [t.shape.getD 0 0, t.shape.getD 1 0 / (p.kh * p.kw), oh, ow]
  get := fun o => (((allIndices t.shape).filter (fun idx => p.pos (ow + 2 * pw) idx = [o.getD 0 0, o.getD 1 0, o.getD 2 0 + ph, o.getD 3 0 + pw])).map t.get).sum

end Verif.Spec
