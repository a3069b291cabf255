import Verif.Spec.Tensor
import Mathlib.Data.Rat.Floor
import Mathlib.Algebra.Order.Field.Rat

/-! Nearest-neighbour and bilinear resizing of `N x C x H x W` (PyTorch) and `N x H x W x C` (TFLite) images, over the rational numbers (the rounding of the source positions in
floating point is left out). -/

namespace Verif.Spec

/-- The requested size of a spatial axis: an output size or a scale factor. -/
inductive AxisSize
  | size (o : Nat)
  | factor (f : ℚ)

/-- The output size for an axis of size `n`. -/
def AxisSize.out (n : Nat) : AxisSize → Nat
  | .size o => o
  | .factor f => ⌊(n : ℚ) * f⌋.toNat

/-- The step PyTorch makes in the source per output pixel: the ratio of the sizes, or the inverse of the given factor. -/
def AxisSize.step (n : Nat) : AxisSize → ℚ
  | .size o => (n : ℚ) / o
  | .factor f => 1 / f

/-- `torch.nn.functional.interpolate(mode="nearest")`: output pixel `i` of an axis of size `n` reads source pixel `min(floor(i * step), n - 1)`. -/
def nearestTorch {α : Type} (h w : AxisSize) (t : Tensor α) : Tensor α where
  shape := [t.shape.getD 0 0, t.shape.getD 1 0, h.out (t.shape.getD 2 0), w.out (t.shape.getD 3 0)]
  get := fun idx =>
    let src := fun (z : AxisSize) (n i : Nat) => min ⌊(i : ℚ) * z.step n⌋.toNat (n - 1)
    t.get [idx.getD 0 0, idx.getD 1 0, src h (t.shape.getD 2 0) (idx.getD 2 0), src w (t.shape.getD 3 0) (idx.getD 3 0)]

/-- RESIZE_NEAREST_NEIGHBOR to `oh x ow` without aligned corners or half-pixel centers. -/
def nearestTfl {α : Type} (oh ow : Nat) (t : Tensor α) : Tensor α where
  shape := [t.shape.getD 0 0, oh, ow, t.shape.getD 3 0]
  get := fun idx =>
    let src := fun (n o i : Nat) => min ⌊(i : ℚ) * ((n : ℚ) / o)⌋.toNat (n - 1)
    t.get [idx.getD 0 0, src (t.shape.getD 1 0) oh (idx.getD 1 0), src (t.shape.getD 2 0) ow (idx.getD 2 0), idx.getD 3 0]

/-- The two source pixels of an output pixel along an axis and the weight of the second. -/
structure Lerp where
  i0 : Nat
  i1 : Nat
  w : ℚ

/-- The interpolated value of `g` along one axis. -/
def Lerp.value (l : Lerp) (g : Nat → ℚ) : ℚ := (1 - l.w) * g l.i0 + l.w * g l.i1

/-- PyTorch's bilinear sampling along an axis of size `n`: equal sizes are copied; otherwise the source position is `i (n - 1) / (o - 1)` with aligned corners and
`max(0, (i + 1/2) step - 1/2)` without, the second pixel is the next one unless at the border. -/
def lerpTorch (align : Bool) (z : AxisSize) (n i : Nat) : Lerp :=
  let o := z.out n
  if o = n then ⟨i, i, 0⟩
  else
    let src : ℚ := if align then (if 1 < o then (i : ℚ) * (((n : ℚ) - 1) / ((o : ℚ) - 1)) else 0) else max 0 (((i : ℚ) + 1 / 2) * z.step n - 1 / 2)
    let i0 := min ⌊src⌋.toNat (n - 1)
    ⟨i0, i0 + (if i0 < n - 1 then 1 else 0), min (max (src - i0) 0) 1⟩

/-- TFLite's sampling of RESIZE_BILINEAR. -/
def lerpTfl (align half : Bool) (n o i : Nat) : Lerp :=
  let step : ℚ := if align ∧ 1 < o then ((n : ℚ) - 1) / ((o : ℚ) - 1) else (n : ℚ) / o
  let v : ℚ := if half then ((i : ℚ) + 1 / 2) * step - 1 / 2 else (i : ℚ) * step
  ⟨(max ⌊v⌋ 0).toNat, (min ⌈v⌉ ((n : ℤ) - 1)).toNat, v - max ⌊v⌋ 0⟩

/-- `torch.nn.functional.interpolate(mode="bilinear")`. -/
def bilinearTorch (align : Bool) (h w : AxisSize) (t : Tensor ℚ) : Tensor ℚ where
  shape := [t.shape.getD 0 0, t.shape.getD 1 0, h.out (t.shape.getD 2 0), w.out (t.shape.getD 3 0)]
  get := fun idx => (lerpTorch align h (t.shape.getD 2 0) (idx.getD 2 0)).value (fun y =>
    (lerpTorch align w (t.shape.getD 3 0) (idx.getD 3 0)).value (fun x => t.get [idx.getD 0 0, idx.getD 1 0, y, x]))

/-- RESIZE_BILINEAR to `oh x ow`. -/
def bilinearTfl (align half : Bool) (oh ow : Nat) (t : Tensor ℚ) : Tensor ℚ where
  shape := [t.shape.getD 0 0, oh, ow, t.shape.getD 3 0]
  get := fun idx => (lerpTfl align half (t.shape.getD 1 0) oh (idx.getD 1 0)).value (fun y =>
    (lerpTfl align half (t.shape.getD 2 0) ow (idx.getD 2 0)).value (fun x => t.get [idx.getD 0 0, y, x, idx.getD 3 0]))

end Verif.Spec
