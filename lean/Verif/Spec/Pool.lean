import Verif.Spec.Window

/-!
PyTorch's pooling: output length with floor and ceil mode, and the pooled values.  After PyTorch's documentation of `MaxPool2d`: "when ceil_mode=True,
sliding windows are allowed to go off-bounds if they start within the left padding or the input".  Independent of the converter.
-/

namespace Verif.Spec

/-- Output length of a pooling with kernel `k`, stride `s` and padding `p` (for inputs of at least the kernel's size after padding). -/
def torchPoolOut (ceil : Bool) (i k s p : Nat) : Nat :=
  let o := (i + 2 * p - k + (if ceil then s - 1 else 0)) / s + 1
  if ceil && decide (i + p ≤ (o - 1) * s) then o - 1 else o

/-- Max pooling in PyTorch: the maximum over the window positions inside the input. -/
def maxPoolTorch {R : Type} [LinearOrder R] (ceil : Bool) (lowest : R) (w : Window) (pad : Nat → Nat) (x : Tensor R) : Tensor R where
  shape := (List.range x.shape.length).map (fun a => torchPoolOut ceil (x.shape.getD a 0) (w.kernel a) (w.stride a) (pad a))
  get := fun o => (((kernelIdx w.kernel x.shape.length).map (fun κ => readPos w pad x.shape.length o κ)).filter
    (fun pos => inside x pos)).map (fun pos => x.get (pos.map Int.toNat)) |>.foldl max lowest

end Verif.Spec
