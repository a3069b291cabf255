import Verif.Spec.GroupConv

/-!
PyTorch's convolutions on channels-first tensors, and the runtime's depthwise and 3-D operators on channels-last tensors.  Independent of the converter.
-/

namespace Verif.Spec

/-- Stride, padding and dilation of one axis. -/
structure ConvAxis where
  stride : Nat
  pad : Nat
  dil : Nat

/-- `floor((len + 2 * padding - dilation * (kernel - 1) - 1) / stride) + 1`. -/
def ConvAxis.out (a : ConvAxis) (len kernel : Nat) : Nat := (len + 2 * a.pad - (a.dil * (kernel - 1) + 1)) / a.stride + 1

/-- The position kernel element `k` of output `y` reads. -/
def ConvAxis.src (a : ConvAxis) (y k : Nat) : Int := ((y * a.stride + k * a.dil : Nat) : Int) - a.pad

variable {R : Type} [Semiring R]

def biasOf (b : Option (List R)) (o : Nat) : R := (b.map (fun b => b.getD o 0)).getD 0

/-- `torch.nn.functional.conv1d`; weight `(o, i, k)` with `i` the input channels of one group. -/
def torchConv1d (a : ConvAxis) (groups : Nat) (x w : Tensor R) (b : Option (List R)) : Tensor R where
  shape := [x.size 0, w.size 0, a.out (x.size 2) (w.size 2)]
  get := fun idx =>
    let o := idx.getD 1 0
    biasOf b o + ((List.range (w.size 2)).map (fun k => ((List.range (w.size 1)).map (fun i =>
      w.get [o, i, k] * getOr x 0 [(idx.getD 0 0 : Nat), (o / (w.size 0 / groups) * w.size 1 + i : Nat), a.src (idx.getD 2 0) k])).sum)).sum

/-- `torch.nn.functional.conv2d`; weight `(o, i, ky, kx)`. -/
def torchConv2d (a₁ a₂ : ConvAxis) (groups : Nat) (x w : Tensor R) (b : Option (List R)) : Tensor R where
  shape := [x.size 0, w.size 0, a₁.out (x.size 2) (w.size 2), a₂.out (x.size 3) (w.size 3)]
  get := fun idx =>
    let o := idx.getD 1 0
    biasOf b o + ((List.range (w.size 2)).map (fun ky => ((List.range (w.size 3)).map (fun kx => ((List.range (w.size 1)).map (fun i =>
      w.get [o, i, ky, kx] * getOr x 0 [(idx.getD 0 0 : Nat), (o / (w.size 0 / groups) * w.size 1 + i : Nat), a₁.src (idx.getD 2 0) ky, a₂.src (idx.getD 3 0) kx])).sum)).sum)).sum

/-- `torch.nn.functional.conv3d` with one group; weight `(o, i, kz, ky, kx)`. -/
def torchConv3d (a₁ a₂ a₃ : ConvAxis) (x w : Tensor R) (b : Option (List R)) : Tensor R where
  shape := [x.size 0, w.size 0, a₁.out (x.size 2) (w.size 2), a₂.out (x.size 3) (w.size 3), a₃.out (x.size 4) (w.size 4)]
  get := fun idx =>
    let o := idx.getD 1 0
    biasOf b o + ((List.range (w.size 2)).map (fun kz => ((List.range (w.size 3)).map (fun ky => ((List.range (w.size 4)).map (fun kx => ((List.range (w.size 1)).map (fun i =>
      w.get [o, i, kz, ky, kx] *
        getOr x 0 [(idx.getD 0 0 : Nat), (i : Nat), a₁.src (idx.getD 2 0) kz, a₂.src (idx.getD 3 0) ky, a₃.src (idx.getD 4 0) kx])).sum)).sum)).sum)).sum

/-- Output length of a transposed convolution without dilation. -/
def deconvLen (stride pad outPad len kernel : Nat) : Nat := (len - 1) * stride + kernel + outPad - 2 * pad

/-- `torch.nn.functional.conv_transpose2d` without dilation; weight `(i, o, ky, kx)` with `o` the output channels of one group.  Output `(y, x)` receives input position `(py, px)` through
the kernel element with `py * stride + ky = y + pad`. -/
def torchDeconv2d (sH sW pH pW oH oW groups : Nat) (x w : Tensor R) (b : Option (List R)) : Tensor R where
  shape := [x.size 0, w.size 1 * groups, deconvLen sH pH oH (x.size 2) (w.size 2), deconvLen sW pW oW (x.size 3) (w.size 3)]
  get := fun idx =>
    let o := idx.getD 1 0
    let cin := w.size 0 / groups
    biasOf b o + ((List.range (w.size 2)).map (fun ky => ((List.range (w.size 3)).map (fun kx => ((List.range cin).map (fun i =>
      match deconvPos sH pH (idx.getD 2 0) ky, deconvPos sW pW (idx.getD 3 0) kx with
      | some py, some px => w.get [o / w.size 1 * cin + i, o % w.size 1, ky, kx] * getOr x 0 [(idx.getD 0 0 : Nat), (o / w.size 1 * cin + i : Nat), py, px]
      | _, _ => 0)).sum)).sum)).sum

/-- `torch.nn.functional.conv_transpose1d` without dilation; weight `(i, o, k)`. -/
def torchDeconv1d (s p op groups : Nat) (x w : Tensor R) (b : Option (List R)) : Tensor R where
  shape := [x.size 0, w.size 1 * groups, deconvLen s p op (x.size 2) (w.size 2)]
  get := fun idx =>
    let o := idx.getD 1 0
    let cin := w.size 0 / groups
    biasOf b o + ((List.range (w.size 2)).map (fun k => ((List.range cin).map (fun i =>
      match deconvPos s p (idx.getD 2 0) k with
      | some q => w.get [o / w.size 1 * cin + i, o % w.size 1, k] * getOr x 0 [(idx.getD 0 0 : Nat), (o / w.size 1 * cin + i : Nat), q]
      | none => 0)).sum)).sum

/-- DEPTHWISE_CONV_2D, VALID padding.  Input `(n, h, w, c)`, weight `(1, kh, kw, c * mult)`. -/
def depthwise2d (strideH strideW dilH dilW mult : Nat) (act : R → R) (x w : Tensor R) (b : Option (List R)) : Tensor R where
  shape := [x.size 0, validOut (x.size 1) (w.size 1) strideH dilH, validOut (x.size 2) (w.size 2) strideW dilW, w.size 3]
  get := fun idx =>
    let o := idx.getD 3 0
    act (biasOf b o + ((List.range (w.size 1)).map (fun ky => ((List.range (w.size 2)).map (fun kx =>
      w.get [0, ky, kx, o] * getOr x 0 [(idx.getD 0 0 : Nat), ((idx.getD 1 0 * strideH + ky * dilH : Nat) : Int), ((idx.getD 2 0 * strideW + kx * dilW : Nat) : Int),
        (o / mult : Nat)])).sum)).sum)

/-- CONV_3D, VALID padding.  Input `(n, d, h, w, c)`, weight `(kd, kh, kw, c, o)`. -/
def conv3d (s d : Fin 3 → Nat) (act : R → R) (x w : Tensor R) (b : Option (List R)) : Tensor R where
  shape := [x.size 0, validOut (x.size 1) (w.size 0) (s 0) (d 0), validOut (x.size 2) (w.size 1) (s 1) (d 1), validOut (x.size 3) (w.size 2) (s 2) (d 2), w.size 4]
  get := fun idx =>
    let o := idx.getD 4 0
    act (biasOf b o + ((List.range (w.size 0)).map (fun kz => ((List.range (w.size 1)).map (fun ky => ((List.range (w.size 2)).map (fun kx => ((List.range (w.size 3)).map (fun i =>
      w.get [kz, ky, kx, i, o] * getOr x 0 [(idx.getD 0 0 : Nat), ((idx.getD 1 0 * s 0 + kz * d 0 : Nat) : Int), ((idx.getD 2 0 * s 1 + ky * d 1 : Nat) : Int),
        ((idx.getD 3 0 * s 2 + kx * d 2 : Nat) : Int), (i : Nat)])).sum)).sum)).sum)).sum)

end Verif.Spec
