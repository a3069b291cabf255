import Verif.Spec.TorchConv

/-!
Transposed 3-D convolution, with dilation: as PyTorch defines it (channels first) and as the TFLite operator CONV_3D_TRANSPOSE does (channels last, output shape as an operand).
-/

namespace Verif.Spec

variable {R : Type} [Semiring R]

/-- One axis of a transposed convolution. -/
structure DeconvAxis where
  stride : Nat
  pad : Nat
  outPad : Nat
  dil : Nat

/-- Length of the output along an axis: PyTorch's formula `(n - 1) * stride - 2 * pad + dil * (k - 1) + 1 + outPad`. -/
def DeconvAxis.len (a : DeconvAxis) (n k : Nat) : Nat := (n - 1) * a.stride + a.dil * (k - 1) + 1 + a.outPad - 2 * a.pad

/-- The input position that output `y` receives through kernel element `k`: the `p` with `p * stride + k * dil = y + pad`, if there is one. -/
def DeconvAxis.src (a : DeconvAxis) (y k : Nat) : Option Int :=
  if ((y : Int) + a.pad - k * a.dil) % a.stride = 0 then some (((y : Int) + a.pad - k * a.dil) / a.stride) else none

/-- `torch.nn.functional.conv_transpose3d`; weight `(i, o, kz, ky, kx)`. -/
def torchDeconv3d (a₁ a₂ a₃ : DeconvAxis) (x w : Tensor R) (b : Option (List R)) : Tensor R where
  shape := [x.size 0, w.size 1, a₁.len (x.size 2) (w.size 2), a₂.len (x.size 3) (w.size 3), a₃.len (x.size 4) (w.size 4)]
  get := fun idx =>
    let o := idx.getD 1 0
    biasOf b o + ((List.range (w.size 2)).map (fun kz => ((List.range (w.size 3)).map (fun ky => ((List.range (w.size 4)).map (fun kx => ((List.range (w.size 0)).map (fun i =>
      match a₁.src (idx.getD 2 0) kz, a₂.src (idx.getD 3 0) ky, a₃.src (idx.getD 4 0) kx with
      | some pz, some py, some px => w.get [i, o, kz, ky, kx] * getOr x 0 [(idx.getD 0 0 : Nat), (i : Nat), pz, py, px]
      | _, _, _ => 0)).sum)).sum)).sum)).sum

/-- CONV_3D_TRANSPOSE, VALID padding, output shape `os`.  Input `(n, d, h, w, c)`, weight `(kd, kh, kw, o, i)`; strides and dilations of the three axes. -/
def deconv3d (s d : Fin 3 → Nat) (act : R → R) (os : List Nat) (w x : Tensor R) (b : Option (List R)) : Tensor R where
  shape := os
  get := fun idx =>
    let o := idx.getD 4 0
    act (biasOf b o + ((List.range (w.size 0)).map (fun kz => ((List.range (w.size 1)).map (fun ky => ((List.range (w.size 2)).map (fun kx => ((List.range (w.size 4)).map (fun i =>
      match deconvPos (s 0) 0 (idx.getD 1 0) (kz * d 0), deconvPos (s 1) 0 (idx.getD 2 0) (ky * d 1), deconvPos (s 2) 0 (idx.getD 3 0) (kx * d 2) with
      | some pz, some py, some px => w.get [kz, ky, kx, o, i] * getOr x 0 [(idx.getD 0 0 : Nat), pz, py, px, (i : Nat)]
      | _, _, _ => 0)).sum)).sum)).sum)).sum)

end Verif.Spec
