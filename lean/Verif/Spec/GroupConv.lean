import Verif.Spec.Window
import Verif.Spec.Concat

/-!
2-D convolution and transposed convolution on NHWC tensors, with groups, as the runtime that accepts grouped operators defines
them.  The number of groups follows from the shapes.  Independent of the converter.
-/

namespace Verif.Spec

/-- Attributes shared by the operators; `same` is SAME padding, otherwise VALID. -/
structure ConvAttrs where
  strideH : Nat
  strideW : Nat
  dilH : Nat
  dilW : Nat
  same : Bool

variable {R : Type} [Semiring R]

/-- Output length and padding in front of one spatial axis. -/
def convOutLen (same : Bool) (input kernel stride dilation : Nat) : Nat :=
  if same then sameOut input stride else validOut input kernel stride dilation
def convPadBefore (same : Bool) (input kernel stride dilation : Nat) : Nat :=
  if same then samePadBefore input kernel stride dilation else 0

/-- CONV_2D.  Input `(n, h, w, c)`, weight `(o, kh, kw, i)` with `i` the input channels of one group; the `c / i` groups divide
both the input and the output channels in consecutive blocks.  `act` is the fused activation. -/
def conv2d (att : ConvAttrs) (act : R → R) (x w : Tensor R) (b : Option (List R)) : Tensor R where
  shape := [x.size 0, convOutLen att.same (x.size 1) (w.size 1) att.strideH att.dilH,
    convOutLen att.same (x.size 2) (w.size 2) att.strideW att.dilW, w.size 0]
  get := fun idx =>
    let o := idx.getD 3 0
    let cin := w.size 3
    let grp := o / (w.size 0 / (x.size 3 / cin))
    act ((b.map (fun b => b.getD o 0)).getD 0 +
      ((List.range (w.size 1)).map (fun ky => ((List.range (w.size 2)).map (fun kx => ((List.range cin).map (fun i =>
        w.get [o, ky, kx, i] * getOr x 0 [(idx.getD 0 0 : Nat),
          ((idx.getD 1 0 * att.strideH + ky * att.dilH : Nat) : Int)
            - convPadBefore att.same (x.size 1) (w.size 1) att.strideH att.dilH,
          ((idx.getD 2 0 * att.strideW + kx * att.dilW : Nat) : Int)
            - convPadBefore att.same (x.size 2) (w.size 2) att.strideW att.dilW,
          (grp * cin + i : Nat)])).sum)).sum)).sum)

/-- Position of the input that output `p` of a transposed convolution receives through kernel position `k`, if any. -/
def deconvPos (stride padBefore p k : Nat) : Option Int :=
  if ((p + padBefore : Nat) - (k : Int)) % stride = 0 then some (((p + padBefore : Nat) - (k : Int)) / stride) else none

/-- TRANSPOSE_CONV with output shape `os`.  Input `(n, h, w, c)`, weight `(o, kh, kw, i)` with `o` the output channels of one group
and `i` all input channels; padding in front `padH`, `padW`.  `act` is the fused activation. -/
def deconv2d (strideH strideW padH padW : Nat) (act : R → R) (os : List Nat) (w x : Tensor R) (b : Option (List R)) :
    Tensor R where
  shape := os
  get := fun idx =>
    let o := idx.getD 3 0
    let cin := x.size 3 / (os.getD 3 0 / w.size 0)
    let grp := o / w.size 0
    act ((b.map (fun b => b.getD o 0)).getD 0 +
      ((List.range (w.size 1)).map (fun ky => ((List.range (w.size 2)).map (fun kx => ((List.range cin).map (fun i =>
        match deconvPos strideH padH (idx.getD 1 0) ky, deconvPos strideW padW (idx.getD 2 0) kx with
        | some py, some px => w.get [o % w.size 0, ky, kx, grp * cin + i] *
            getOr x 0 [(idx.getD 0 0 : Nat), py, px, (grp * cin + i : Nat)]
        | _, _ => 0)).sum)).sum)).sum)

end Verif.Spec
