import Verif.Spec.Unfold
import Verif.Spec.GatherNd
import Verif.Model.PixelShuffle

/-!
Model of `ATenIm2colOperator` and `ATenCol2imOperator`, `/repo/tinynn/converter/operators/torch/aten.py` 4416-4500, for batched inputs.  Each function gives the tensor the
emitted operators compute.
-/

namespace Verif.Model
open Verif.Spec

/-- A natural number stored in 32-bit floating point: exact below 2^24, then rounded to 24 significant bits, ties to even. -/
def roundF32 (n : Nat) : Nat :=
  if n < 2 ^ 24 then n
  else
    let u := 2 ^ (Nat.log2 n - 23)
    (if 2 * (n % u) < u ∨ (2 * (n % u) = u ∧ n / u % 2 = 0) then n / u else n / u + 1) * u

/-- Lines 4440, 4473: `torch.arange(0.0, size).reshape(shape)`, whose elements are 32-bit floating-point numbers. -/
def fakeImage (s : List Nat) : Tensor Nat := reshape s ⟨[s.prod], fun idx => roundF32 (idx.getD 0 0)⟩

/-- Lines 4444, 4482: `torch.nonzero(fake_input >= 0)[fake_output]`: every element is at least 0, so `nonzero` lists all multi-indices in row-major order. -/
def lookupIndices (s : List Nat) (fakeOutput : Tensor Nat) : Tensor Nat :=
  ⟨fakeOutput.shape ++ [s.length], fun idx => ((allIndices s).getD (fakeOutput.get idx.dropLast) []).getD (idx.getD fakeOutput.shape.length 0) 0⟩

/-- Lines 4430-4432: `orig_pad = [[ph, ph], [pw, pw]]`, zeros for the other axes behind it, flipped: the pad rows from the first axis to the last. -/
def unfoldPads (ndim ph pw : Nat) : List Nat := ([ph, pw] ++ List.replicate (ndim - 2) 0).reverse

/-- Lines 4416-4446: PAD and GATHER_ND; the index table is that of the image padded by `ph` and `pw`. -/
def convertUnfold {α : Type} [Zero α] (p : Patch) (ph pw : Nat) (t : Tensor α) : Tensor α :=
  let padded := pad (unfoldPads t.shape.length ph pw) (unfoldPads t.shape.length ph pw) 0 t
  let inter := [t.shape.getD 0 0, t.shape.getD 1 0, t.shape.getD 2 0 + 2 * ph, t.shape.getD 3 0 + 2 * pw]
  gatherNd (lookupIndices inter (unfold p 0 0 (fakeImage inter))) padded

/-- Lines 4449-4500: SCATTER_ND into a zero image with its padding, then a GATHER_ND that drops the padding. -/
def convertFold {α : Type} [AddCommMonoid α] (p : Patch) (oh ow ph pw : Nat) (t : Tensor α) : Tensor α :=
  let s := [t.shape.getD 0 0, t.shape.getD 1 0 / (p.kh * p.kw), oh + 2 * ph, ow + 2 * pw]
  let image := scatterNd (lookupIndices s (unfold p 0 0 (fakeImage s))) t s
  let inner : Tensor Nat := ⟨[t.shape.getD 0 0, t.shape.getD 1 0 / (p.kh * p.kw), oh, ow],
    fun o => (fakeImage s).get [o.getD 0 0, o.getD 1 0, o.getD 2 0 + ph, o.getD 3 0 + pw]⟩
  gatherNd (lookupIndices s inner) image

end Verif.Model
