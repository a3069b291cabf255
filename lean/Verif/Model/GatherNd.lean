import Verif.Spec.GatherNd
import Verif.Spec.Move
import Verif.Model.PixelShuffle
import Verif.Model.AtenMove

/-!
Model of `ATenGatherOperator` and `ATenScatterOperator`, `/repo/tinynn/converter/operators/torch/aten.py` 3321-3373 and 3376-3468.  The index tensor is either
a constant (its value is then known when converting) or computed by the model (`dynamic`); in the latter case the converter only knows the traced value.
Index data types and the cast to 32 bits are left out.
-/

namespace Verif.Model
open Verif.Spec

/-- Lines 3336-3339 (3398-3401): `fake_input = npArange(size).reshape(shape)`, `fake_output = torch.gather(fake_input, dim, index)`,
`indices = torch.nonzero(fake_input >= 0)[fake_output]`; every element of `fake_input` is at least 0, so `nonzero` lists all multi-indices in row-major order. -/
def tracedIndices (s : List Nat) (dim : Nat) (index : Tensor Nat) : Tensor Nat :=
  let fakeOutput := torchGather dim index (reshape s (npArange s.prod))
  ⟨index.shape ++ [s.length], fun idx => ((allIndices s).getD (fakeOutput.get idx.dropLast) []).getD (idx.getD index.shape.length 0) 0⟩

/-- Lines 3343-3369 (3405-3431): for an index computed by the model the coordinates are split, the one of `dim` is replaced by the reshaped index and everything is
concatenated again. -/
def dynamicIndices (s : List Nat) (dim : Nat) (traced index : Tensor Nat) : Tensor Nat :=
  let perDim := splitEven index.shape.length s.length (tracedIndices s dim traced)
  concat index.shape.length (perDim.set dim (reshape (index.shape ++ [1]) index))

/-- The index operand of GATHER_ND and SCATTER_ND. -/
def indicesFor (dynamic : Bool) (s : List Nat) (dim : Nat) (traced index : Tensor Nat) : Tensor Nat :=
  if dynamic then dynamicIndices s dim traced index else tracedIndices s dim index

/-- Lines 3321-3373. -/
def convertGather {α : Type} (dynamic : Bool) (dim : Int) (traced index : Tensor Nat) (t : Tensor α) : Tensor α :=
  gatherNd (indicesFor dynamic t.shape (fixDim t.shape.length dim) traced index) t

/-- The value operand of scatter: a number or a tensor. -/
inductive ScatterSrc (α : Type)
  | num (v : α)
  | tensor (t : Tensor α)

/-- PyTorch's meaning of the value: a number stands for a tensor full of it. -/
def ScatterSrc.asTensor {α : Type} : ScatterSrc α → List Nat → Tensor α
  | .num v, s => ⟨s, fun _ => v⟩
  | .tensor t, _ => t

/-- Lines 3435-3462: an array filled with the number, or the leading part of the tensor as large as the index (SLICE, or a constant slice). -/
def fillTensor {α : Type} (src : ScatterSrc α) (indices : Tensor Nat) : Tensor α :=
  match src with
  | .num v => ⟨indices.shape.dropLast, fun _ => v⟩
  | .tensor t => (SliceOp.slice (List.replicate (indices.shape.length - 1) 0) indices.shape.dropLast).run t

/-- Lines 3376-3468; `s` is the shape of the input, which must be all zero (3379). -/
def convertScatter {α : Type} [AddCommMonoid α] (dynamic : Bool) (s : List Nat) (dim : Int) (traced index : Tensor Nat) (src : ScatterSrc α) : Tensor α :=
  let indices := indicesFor dynamic s (fixDim s.length dim) traced index
  scatterNd indices (fillTensor src indices) s

end Verif.Model
