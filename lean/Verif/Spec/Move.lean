import Verif.Spec.AxisOps
import Verif.Spec.Slice

/-! PyTorch's operators that only move elements (roll, flip, chunk, split, select, stack, unbind), and TFLite's SPLIT_V and REVERSE_V2. -/

namespace Verif.Spec

/-- A dimension argument: negative values count from the end. -/
def normDim (rank : Nat) (d : Int) : Nat := (if d < 0 then d + rank else d).toNat

/-- The shift of axis `a` demanded by the pairs of shifts and axes: an axis that is named several times is shifted by the sum. -/
def totalShift (ps : List (Int × Nat)) (a : Nat) : Int := ((ps.filter (fun p => p.2 = a)).map Prod.fst).sum

/-- `torch.roll(t, shifts, dims)`: the element at position `i` of axis `a` comes from position `i - shift` modulo the size of the axis. -/
def torchRoll {α : Type} (ps : List (Int × Nat)) (t : Tensor α) : Tensor α where
  shape := t.shape
  get := fun idx => t.get ((List.range t.shape.length).map (fun a => ((((idx.getD a 0 : Nat) : Int) - totalShift ps a) % ((t.shape.getD a 0 : Nat) : Int)).toNat))

/-- `torch.roll(t, shift)` without dimensions: the elements in row-major order are rolled, the shape is kept. -/
def torchRollFlat {α : Type} (shift : Int) (t : Tensor α) : Tensor α where
  shape := t.shape
  get := fun idx => t.get (unflat t.shape ((((flat t.shape idx : Nat) : Int) - shift) % ((t.shape.prod : Nat) : Int)).toNat)

/-- `torch.flip(t, dims)`. -/
def torchFlip {α : Type} (dims : List Nat) (t : Tensor α) : Tensor α where
  shape := t.shape
  get := fun idx => t.get ((List.range t.shape.length).map (fun a => if a ∈ dims then t.shape.getD a 0 - 1 - idx.getD a 0 else idx.getD a 0))

/-- REVERSE_V2 along one axis. -/
def reverseAxis {α : Type} (a : Nat) (t : Tensor α) : Tensor α := ⟨t.shape, fun idx => t.get (idx.set a (t.shape.getD a 0 - 1 - idx.getD a 0))⟩

/-- SPLIT_V along axis `a` into consecutive pieces of the given sizes. -/
def splitV {α : Type} (a : Nat) (sizes : List Nat) (t : Tensor α) : List (Tensor α) :=
  (List.range sizes.length).map (fun i => splitPart a (sizes.take i).sum (sizes.getD i 0) t)

/-- SPLIT along axis `a` in `n` equal parts. -/
def splitEven {α : Type} (a n : Nat) (t : Tensor α) : List (Tensor α) := (List.range n).map (split a n t)

/-- `torch.split(t, size, dim)`: pieces of `size` positions, the last one shorter if they do not divide the axis (an empty axis gives one empty piece). -/
def torchSplit {α : Type} (a size : Nat) (t : Tensor α) : List (Tensor α) :=
  (List.range (max 1 ((t.shape.getD a 0 + size - 1) / size))).map (fun k => splitPart a (k * size) (min size (t.shape.getD a 0 - k * size)) t)

/-- `torch.chunk(t, chunks, dim)`: pieces of `⌈n / chunks⌉` positions. -/
def torchChunk {α : Type} (a chunks : Nat) (t : Tensor α) : List (Tensor α) := torchSplit a ((t.shape.getD a 0 + chunks - 1) / chunks) t

end Verif.Spec
