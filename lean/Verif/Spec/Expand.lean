import Verif.Spec.Broadcast
import Verif.Spec.AxisOps

/-! `torch.Tensor.expand`, `repeat` and `repeat_interleave`. -/

namespace Verif.Spec

/-- A tensor of shape `s` can be expanded to shape `out`: the last axes agree or have size 1. -/
def ExpandOk (s out : List Nat) : Prop := s.length ≤ out.length ∧ List.Forall₂ (fun d o => d = o ∨ d = 1) s (out.drop (out.length - s.length))

/-- `t.expand(out)`. -/
def torchExpand {α : Type} (out : List Nat) (t : Tensor α) : Tensor α := ⟨out, bcGet t⟩

/-- `t.repeat(m)`, with at least as many counts as axes: missing leading axes have size 1, and the position in the original is the remainder. -/
def torchRepeat {α : Type} (m : List Nat) (t : Tensor α) : Tensor α where
  shape := List.zipWith (· * ·) (List.replicate (m.length - t.shape.length) 1 ++ t.shape) m
  get := fun idx => t.get (List.zipWith (· % ·) (idx.drop (m.length - t.shape.length)) t.shape)

/-- `r` is `t.repeat_interleave(rs, dim)`: position `j` of the axis occurs `rs[j]` times in a row. -/
def IsInterleave {α : Type} (rs : List Nat) (dim : Nat) (t r : Tensor α) : Prop :=
  r.shape = t.shape.set dim rs.sum ∧
  ∀ idx j, InBounds r.shape idx → j < rs.length → (rs.take j).sum ≤ idx.getD dim 0 → idx.getD dim 0 < (rs.take (j + 1)).sum → r.get idx = t.get (idx.set dim j)

/-- `torch.repeat_interleave(rs)` without a tensor: the indices `0` (`rs[0]` times), `1` (`rs[1]` times), ... -/
def IsInterleaveIndices (rs : List Nat) (r : Tensor Nat) : Prop :=
  r.shape = [rs.sum] ∧ ∀ k j, k < rs.sum → j < rs.length → (rs.take j).sum ≤ k → k < (rs.take (j + 1)).sum → r.get [k] = j

end Verif.Spec
