import Verif.Spec.Tensor
import Verif.Spec.Concat
import Verif.Spec.Broadcast
import Mathlib.Data.Int.Notation

/-! PyTorch operations that take axes, which may be counted from the end. -/

namespace Verif.Spec.AxisArg
open Verif.Spec

variable {α : Type}

/-- The axis an argument means, for a tensor with `n` axes. -/
def axisOf (n : ℕ) (d : ℤ) : Option ℕ :=
  if 0 ≤ d ∧ d < n then some d.toNat
  else if -n ≤ d ∧ d < 0 then some (d + n).toNat
  else none

/-- Exchanging two axes. -/
def swapAxes (a b j : ℕ) : ℕ := if j = a then b else if j = b then a else j

/-- `r` is `t.transpose(a, b)`: the element at a position is the one of `t` at the position with both coordinates exchanged. -/
def IsTranspose (a b : ℕ) (t r : Tensor α) : Prop :=
  r.shape.length = t.shape.length ∧ (∀ j < t.shape.length, r.shape.getD j 0 = t.shape.getD (swapAxes a b j) 0) ∧
    ∀ idx, InBounds r.shape idx → r.get idx = t.get ((List.range idx.length).map fun j => idx.getD (swapAxes a b j) 0)

/-- `r` is `t.permute(axes)`: axis `i` of the result is axis `axes[i]` of `t`. -/
def IsPermute (axes : List ℕ) (t r : Tensor α) : Prop :=
  r.shape = axes.map (fun a => t.shape.getD a 0) ∧ ∀ idx, InBounds t.shape idx → r.get (axes.map fun a => idx.getD a 0) = t.get idx

/-- TFLite's TRANSPOSE, which does not count from the end. -/
def tflTranspose (perm : List ℤ) (t : Tensor α) : Option (Tensor α) :=
  if perm.length = t.shape.length ∧ ∀ d ∈ perm, 0 ≤ d ∧ d < t.shape.length then some (transpose (perm.map Int.toNat) t) else none

/-- TFLite's CONCATENATION, which wants tensors of the same rank, and an axis of that rank. -/
def tflConcat [Inhabited α] (a : ℤ) (ts : List (Tensor α)) : Option (Tensor α) :=
  match ts with
  | [] => none
  | t :: _ => if (∀ u ∈ ts, u.shape.length = t.shape.length) ∧ 0 ≤ a ∧ a < t.shape.length then some (concat a.toNat ts) else none

/-- The tensors `torch.cat` uses: those with the shape `[0]` are left out. -/
def catParts (ts : List (Tensor α)) : List (Tensor α) := ts.filter fun t => t.shape ≠ [0]

/-- The shape tensors are broadcast to. -/
def bcAll : List (List ℕ) → Option (List ℕ)
  | [] => some []
  | s :: ss => (bcAll ss).bind fun o => bcShape s o

end Verif.Spec.AxisArg
