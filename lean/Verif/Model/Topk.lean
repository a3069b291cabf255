import Verif.Spec.Topk

/-!
Model of the conversion of `torch.topk` (`/repo/tinynn/converter/operators/torch/aten.py` 4132-4146).
-/

namespace Verif.Model.Topk

/-- The operator that is written: TOPK_V2 with its second operand. -/
structure TopkV2 where
  k : Nat
  deriving DecidableEq

/-- `parse` (aten.py:4137-4146): `none` is a failed assertion. -/
def convert (ndim : Nat) (k : Nat) (dim : Int) (largest sorted : Bool) : Option TopkV2 :=
  if (dim = (ndim : Int) - 1 ∨ dim = -1) ∧ largest = true ∧ sorted = true then some ⟨k⟩ else none

variable {α : Type} [LinearOrder α]

/-- The order TOPK_V2 sorts by: larger elements first, equal ones in the order of their places. -/
def before (a b : α × Nat) : Bool := decide (b.1 < a.1 ∨ (b.1 = a.1 ∧ a.2 ≤ b.2))

/-- TOPK_V2 on a row: elements and places. -/
def TopkV2.run (op : TopkV2) (row : List α) : List (α × Nat) := (row.zipIdx.mergeSort before).take op.k

end Verif.Model.Topk
