import Mathlib.Order.Defs.LinearOrder

/-!
Specification for C166: the `k` largest elements of a row.
-/

namespace Verif.Spec.Topk

variable {α : Type} [LinearOrder α]

/-- What `torch.topk` may return for a row: `k` different places, the elements there from the largest to the smallest, and no other element is larger than one of them.  Which of
several equal elements is taken, and their order, is not specified. -/
structure Largest (row : List α) (k : Nat) (vals : List α) (idx : List Nat) : Prop where
  count : vals.length = k
  places : idx.Nodup
  elems : vals.map some = idx.map (fun i => row[i]?)
  ordered : vals.Pairwise (fun a b => b ≤ a)
  rest : ∀ j v, row[j]? = some v → j ∉ idx → ∀ u ∈ vals, v ≤ u

end Verif.Spec.Topk
