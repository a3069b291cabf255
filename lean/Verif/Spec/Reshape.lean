import Verif.Spec.Tensor

/-! RESHAPE with a shape tensor that may contain one `-1` (TFLite semantics). -/

namespace Verif.Spec

/-- Product of the given (non-negative) entries of a shape tensor. -/
def knownProduct (arg : List Int) : Nat := ((arg.filter (fun d => 0 ≤ d)).map Int.toNat).prod

/-- The concrete shape: a `-1` entry gets whatever is left of the element count. -/
def resolveShape (total : Nat) (arg : List Int) : List Nat :=
  arg.map (fun d => if d < 0 then total / knownProduct arg else d.toNat)

/-- RESHAPE by a shape tensor; fails (none) when the element count does not fit. -/
def reshapeOp {α : Type} (arg : List Int) (t : Tensor α) : Option (Tensor α) :=
  let s := resolveShape t.shape.prod arg
  if s.prod = t.shape.prod then some (reshape s t) else none

/-- A chain of RESHAPE operators. -/
def reshapeChain {α : Type} : List (List Int) → Tensor α → Option (Tensor α)
  | [], t => some t
  | a :: as, t => (reshapeOp a t).bind (reshapeChain as)

end Verif.Spec
