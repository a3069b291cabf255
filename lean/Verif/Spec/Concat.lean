import Verif.Spec.Tensor

/-! Meaning of CONCATENATION and SPLIT along an axis, and of a straight-line program of tensor operators. -/

namespace Verif.Spec

/-- Size along axis `a`. -/
def Tensor.size {α : Type} (t : Tensor α) (a : Nat) : Nat := t.shape.getD a 0

/-- The element at position `x` of axis `a` of the concatenation: in the first tensor if `x` is below its size, otherwise in the
rest, counted from there. -/
def concatGet {α : Type} [Inhabited α] (a : Nat) : List (Tensor α) → Nat → List Nat → α
  | [], _, _ => default
  | t :: ts, x, idx => if x < t.size a then t.get (idx.set a x) else concatGet a ts (x - t.size a) idx

/-- CONCATENATION along axis `a`. -/
def concat {α : Type} [Inhabited α] (a : Nat) (ts : List (Tensor α)) : Tensor α where
  shape := match ts with
    | [] => []
    | t :: _ => t.shape.set a (ts.map (fun u => u.size a)).sum
  get := fun idx => concatGet a ts (idx.getD a 0) idx

/-- Part `k` of SPLIT along axis `a` in `n` equal parts. -/
def split {α : Type} (a n : Nat) (t : Tensor α) (k : Nat) : Tensor α where
  shape := t.shape.set a (t.size a / n)
  get := fun idx => t.get (idx.set a (k * (t.size a / n) + idx.getD a 0))

/-- NumPy's requirement for concatenation: a common rank containing the axis, and equal sizes on the other axes. -/
def Concatenable {α : Type} (a : Nat) (ts : List (Tensor α)) : Prop :=
  ∃ s : List Nat, a < s.length ∧ ∀ t ∈ ts, t.shape = s.set a (t.size a)

end Verif.Spec
