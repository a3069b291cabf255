import Verif.Spec.Broadcast
import Mathlib.Data.Rat.Defs
import Mathlib.Algebra.Order.Ring.Rat
import Mathlib.Algebra.Order.Group.Unbundled.Abs
/-!
Stored tensors, nested Python lists, loading of state dictionaries, and comparing outputs.  Independent of the tracer.
-/

namespace Verif.Spec.CodeFiles

/-- A number in a tensor. -/
inductive Elt where
  | num (x : ℚ)
  | inf (negative : Bool)
  | nan
  deriving DecidableEq

/-- A tensor as it is stored: shape and elements in row-major order. -/
structure Arr where
  shape : List Nat
  data : List Elt
  deriving DecidableEq

/-- There is one element for each position. -/
def Arr.Full (a : Arr) : Prop := a.data.length = a.shape.prod

/-- Nested Python lists of a depth. -/
def Nested : Nat → Type
  | 0 => Elt
  | n + 1 => List (Nested n)

/-- `tensor.tolist()`: `d` rows, each of as many elements as the other sizes say. -/
def toList : (shape : List Nat) → List Elt → Nested shape.length
  | [], data => (data.headD .nan : Elt)
  | d :: s, data => ((List.range d).map fun i => toList s ((data.drop (i * s.prod)).take s.prod) : List (Nested s.length))

/-- The shape `torch.tensor` finds in nested lists: it looks at the first element on each level. -/
def shapeOf : (n : Nat) → Nested n → List Nat
  | 0, _ => []
  | n + 1, l => match (l : List (Nested n)) with
    | [] => [0]
    | x :: xs => (xs.length + 1) :: shapeOf n x

/-- All numbers in nested lists. -/
def flatten : (n : Nat) → Nested n → List Elt
  | 0, e => [e]
  | n + 1, l => (l : List (Nested n)).flatMap (flatten n)

/-- `torch.tensor(nested)`. -/
def ofList (n : Nat) (l : Nested n) : Arr := ⟨shapeOf n l, flatten n l⟩

/-- The name of an entry of a state dictionary: a parameter of the model itself (`none`), or one of a submodule. -/
abbrev Key := String × Option String

/-- `load_state_dict` with `strict=True`: the names have to be the same and the shapes too; `none` is the RuntimeError. -/
def load (model saved : List (Key × Arr)) : Option (List (Key × Arr)) :=
  if (∀ e ∈ model, ∃ a, saved.lookup e.1 = some a ∧ a.shape = e.2.shape) ∧ ∀ e ∈ saved, e.1 ∈ model.map Prod.fst
  then some (model.map fun e => (e.1, (saved.lookup e.1).getD e.2))
  else none

instance (model saved : List (Key × Arr)) : Decidable ((∀ e ∈ model, ∃ a, saved.lookup e.1 = some a ∧ a.shape = e.2.shape) ∧ ∀ e ∈ saved, e.1 ∈ model.map Prod.fst) := by
  have : ∀ e : Key × Arr, Decidable (∃ a, saved.lookup e.1 = some a ∧ a.shape = e.2.shape) := fun e =>
    match h : saved.lookup e.1 with
    | none => isFalse (by simp)
    | some a => if h' : a.shape = e.2.shape then isTrue ⟨a, rfl, h'⟩ else isFalse (by simpa using h')
  infer_instance

/-- Two numbers are close, by the standards of `numpy.allclose`. -/
def Elt.Close : Elt → Elt → Prop
  | .num x, .num y => |x - y| ≤ 1 / 10 ^ 8 + 1 / 10 ^ 5 * |y|
  | .inf s, .inf t => s = t
  | _, _ => False

/-- `numpy.allclose`: the tensors are broadcast against each other; `none` is the ValueError. -/
def allclose (a b : Tensor Elt) : Option Prop := (bcShape a.shape b.shape).map fun s => ∀ idx, InBounds s idx → (bcGet a idx).Close (bcGet b idx)

/-- Two tensors agree: one shape, and close numbers everywhere. -/
def Agree (a b : Tensor Elt) : Prop := a.shape = b.shape ∧ ∀ idx, InBounds a.shape idx → (a.get idx).Close (b.get idx)

end Verif.Spec.CodeFiles
