/-!
Specification for C143: what an integer written in the file for the output of an operator has to denote.
-/

namespace Verif.Spec.UnusedOutputs

/-- `i` is the index of the tensor `x`: the tensor table has `x` at position `i`. -/
def Own {α : Type} (tensors : List α) (i : Int) (x : α) : Prop := ∃ k : Nat, i = k ∧ tensors[k]? = some x

/-- `i` is the index of a tensor other than `x`, and `x` itself is not in the table: an operator that is told to write `x` at `i`
writes over another value. -/
def Overwrites {α : Type} (tensors : List α) (i : Int) (x : α) : Prop :=
  x ∉ tensors ∧ ∃ (k : Nat) (y : α), i = k ∧ tensors[k]? = some y ∧ y ≠ x

/-- `order` lists the elements of the set `s`, each once, in some order: how Python runs through a set. -/
def Enumerates {α : Type} (order s : List α) : Prop := order.Nodup ∧ ∀ x, x ∈ order ↔ x ∈ s

end Verif.Spec.UnusedOutputs
