import Verif.Spec.Tensor

/-! Meaning of TFLite's SLICE, STRIDED_SLICE and GATHER, independent of the converter. -/

namespace Verif.Spec

/-- A slicing operator; the attribute vectors have one entry per axis. -/
inductive SliceOp
  | slice (start size : List Nat)
  | strided (start stop stride : List Nat)
  deriving DecidableEq, Repr

/-- The operator is in range for a tensor of this shape. -/
def SliceOp.Valid (shape : List Nat) : SliceOp → Prop
  | .slice start size => start.length = shape.length ∧ size.length = shape.length ∧
      ∀ a < shape.length, start.getD a 0 + size.getD a 0 ≤ shape.getD a 0
  | .strided start stop stride => start.length = shape.length ∧ stop.length = shape.length ∧
      stride.length = shape.length ∧
      ∀ a < shape.length, start.getD a 0 ≤ stop.getD a 0 ∧ stop.getD a 0 ≤ shape.getD a 0 ∧ 0 < stride.getD a 0

/-- SLICE takes `size` consecutive positions from `start`; STRIDED_SLICE takes the positions
`start, start + stride, ...` below `stop` (there are `⌈(stop - start) / stride⌉` of them). -/
def SliceOp.run {α : Type} (op : SliceOp) (t : Tensor α) : Tensor α :=
  match op with
  | .slice start size =>
    { shape := size
      get := fun idx => t.get ((List.range t.shape.length).map (fun a => start.getD a 0 + idx.getD a 0)) }
  | .strided start stop stride =>
    { shape := (List.range t.shape.length).map
        (fun a => (stop.getD a 0 - start.getD a 0 + stride.getD a 0 - 1) / stride.getD a 0)
      get := fun idx => t.get ((List.range t.shape.length).map
        (fun a => start.getD a 0 + idx.getD a 0 * stride.getD a 0)) }

/-- Applying a chain of slicing operators, first one first. -/
def runSlices {α : Type} : List SliceOp → Tensor α → Tensor α
  | [], t => t
  | op :: ops, t => runSlices ops (op.run t)

/-- Every operator of the chain is in range for the tensor it is applied to. -/
def ChainValid {α : Type} : List SliceOp → Tensor α → Prop
  | [], _ => True
  | op :: ops, t => op.Valid t.shape ∧ ChainValid ops (op.run t)

/-- GATHER along axis `a` with an index vector. -/
def gather {α : Type} (a : Nat) (ix : List Nat) (t : Tensor α) : Tensor α where
  shape := t.shape.set a ix.length
  get := fun idx => t.get (idx.set a (ix.getD (idx.getD a 0) 0))

/-- A chain of gathers along one axis, first one first. -/
def runGathers {α : Type} (a : Nat) : List (List Nat) → Tensor α → Tensor α
  | [], t => t
  | ix :: rest, t => runGathers a rest (gather a ix t)

/-- Every index vector of the chain is in range: the first for an axis of size `d`, each later one for
the length of the one before it. -/
def GathersValid (d : Nat) : List (List Nat) → Prop
  | [] => True
  | ix :: rest => (∀ k ∈ ix, k < d) ∧ GathersValid ix.length rest

end Verif.Spec
