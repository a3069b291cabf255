import Verif.Spec.GatherNd
import Verif.Spec.Broadcast
import Verif.Spec.Move

/-! Indexing a tensor with integer tensors, as PyTorch and NumPy define it, and TFLite's GATHER and GATHER_ND with out-of-range indices rejected. -/

namespace Verif.Spec

/-- The index is one of an axis of size `n`; negative values count from the end. -/
def IndexIn (n : Nat) (v : Int) : Prop := -(n : Int) ≤ v ∧ v < n

/-- `t[x_0, ..., x_{m-1}]` with integer tensors that broadcast to the shape `B`: the indexed axes are replaced by `B`. -/
def torchIndex {α : Type} (B : List Nat) (xs : List (Tensor Int)) (t : Tensor α) : Tensor α where
  shape := B ++ t.shape.drop xs.length
  get := fun idx => t.get ((List.range xs.length).map (fun i => normDim (t.shape.getD i 0) (bcGet (xs.getD i ⟨[], fun _ => 0⟩) (idx.take B.length))) ++ idx.drop B.length)

/-- `t[:, ..., :, x]` with one integer tensor in place `d`: axis `d` is replaced by the shape of `x`. -/
def torchIndexAt {α : Type} (d : Nat) (x : Tensor Int) (t : Tensor α) : Tensor α where
  shape := t.shape.take d ++ x.shape ++ t.shape.drop (d + 1)
  get := fun idx => t.get (idx.take d ++ [normDim (t.shape.getD d 0) (x.get ((idx.drop d).take x.shape.length))] ++ idx.drop (d + x.shape.length))

/-- GATHER along axis `d` with an index tensor; the interpreter rejects an index outside the axis. -/
def tflGather {α : Type} (d : Nat) (x : Tensor Int) (t : Tensor α) : Option (Tensor α) :=
  if (allIndices x.shape).all (fun j => decide (0 ≤ x.get j ∧ x.get j < (t.shape.getD d 0 : Int))) then
    some ⟨t.shape.take d ++ x.shape ++ t.shape.drop (d + 1),
      fun idx => t.get (idx.take d ++ [(x.get ((idx.drop d).take x.shape.length)).toNat] ++ idx.drop (d + x.shape.length))⟩
  else none

/-- The index vector is inside the shape. -/
def vectorOk (s : List Nat) (v : List Int) : Bool := (List.range s.length).all (fun a => decide (0 ≤ v.getD a 0 ∧ v.getD a 0 < (s.getD a 0 : Int)))

/-- Row `idx` of a tensor of index vectors. -/
def rowVector (r : Nat) (indices : Tensor Int) (idx : List Nat) : List Int := (List.range r).map (fun k => indices.get (idx ++ [k]))

/-- GATHER_ND with index vectors of full rank; the interpreter rejects a vector outside the tensor. -/
def tflGatherNd {α : Type} (indices : Tensor Int) (t : Tensor α) : Option (Tensor α) :=
  if (allIndices indices.shape.dropLast).all (fun idx => vectorOk t.shape (rowVector t.shape.length indices idx)) then
    some ⟨indices.shape.dropLast, fun idx => t.get ((rowVector t.shape.length indices idx).map Int.toNat)⟩
  else none

/-- The element addressed by `idx` in `t[x_0, ..., x_{m-1}]`. -/
def indexTarget (B s : List Nat) (xs : List (Tensor Int)) (idx : List Nat) : List Nat :=
  (List.range xs.length).map (fun i => normDim (s.getD i 0) (bcGet (xs.getD i ⟨[], fun _ => 0⟩) (idx.take B.length))) ++ idx.drop B.length

/-- `out` is a result of `t[x_0, ..., x_{m-1}] = v`: an addressed element has the (broadcast) value of one of the positions addressing it, every other element is unchanged. -/
def IsIndexPut {α : Type} (B : List Nat) (xs : List (Tensor Int)) (v t out : Tensor α) : Prop :=
  out.shape = t.shape ∧ ∀ p, InBounds t.shape p →
    (∃ idx, InBounds (B ++ t.shape.drop xs.length) idx ∧ indexTarget B t.shape xs idx = p ∧ out.get p = bcGet v idx) ∨
    ((∀ idx, InBounds (B ++ t.shape.drop xs.length) idx → indexTarget B t.shape xs idx ≠ p) ∧ out.get p = t.get p)

/-- SCATTER_ND with index vectors of full rank into a zero tensor: updates for one position are added; vectors outside the shape are rejected. -/
def tflScatterNd {α : Type} [AddCommMonoid α] (indices : Tensor Int) (updates : Tensor α) (s : List Nat) : Option (Tensor α) :=
  if (allIndices indices.shape.dropLast).all (fun idx => vectorOk s (rowVector s.length indices idx)) then
    some ⟨s, fun p => (((allIndices indices.shape.dropLast).filter (fun idx => (rowVector s.length indices idx).map Int.toNat = p)).map updates.get).sum⟩
  else none

end Verif.Spec
