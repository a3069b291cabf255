import Mathlib.Algebra.BigOperators.Group.List.Basic

/-!
Meaning of the tensor operators (TFLite/NumPy semantics), independent of the converter.

A tensor is a shape together with an element for every multi-index.  Only the elements at in-bounds
indices matter, so equality of tensors is `Same`.
-/

namespace Verif.Spec

structure Tensor (α : Type) where
  shape : List Nat
  get : List Nat → α

/-- `idx` is a valid multi-index for `shape`: same rank, every coordinate below its size. -/
def InBounds (shape idx : List Nat) : Prop := List.Forall₂ (fun i d => i < d) idx shape

/-- Equality of tensors: same shape, same elements. -/
def Same {α : Type} (a b : Tensor α) : Prop :=
  a.shape = b.shape ∧ ∀ idx, InBounds a.shape idx → a.get idx = b.get idx

/-- `p` is a permutation of the axes `0 .. n-1`. -/
def IsPerm (n : Nat) (p : List Nat) : Prop := p.Perm (List.range n)

/-- TRANSPOSE: output axis `i` is input axis `p[i]`. -/
def transpose {α : Type} (p : List Nat) (t : Tensor α) : Tensor α where
  shape := p.map (fun k => t.shape.getD k 0)
  get := fun idx => t.get ((List.range t.shape.length).map (fun j => idx.getD (p.idxOf j) 0))

/-- Row-major (C order) offset of a multi-index. -/
def flat : List Nat → List Nat → Nat
  | _ :: s, i :: idx => i * s.prod + flat s idx
  | _, _ => 0

/-- Multi-index of a row-major offset. -/
def unflat : List Nat → Nat → List Nat
  | [], _ => []
  | _ :: s, k => (k / s.prod) :: unflat s (k % s.prod)

/-- RESHAPE: same elements in row-major order. -/
def reshape {α : Type} (s : List Nat) (t : Tensor α) : Tensor α where
  shape := s
  get := fun idx => t.get (unflat t.shape (flat s idx))

/-- An operator acting on the one-dimensional slices along axis `a` (softmax, cumulative sum, flip,
a bias per channel, ...): `f` maps a slice to a slice of the same length. -/
def alongAxis {α : Type} (a : Nat) (f : List α → Nat → α) (t : Tensor α) : Tensor α where
  shape := t.shape
  get := fun idx => f ((List.range (t.shape.getD a 0)).map (fun k => t.get (idx.set a k))) (idx.getD a 0)

end Verif.Spec
