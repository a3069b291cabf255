import Verif.Spec.Tensor
import Verif.Spec.Broadcast
import Verif.Spec.Concat
import Verif.Spec.Slice

/-! Meaning of the TFLite operators that act along axes and are not defined elsewhere in the specification. -/

namespace Verif.Spec

/-- An operator applied to every element. -/
def mapTensor {α β : Type} (f : α → β) (t : Tensor α) : Tensor β := ⟨t.shape, fun idx => f (t.get idx)⟩

/-- Output `k` of UNPACK along axis `a`: the axis is dropped, its position fixed to `k`. -/
def unpack {α : Type} (a k : Nat) (t : Tensor α) : Tensor α := ⟨t.shape.eraseIdx a, fun idx => t.get (idx.insertIdx a k)⟩

/-- PACK of the tensors `x 0, ..., x (m - 1)` of shape `s` along a new axis `a`. -/
def pack {α : Type} (a m : Nat) (s : List Nat) (x : Nat → Tensor α) : Tensor α :=
  ⟨s.insertIdx a m, fun idx => (x (idx.getD a 0)).get (idx.eraseIdx a)⟩

/-- Positions `off, ..., off + size - 1` of axis `a`: an output of SPLIT or SPLIT_V. -/
def splitPart {α : Type} (a off size : Nat) (t : Tensor α) : Tensor α :=
  ⟨t.shape.set a size, fun idx => t.get (idx.set a (off + idx.getD a 0))⟩

/-- PAD: `lo[a]` elements of value `v` in front of axis `a`, `hi[a]` after it. -/
def pad {α : Type} (lo hi : List Nat) (v : α) (t : Tensor α) : Tensor α where
  shape := (List.range t.shape.length).map (fun a => lo.getD a 0 + t.shape.getD a 0 + hi.getD a 0)
  get := fun idx =>
    if ∀ a < t.shape.length, lo.getD a 0 ≤ idx.getD a 0 ∧ idx.getD a 0 < lo.getD a 0 + t.shape.getD a 0 then
      t.get ((List.range t.shape.length).map (fun a => idx.getD a 0 - lo.getD a 0))
    else v

/-- MIRROR_PAD in REFLECT mode: position `i` of a padded axis of original size `d` reads position `lo - i` in front, `2 (d - 1) - (i - lo)` behind. -/
def mirrorPad {α : Type} (lo hi : List Nat) (t : Tensor α) : Tensor α where
  shape := (List.range t.shape.length).map (fun a => lo.getD a 0 + t.shape.getD a 0 + hi.getD a 0)
  get := fun idx => t.get ((List.range t.shape.length).map (fun a =>
    if idx.getD a 0 < lo.getD a 0 then lo.getD a 0 - idx.getD a 0
    else if idx.getD a 0 < lo.getD a 0 + t.shape.getD a 0 then idx.getD a 0 - lo.getD a 0
    else 2 * (t.shape.getD a 0 - 1) - (idx.getD a 0 - lo.getD a 0)))

/-- All multi-indices of a shape, in row-major order. -/
def allIndices (s : List Nat) : List (List Nat) := (List.range s.prod).map (unflat s)

/-- A reduction with `keep_dims`: the reduced axes get size 1, and the result at `idx` is `f` of the elements that agree with `idx` on the other axes. -/
def reduceKeep {α β : Type} (axes : List Nat) (f : List α → β) (t : Tensor α) : Tensor β where
  shape := (List.range t.shape.length).map (fun a => if a ∈ axes then 1 else t.shape.getD a 0)
  get := fun idx => f (((allIndices t.shape).filter (fun j => (List.range t.shape.length).all (fun a => decide (a ∈ axes ∨ j.getD a 0 = idx.getD a 0)))).map t.get)

end Verif.Spec
