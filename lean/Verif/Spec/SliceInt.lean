import Verif.Spec.Tensor
import Verif.Spec.Slice

/-!
Slicing one axis with integer bounds, as PyTorch does it and as TFLite's SLICE and STRIDED_SLICE do it: the list of positions that are taken.  Independent
of the converter.
-/

namespace Verif.Spec

/-- The positions `s, s + step, ...` below `e`. -/
def positions (s e step : Nat) : List Nat := (List.range ((e - s + step - 1) / step)).map (fun k => s + k * step)

/-- A bound of `x[start:stop:step]` on an axis of size `n`: negative bounds count from the end, and everything is clamped to `0..n`. -/
def clampBound (n : Nat) (b : Int) : Nat := min (if b < 0 then b + n else b).toNat n

/-- `x[start:stop:step]` in PyTorch (and Python). -/
def torchSlice (n : Nat) (start stop : Option Int) (step : Nat) : List Nat :=
  positions (clampBound n (start.getD 0)) (clampBound n (stop.getD n)) step

/-- One axis of TFLite's SLICE; `none` when the interpreter rejects the operator (or would read outside of the tensor). -/
def tflSlice (n : Nat) (start size : Int) : Option (List Nat) :=
  if start < 0 then none
  else
    let size := if size = -1 then n - start else size
    if size < 0 ∨ start + size > n then none else some (positions start.toNat (start + size).toNat 1)

/-- One axis of TFLite's STRIDED_SLICE, for a positive stride: bounds are clamped like PyTorch's. -/
def tflStrided (n : Nat) (start stop : Int) (stride : Nat) : Option (List Nat) :=
  if stride = 0 then none else some (positions (clampBound n start) (clampBound n stop) stride)

/-- The tensor made of the given positions on every axis. -/
def takePositions {α : Type} (pos : List (List Nat)) (t : Tensor α) : Tensor α where
  shape := pos.map List.length
  get := fun idx => t.get ((List.range t.shape.length).map (fun a => (pos.getD a []).getD (idx.getD a 0) 0))

/-- SLICE or STRIDED_SLICE with integer attribute vectors. -/
inductive IntSliceOp
  | slice (start size : List Int)
  | strided (start stop : List Int) (stride : List Nat)

/-- The result, or `none` if some axis is rejected. -/
def IntSliceOp.run {α : Type} (op : IntSliceOp) (t : Tensor α) : Option (Tensor α) :=
  (match op with
  | .slice start size => (List.range t.shape.length).mapM (fun a => tflSlice (t.shape.getD a 0) (start.getD a 0) (size.getD a 0))
  | .strided start stop stride =>
    (List.range t.shape.length).mapM (fun a => tflStrided (t.shape.getD a 0) (start.getD a 0) (stop.getD a 0) (stride.getD a 1))).map (takePositions · t)

end Verif.Spec
