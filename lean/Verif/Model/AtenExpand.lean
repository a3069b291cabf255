import Verif.Spec.Expand
import Verif.Spec.Slice
import Verif.Model.AtenMove

/-!
Model of `ATenRepeatOperator`, `ATenRepeatInterleaveOperator`, `ATenExpandOperator` and `ATenExpandAsOperator`, `/repo/tinynn/converter/operators/torch/aten.py` 2822-2907 and
3266-3320, for inputs that are not constants.  Each function gives the tensor the emitted operators compute.
-/

namespace Verif.Model
open Verif.Spec

/-- Lines 2836-2842 and 3288-3297: RESHAPE to `[1] * (n - rank) + shape`, only when `n` exceeds the rank. -/
def leadingOnes {α : Type} (n : Nat) (t : Tensor α) : Tensor α :=
  if n > t.shape.length then reshape (List.replicate (n - t.shape.length) 1 ++ t.shape) t else t

/-- Lines 2822-2847: RESHAPE and TILE. -/
def convertRepeat {α : Type} (m : List Nat) (t : Tensor α) : Tensor α := tile m (leadingOnes m.length t)

/-- Lines 3299-3304: the count is the new size where the sizes differ, else 1. -/
def expandCounts (newShape out : List Nat) : List Nat := List.zipWith (fun x y => if x ≠ y then y else 1) newShape out

/-- Lines 3266-3310 (`expand_as` is the same): nothing when the shape does not change, else RESHAPE and TILE. -/
def convertExpand {α : Type} (out : List Nat) (t : Tensor α) : Tensor α :=
  if out = t.shape then t
  else
    let actual := leadingOnes out.length t
    tile (expandCounts actual.shape out) actual

/-- How the repetition counts are given; lines 2867-2887. -/
inductive RepeatsArg
  /-- a Python integer -/
  | int (r : Nat)
  /-- a constant tensor with one element or one per position -/
  | tensor (l : List Nat)

/-- `torch.repeat_interleave` repeats a single count for every position. -/
def RepeatsArg.counts (n : Nat) : RepeatsArg → List Nat
  | .int r => List.replicate n r
  | .tensor l => if l.length = 1 then List.replicate n (l.getD 0 0) else l

/-- `torch.repeat_interleave(torch.arange(k, ...), counts)` (2891-2893). -/
def interleaveIndices : Nat → List Nat → List Nat
  | _, [] => []
  | k, r :: rs => List.replicate r k ++ interleaveIndices (k + 1) rs

/-- Lines 2849-2907: an optional RESHAPE to one axis and a GATHER. -/
def convertInterleave {α : Type} (repeats : RepeatsArg) (dim : Option Int) (t : Tensor α) : Tensor α :=
  match dim with
  | none =>
    let actual := if t.shape.length > 1 then reshape [t.shape.prod] t else t
    gather 0 (interleaveIndices 0 (repeats.counts t.shape.prod)) actual
  | some d =>
    let a := fixDim t.shape.length d
    gather a (interleaveIndices 0 (repeats.counts (t.shape.getD a 0))) t

/-- Lines 2862-2865 with 2891-2907: without `repeats`, the counts are the input, and the GATHER reads the input as well. -/
def convertInterleaveSelf (rs : List Nat) : Tensor Nat := gather 0 (interleaveIndices 0 rs) ⟨[rs.length], fun idx => rs.getD (idx.getD 0 0) 0⟩

end Verif.Model
