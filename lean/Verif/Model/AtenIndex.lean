import Verif.Spec.Index

/-!
Model of `ATenIndexOperator` and `ATenIndexPutOperator`, `/repo/tinynn/converter/operators/torch/aten.py` 2645-2762 and 3472-3605.  The index tensors of the path with several indices (2658-2733) are those of the
first axes, without `None` entries; they are constants, or vectors computed by the model (the GATHER of line 2707 reads along axis 0, which agrees with `np.take` only for
vectors).  `none` is an exception of the converter or a rejection by the interpreter.
-/

namespace Verif.Model
open Verif.Spec

/-- Lines 2671-2697 and 2724: the index operand of GATHER_ND.  Row `R` of `left_indices` has the entries `R % size`, each row is repeated for the positions of the axes that
are not indexed, and the whole is viewed in the shape of the output. -/
def indexVectors (s : List Nat) (xs : List (Tensor Int)) (outShape : List Nat) : Tensor Int :=
  let pad := s.drop xs.length
  ⟨outShape ++ [s.length], fun idx =>
    let row := flat outShape idx.dropLast
    let i := idx.getD outShape.length 0
    if i < xs.length then
      let x := xs.getD i ⟨[], fun _ => 0⟩
      x.get (unflat x.shape (row / pad.prod % x.shape.prod))
    else (((unflat pad (row % pad.prod)).getD (i - xs.length) 0 : Nat) : Int)⟩

/-- Lines 2658-2733; the `view` of 2693 fails if the number of rows is not that of the output. -/
def convertIndex {α : Type} (xs : List (Tensor Int)) (outShape : List Nat) (t : Tensor α) : Option (Tensor α) :=
  let maxLen := (xs.map (fun x => x.shape.prod)).foldr max 0
  if maxLen * (t.shape.drop xs.length).prod ≠ outShape.prod then none
  else tflGatherNd (indexVectors t.shape xs outShape) t

/-- Lines 2734-2762, one index tensor: a constant index is made non-negative (2744), an index computed by the model is used as it is. -/
def convertIndexAt {α : Type} (dynamic : Bool) (d : Nat) (x : Tensor Int) (t : Tensor α) : Option (Tensor α) :=
  tflGather d (if dynamic then x else ⟨x.shape, fun j => x.get j + (if x.get j < 0 then 1 else 0) * (t.shape.getD d 0 : Int)⟩) t

/-- `ATenIndexPutOperator`, lines 3553-3583: the value operand for `rows` index vectors.  A constant is broadcast by NumPy to the vector of rows, which fails unless it has one
element or one per row; a value computed by the model is tiled.  Values of rank 2 or more are never accepted (`np.broadcast_to` raises, TILE gets too few multiples). -/
def putValue {α : Type} (dynamic : Bool) (rows : Nat) (v : Tensor α) : Option (Tensor α) :=
  match v.shape with
  | [] => some ⟨[rows], fun _ => v.get []⟩
  | [n] =>
    if n = rows then some v
    else if dynamic then
      let tiled := tile [rows / n] v
      if tiled.shape = [rows] then some tiled else none
    else if n = 1 then some ⟨[rows], fun _ => v.get [0]⟩ else none
  | _ => none

/-- `ATenIndexPutOperator`, lines 3472-3605: `x + SCATTER_ND(rows, value - GATHER_ND(x, rows))`.  If the value is a constant the difference is computed when converting (3598), with the
elements of the traced input; otherwise by SUB at run time (3595).  The index tensors have the same values in both cases. -/
def convertIndexPut {α : Type} [AddCommGroup α] (dynamic : Bool) (xs : List (Tensor Int)) (v traced t : Tensor α) : Option (Tensor α) := do
  let maxLen := (xs.map (fun x => x.shape.prod)).foldr max 0
  let rows := maxLen * (t.shape.drop xs.length).prod
  let indices := indexVectors t.shape xs [rows]
  let val ← putValue dynamic rows v
  let old ← tflGatherNd indices (if dynamic then t else traced)
  let updated ← tflScatterNd indices ⟨[rows], fun idx => val.get idx - old.get idx⟩ t.shape
  pure ⟨t.shape, fun p => t.get p + updated.get p⟩

end Verif.Model
