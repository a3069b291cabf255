import Verif.Spec.Move

/-!
Model of the operators of `/repo/tinynn/converter/operators/torch/aten.py` that only move elements: flip (1391-1411), stack (1673-1729), select (2187-2224),
split (3103-3133), chunk (3136-3164), unbind (4183-4203) and roll (4206-4279).  Each function gives the tensors the emitted operators compute.
Dimensions are the Python arguments (possibly negative).  Quantization parameters, data types and names are left out.
-/

namespace Verif.Model
open Verif.Spec

/-- `if dim < 0: dim += ndim`. -/
def fixDim (ndim : Nat) (dim : Int) : Nat := (if dim < 0 then dim + ndim else dim).toNat

/-- Lines 4240-4272, one pass of the loop of roll: SPLIT_V and CONCATENATION of the reversed parts, or a RESHAPE to the same shape.  Python's `%` with a positive
divisor is the Euclidean remainder. -/
def rollStep {α : Type} [Inhabited α] (shift : Int) (dim : Nat) (t : Tensor α) : Tensor α :=
  let dimSize := t.shape.getD dim 0
  let shift := if shift < 0 then shift + dimSize else shift
  let actual := (shift % (dimSize : Int)).toNat
  if actual ≠ 0 then concat dim (splitV dim [dimSize - actual, actual] t).reverse
  else reshape t.shape t

/-- Lines 4215-4288 with dimensions: `zip(shifts, dims)`. -/
def convertRoll {α : Type} [Inhabited α] (ps : List (Int × Int)) (t : Tensor α) : Tensor α :=
  ps.foldl (fun acc p => rollStep p.1 (fixDim acc.shape.length p.2) acc) t

/-- Lines 4217-4235 and 4274-4279: without dimensions the input is flattened first and the result is reshaped back (a vector is rolled directly). -/
def convertRollFlat {α : Type} [Inhabited α] (shift : Int) (t : Tensor α) : Tensor α :=
  let actual := if t.shape.length ≠ 1 then reshape [t.shape.prod] t else t
  let rolled := rollStep shift 0 actual
  if rolled.shape.length ≠ t.shape.length then reshape t.shape rolled else rolled

/-- Lines 1391-1411: one REVERSE_V2 per dimension. -/
def convertFlip {α : Type} (dims : List Int) (t : Tensor α) : Tensor α :=
  (dims.map (fixDim t.shape.length)).foldl (fun acc d => reverseAxis d acc) t

/-- Lines 2187-2224: GATHER of one index and RESHAPE to the output shape. -/
def convertSelect {α : Type} (dim index : Int) (t : Tensor α) : Tensor α :=
  let dim := fixDim t.shape.length dim
  let index := if index < 0 then index + t.shape.getD dim 0 else index
  reshape (t.shape.eraseIdx dim) (gather dim [index.toNat] t)

/-- Lines 3103-3125 and 3128-3133: SPLIT_V with the sizes of the traced outputs. -/
def convertSplit {α : Type} (dim : Int) (traced : List (Tensor α)) (t : Tensor α) : List (Tensor α) :=
  let dim := fixDim t.shape.length dim
  splitV dim (traced.map (fun o => o.shape.getD dim 0)) t

/-- Lines 3136-3164. -/
def convertChunk {α : Type} (chunks : Nat) (dim : Int) (traced : List (Tensor α)) (t : Tensor α) : List (Tensor α) :=
  let dim := fixDim t.shape.length dim
  let dimSize := t.shape.getD dim 0
  let chunks := if chunks > dimSize then dimSize else chunks
  if dimSize % chunks ≠ 0 then splitV dim (traced.map (fun o => o.shape.getD dim 0)) t
  else splitEven dim chunks t

/-- Lines 4183-4203 with the exception for a single 64-bit integer left out: UNPACK. -/
def convertUnbind {α : Type} (dim : Int) (t : Tensor α) : List (Tensor α) :=
  let dim := fixDim t.shape.length dim
  (List.range (t.shape.getD dim 0)).map (fun k => unpack dim k t)

/-- Lines 1673-1729: PACK, or, if the quantization parameters differ (`asPack = false`), a RESHAPE of every input and a CONCATENATION. -/
def convertStack {α : Type} [Inhabited α] (asPack : Bool) (dim : Int) (s : List Nat) (ts : List (Tensor α)) : Tensor α :=
  let dim := (if dim < 0 then dim + (s.length + 1 : Nat) else dim).toNat
  if asPack then pack dim ts.length s (fun k => ts.getD k ⟨s, fun _ => default⟩)
  else concat dim (ts.map (fun t => reshape (t.shape.insertIdx dim 1) t))

end Verif.Model
