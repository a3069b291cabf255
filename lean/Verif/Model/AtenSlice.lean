import Verif.Spec.SliceInt
import Verif.Model.Slice

/-!
Model of `ATenSliceOperator.parse`, `/repo/tinynn/converter/operators/torch/aten.py` 1957-2078, for bounds that are constants (not in `constant_mapping`), and
of the fusability test `is_slice_fusable_edge`, `/repo/tinynn/converter/operators/optimize.py` 4110-4121, with `fuse_slices` 4431-4462 applied to it.
-/

namespace Verif.Model
open Verif.Spec

/-- Lines 1963-1986: start and end after the adjustments. -/
def adjustBounds (n : Nat) (start stop : Option Int) : Int × Int :=
  let start := start.getD 0
  let stop := stop.getD n
  let start := if start < 0 then start + n else start
  let stop := if stop < 0 then stop + n else stop
  let stop := if start > stop then start else stop
  let stop := if stop ≥ n then (n : Int) else stop
  (start, stop)

/-- Lines 1957-2078 with constant bounds; `dim` is already non-negative (1980-1981). -/
def convertSlice (shape : List Nat) (dim : Nat) (start stop : Option Int) (step : Nat) : IntSliceOp :=
  let b := adjustBounds (shape.getD dim 0) start stop
  let starts := (List.replicate shape.length (0 : Int)).set dim b.1
  let whole := shape.map (fun (d : Nat) => (d : Int))
  if step ≠ 1 then .strided starts (whole.set dim b.2) ((List.replicate shape.length 1).set dim step)
  else .slice starts (whole.set dim (b.2 - b.1))

/-- An attribute vector of a slicing operator: its value when the model was traced, and whether it is a constant (`buffer is not None`).  At run time a
constant has the traced value, anything else the value computed by the model. -/
structure SliceArg where
  traced : List Nat
  const : Bool

/-- A SLICE with its two attribute tensors. -/
structure DynSlice where
  start : SliceArg
  size : SliceArg

/-- The operator at run time, `rs` and `rz` being what the model computes for the attributes that are not constants. -/
def DynSlice.atRuntime (d : DynSlice) (rs rz : List Nat) : SliceOp :=
  .slice (if d.start.const then d.start.traced else rs) (if d.size.const then d.size.traced else rz)

/-- The operator with the traced values, as `fuse_slices` reads it (`.tensor`). -/
def DynSlice.traced (d : DynSlice) : SliceOp := .slice d.start.traced d.size.traced

/-- `is_slice_fusable_edge`, optimize.py 4110-4121, for two SLICE operators one of which is the only reader of the other: only the source's attributes are
tested. -/
def sliceFusable (source _target : DynSlice) : Bool := source.start.const && source.size.const

/-- `fuse_simple_slice_pass`, optimize.py 947-1004, on such a pair: the operators that run afterwards. -/
def fuseDynSlices (source target : DynSlice) (rs rz : List Nat) : List SliceOp :=
  if sliceFusable source target then [emitSlice (fuseSlices source.traced [target.traced])] else [source.atRuntime rs rz, target.atRuntime rs rz]

end Verif.Model
