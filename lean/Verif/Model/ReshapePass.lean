import Verif.Spec.Tensor
import Verif.Spec.Reshape
import Verif.Spec.AxisOps
import Verif.Spec.GatherT

/-!
Model of `elementwise_op_reshape_passthrough_pass`, tinynn/converter/operators/optimize.py 2127-2566, for one operator: the shapes it picks, the RESHAPE operators it puts in
front of and behind the operator, and the changed arguments.

Simplified: which reshapes win the vote (2283-2313) is not modelled, the theorems hold for whichever reshape was picked; the rewiring of edges is the subject of C72 and C73.
A raised exception is `none`.
-/

namespace Verif.Model.ReshapePass
open Verif.Spec

/-- optimize.py 4551-4577 on lists that may contain `-1`. -/
def simpleGo : List Int → List Int → Nat → Nat → Bool × List (Nat × Nat)
  | [], [], _, _ => (true, [])
  | [], y :: ys, i, j => if y = 1 then simpleGo [] ys i (j + 1) else (false, [])
  | x :: xs, [], i, j => if x = 1 then simpleGo xs [] (i + 1) j else (false, [])
  | x :: xs, y :: ys, i, j =>
    if x = y then
      let r := simpleGo xs ys (i + 1) (j + 1)
      (r.1, (i, j) :: r.2)
    else if x = 1 then simpleGo xs (y :: ys) (i + 1) j
    else if y = 1 then simpleGo (x :: xs) ys i (j + 1)
    else (false, [])
termination_by xs ys => xs.length + ys.length

/-- `is_simple_reshape`, optimize.py 4544-4582: the result and the entries of `mapping`. -/
def isSimple (orig new : List Int) : Bool × List (Nat × Nat) :=
  if orig = new then (true, (List.range orig.length).map (fun i => (i, i))) else simpleGo orig new 0 0

def ints (s : List Nat) : List Int := s.map (fun (x : Nat) => (x : Int))

/-- `tuple(x if i != dim else -1 for i, x in enumerate(shape))`, 2187-2188, 2197-2198. -/
def holes (s : List Nat) (d : Option Nat) : List Int :=
  match d with
  | none => ints s
  | some d => (ints s).set d (-1)

/-- The pair `(shape, next_shape)` that a RESHAPE from shape `src` to shape `dst` in front of the operator votes for; `axis` is `dim_indice` (2161-2206, not for PACK). -/
def candPrev (src dst : List Nat) (axis : Option Nat) : Option (List Int × List Int) :=
  let r := isSimple (ints src) (ints dst)
  if r.1 then
    match axis with
    | none => some (ints src, ints dst)
    | some d => (r.2.find? (fun e => e.2 = d)).map (fun e => (holes src (some e.1), holes dst (some d)))
  else none

/-- The same for a RESHAPE from shape `dst` to shape `src` behind the operator (2231-2281, not for UNPACK). -/
def candNext (src dst : List Nat) (axis : Option Nat) : Option (List Int × List Int) :=
  let r := isSimple (ints dst) (ints src)
  if r.1 then
    match axis with
    | none => some (ints src, ints dst)
    | some d => (r.2.find? (fun e => e.1 = d)).map (fun e => (holes src (some e.2), holes dst (some d)))
  else none

/-- `tmp_new_dim` for PACK and UNPACK (2170-2179, 2241-2250), where `m` takes axes of the operator's side to axes of the other side. -/
def packDim (m : List (Nat × Nat)) (d : Nat) : Int :=
  match m.find? (fun e => e.1 = d) with
  | some e => e.2
  | none =>
    match m.find? (fun e => e.1 + 1 = d) with
    | some e => (e.2 : Int) + 1
    | none =>
      match m.find? (fun e => e.1 = d + 1) with
      | some e => (e.2 : Int) - 1
      | none => -1

/-- The pair for a RESHAPE in front of PACK, or behind UNPACK, along axis `d` (2165-2206, 2236-2278). -/
def candPack (m : List (Nat × Nat)) (src dst : List Nat) (d : Nat) : List Int × List Int :=
  let k := packDim m d
  (if 0 ≤ k then (ints src).insertIdx k.toNat (-1) else ints src, (ints dst).insertIdx d (-1))

/-- `prev_shape_aligned`, 2334-2349. -/
def aligned (prev next : List Int) (s : List Nat) : List Int :=
  if (s.prod : Int) = prev.prod then prev
  else
    let nps := List.replicate (next.length - s.length) 1 ++ s
    (isSimple prev next).2.foldl (fun acc e => acc.set e.1 ((nps.getD e.2 0 : Nat) : Int)) (List.replicate prev.length 1)

/-- The RESHAPE in front of an operand (2350-2361). -/
def moveIn {α : Type} (prev next : List Int) (x : Tensor α) : Option (Tensor α) := reshapeOp (aligned prev next x.shape) x

/-- The RESHAPE behind an output whose shape was `out` (2384-2403): `np.reshape(op_out.tensor, prev_shape)` must be possible. -/
def moveOut {α : Type} (prev : List Int) (out : List Nat) (z : Tensor α) : Option (Tensor α) :=
  if (resolveShape out.prod prev).prod = out.prod then reshapeOp (ints out) z else none

/-- `prev_shape.index(-1)`. -/
def holeIdx (l : List Int) : Option Nat := if -1 ∈ l then some (l.idxOf (-1)) else none

/-- An elementwise operator of one operand. -/
def passMap {α β : Type} (prev next : List Int) (f : α → β) (x : Tensor α) : Option (Tensor β) := do
  let y ← moveIn prev next x
  moveOut prev x.shape (mapTensor f y)

/-- An elementwise operator of two operands. -/
def passBinary {α β γ : Type} (prev next : List Int) (f : α → β → γ) (x : Tensor α) (y : Tensor β) : Option (Tensor γ) := do
  let out ← bcShape x.shape y.shape
  let x' ← moveIn prev next x
  let y' ← moveIn prev next y
  let z ← elementwise f x' y'
  moveOut prev out z

/-- An elementwise operator whose second operand has shape `[1]`: only the first one is reshaped (`op_input_indices`, 4371-4377). -/
def passScalar {α β γ : Type} (prev next : List Int) (f : α → β → γ) (x : Tensor α) (y : Tensor β) : Option (Tensor γ) := do
  let x' ← moveIn prev next x
  let z ← elementwise f x' y
  moveOut prev x.shape z

/-- CONCATENATION (2410-2417). -/
def passConcat {α : Type} [Inhabited α] (prev next : List Int) (b : Nat) (xs : List (Tensor α)) : Option (Tensor α) := do
  let ys ← xs.mapM (moveIn prev next)
  let a ← holeIdx prev
  moveOut prev (concat b xs).shape (concat a ys)

/-- GATHER (2410-2417). -/
def passGather {α : Type} (prev next : List Int) (b : Nat) (ix : Tensor Nat) (x : Tensor α) : Option (Tensor α) := do
  let y ← moveIn prev next x
  let a ← holeIdx prev
  moveOut prev (gatherT b ix x).shape (gatherT a ix y)

/-- An output of SPLIT or SPLIT_V (2418-2425). -/
def passSplit {α : Type} (prev next : List Int) (b off size : Nat) (x : Tensor α) : Option (Tensor α) := do
  let y ← moveIn prev next x
  let a ← holeIdx prev
  moveOut prev (splitPart b off size x).shape (splitPart a off size y)

/-- `new_pad` (2426-2433), one column. -/
def movedPad (prev next : List Int) (v : List Nat) (fill : Nat) : Option (List Nat) := do
  let a ← holeIdx prev
  let b ← holeIdx next
  some ((List.replicate prev.length fill).set a (v.getD b 0))

/-- PAD and PADV2 (2426-2433). -/
def passPad {α : Type} (prev next : List Int) (lo hi : List Nat) (v : α) (x : Tensor α) : Option (Tensor α) := do
  let y ← moveIn prev next x
  let lo' ← movedPad prev next lo 0
  let hi' ← movedPad prev next hi 0
  moveOut prev (pad lo hi v x).shape (pad lo' hi' v y)

/-- MIRROR_PAD (2426-2433). -/
def passMirror {α : Type} (prev next : List Int) (lo hi : List Nat) (x : Tensor α) : Option (Tensor α) := do
  let y ← moveIn prev next x
  let lo' ← movedPad prev next lo 0
  let hi' ← movedPad prev next hi 0
  moveOut prev (mirrorPad lo hi x).shape (mirrorPad lo' hi' y)

/-- TILE (2513-2520). -/
def passTile {α : Type} (prev next : List Int) (m : List Nat) (x : Tensor α) : Option (Tensor α) := do
  let y ← moveIn prev next x
  let m' ← movedPad prev next m 1
  moveOut prev (tile m x).shape (tile m' y)

/-- `new_size`, `new_end`: `prev_shape` with the entry of the hole replaced (2452-2453, 2486-2487). -/
def movedEnd (prev next : List Int) (v : List Nat) : Option (List Nat) := do
  let a ← holeIdx prev
  let b ← holeIdx next
  some ((prev.set a ((v.getD b 0 : Nat) : Int)).map Int.toNat)

/-- SLICE (2445-2458). -/
def passSlice {α : Type} (prev next : List Int) (start size : List Nat) (x : Tensor α) : Option (Tensor α) := do
  let y ← moveIn prev next x
  let start' ← movedPad prev next start 0
  let size' ← movedEnd prev next size
  moveOut prev (SliceOp.run (.slice start size) x).shape (SliceOp.run (.slice start' size') y)

/-- STRIDED_SLICE (2459-2512) with constant arguments. -/
def passStrided {α : Type} (prev next : List Int) (start stop stride : List Nat) (x : Tensor α) : Option (Tensor α) := do
  let y ← moveIn prev next x
  let start' ← movedPad prev next start 0
  let stop' ← movedEnd prev next stop
  let stride' ← movedPad prev next stride 1
  moveOut prev (SliceOp.run (.strided start stop stride) x).shape (SliceOp.run (.strided start' stop' stride') y)

/-- SUM, MEAN, ... with `keep_dims` (2521-2533). -/
def passReduce {α β : Type} (prev next : List Int) (axes : List Nat) (f : List α → β) (x : Tensor α) : Option (Tensor β) := do
  let y ← moveIn prev next x
  let a ← holeIdx prev
  moveOut prev (reduceKeep axes f x).shape (reduceKeep [a] f y)

/-- PACK of `m` tensors of shape `s` along axis `b` (2331-2333, 2362-2364, 2410-2417). -/
def passPack {α : Type} (prev next : List Int) (b m : Nat) (s : List Nat) (x : Nat → Tensor α) : Option (Tensor α) := do
  let prev' := prev.filter (· ≠ -1)
  let s' := resolveShape s.prod (aligned prev' next s)
  if s'.prod ≠ s.prod then none
  else
    let a ← holeIdx prev
    moveOut prev (s.insertIdx b m) (pack a m s' (fun k => reshape s' (x k)))

/-- Output `k` of UNPACK along axis `b` (2367-2408, 2410-2417). -/
def passUnpack {α : Type} (prev next : List Int) (b k : Nat) (x : Tensor α) : Option (Tensor α) := do
  let y ← moveIn prev next x
  let a ← holeIdx prev
  moveOut (prev.filter (· ≠ -1)) (unpack b k x).shape (unpack a k y)

end Verif.Model.ReshapePass
