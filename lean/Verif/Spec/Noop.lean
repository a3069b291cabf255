import Verif.Spec.SliceInt
import Verif.Spec.AxisOps
import Verif.Spec.Expand
import Verif.Spec.GatherT

/-!
What TFLite's data moving operators compute, `none` where the kernel refuses the operator; and models whose constants are kept apart from their operators.
Independent of the converter.
-/

namespace Verif.Spec.Noop
open Verif.Spec

/-- A data moving operator with the values of its parameters. -/
inductive MoveOp (D : Type)
  | reshape (shape : List Nat)
  | transpose (perm : List Nat)
  | pad (lo hi : List Nat)
  | mirrorPad (lo hi : List Nat)
  | tile (counts : List Nat)
  | slice (op : IntSliceOp)
  /-- CONCATENATION of one tensor -/
  | concat
  | gather (axis : Nat) (ix : Tensor Nat)
  | cast (src dst : D)

variable {α D : Type}

/-- The result of the operator; `fill` is the padding value and `conv` converts between data types. -/
noncomputable def MoveOp.run (fill : α) (conv : D → D → α → α) : MoveOp D → Tensor α → Option (Tensor α)
  | .reshape s, t => if s.prod = t.shape.prod then some (Spec.reshape s t) else none
  | .transpose p, t => open Classical in if IsPerm t.shape.length p then some (Spec.transpose p t) else none
  | .pad lo hi, t => some (Spec.pad lo hi fill t)
  | .mirrorPad lo hi, t => some (Spec.mirrorPad lo hi t)
  | .tile m, t => if m.length = t.shape.length then some (torchRepeat m t) else none
  | .slice op, t => op.run t
  | .concat, t => some t
  | .gather a ix, t => open Classical in
    if a < t.shape.length ∧ ∀ idx, InBounds ix.shape idx → ix.get idx < t.shape.getD a 0 then some (gatherT a ix t) else none
  | .cast s d, t => some ⟨t.shape, fun idx => conv s d (t.get idx)⟩

/-- An operator of a model; `moves` says that it is a RESHAPE or a TRANSPOSE. -/
structure COp (V : Type) where
  moves : Bool
  srcs : List String
  dst : String
  fn : List V → V

/-- A model whose constants are kept apart. -/
structure CNet (V : Type) where
  inputs : List String
  consts : List (String × V)
  ops : List (COp V)
  outputs : List String

variable {V : Type}

/-- The tensors that have a value so far. -/
abbrev CEnv (V : Type) := String → Option V

/-- Running the operators in order; fails when an operator reads a tensor without a value. -/
def runC : List (COp V) → CEnv V → Option (CEnv V)
  | [], e => some e
  | o :: os, e => match o.srcs.mapM e with
    | some vs => runC os (fun m => if m = o.dst then some (o.fn vs) else e m)
    | none => none

/-- The first value listed for a name. -/
def listed : List (String × V) → CEnv V
  | [], _ => none
  | (n, v) :: r, m => if m = n then some v else listed r m

/-- Running a model: inputs and constants have their values, the outputs are read at the end. -/
def CNet.run (g : CNet V) (xs : List V) : Option (List V) :=
  (runC g.ops (listed (g.inputs.zip xs ++ g.consts))).bind fun e => g.outputs.mapM e

/-- Every tensor is written once: inputs, constants and results of operators are different tensors. -/
def CNet.Single (g : CNet V) : Prop :=
  (g.inputs ++ g.consts.map Prod.fst ++ g.ops.map COp.dst).Nodup

/-- A name the model does not use. -/
def CNet.Unused (g : CNet V) (n : String) : Prop :=
  n ∉ g.inputs ++ g.consts.map Prod.fst ++ g.ops.map COp.dst ∧ (∀ o ∈ g.ops, n ∉ o.srcs) ∧ n ∉ g.outputs

end Verif.Spec.Noop
