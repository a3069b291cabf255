import Mathlib.Data.List.Basic

/-!
Specification for C153: operators that read a constant tensor of the model, in PyTorch and in TFLite.

Numbers are whole, so that conversions between types change no value.
-/

namespace Verif.Spec.ConstUse

inductive DType
  | f32
  | i32
  | i64
deriving DecidableEq, Repr

structure Tensor where
  dtype : DType
  vals : List Int
deriving DecidableEq, Repr

/-- The type of the result of arithmetic (`torch.promote_types`). -/
def promote : DType → DType → DType
  | .f32, _ => .f32
  | _, .f32 => .f32
  | .i64, _ => .i64
  | _, .i64 => .i64
  | .i32, .i32 => .i32

/-- The kinds of operators: elementwise arithmetic `x + c`, indexing `x[c]` and `torch.index_select(x, 0, c)`. -/
inductive Op
  | add
  | index
  | select
deriving DecidableEq, Repr

/-- An operator of the model: what it does, the name of the constant, type and length of its other operand. -/
structure Use where
  op : Op
  const : String
  dtype : DType
  len : Nat
deriving DecidableEq, Repr

/-- The operands an operator may meet: those of its type and length. -/
def Fits (u : Use) (x : Tensor) : Prop := x.dtype = u.dtype ∧ x.vals.length = u.len

/-- The element at an index, counted from the end if negative, as in Python. -/
def pick (l : List Int) (i : Int) : Option Int := if 0 ≤ i then l[i.toNat]? else if (l.length : Int) + i < 0 then none else l[((l.length : Int) + i).toNat]?

/-- The element at an index of GATHER: no negative ones. -/
def gather (l : List Int) (i : Int) : Option Int := if 0 ≤ i then l[i.toNat]? else none

def isIndexType : DType → Bool
  | .f32 => false
  | _ => true

/-- What PyTorch computes. `index_select` refuses negative indices. -/
def torchRun (op : Op) (c x : Tensor) : Option Tensor :=
  match op with
  | .add => if x.vals.length = c.vals.length then some ⟨promote x.dtype c.dtype, List.zipWith (· + ·) x.vals c.vals⟩ else none
  | .index => if isIndexType c.dtype then (c.vals.mapM (pick x.vals)).map (fun v => ⟨x.dtype, v⟩) else none
  | .select => if isIndexType c.dtype then (c.vals.mapM (gather x.vals)).map (fun v => ⟨x.dtype, v⟩) else none

/-- An operator of the converted model: ADD, of which the first operand may be converted before, or GATHER. -/
inductive TflOp
  | add (cast : DType)
  | gather
deriving DecidableEq, Repr

/-- What TFLite computes: ADD takes operands of one type. -/
def tflRun (op : TflOp) (c x : Tensor) : Option Tensor :=
  match op with
  | .add d => if c.dtype = d ∧ x.vals.length = c.vals.length then some ⟨d, List.zipWith (· + ·) x.vals c.vals⟩ else none
  | .gather => if isIndexType c.dtype then (c.vals.mapM (gather x.vals)).map (fun v => ⟨x.dtype, v⟩) else none

/-- The converted operators compute what the model's operators compute, for all other operands. -/
def Right (consts : String → Tensor) (us : List Use) (os : List (TflOp × Tensor)) : Prop :=
  os.length = us.length ∧ ∀ (k : Nat) (u : Use) (o : TflOp × Tensor) (x r : Tensor), us[k]? = some u → os[k]? = some o → Fits u x → torchRun u.op (consts u.const) x = some r → tflRun o.1 o.2 x = some r

end Verif.Spec.ConstUse
