import Verif.Spec.Tensor
import Mathlib.Data.Set.Insert

/-!
Networks with named tensors, and the layout a caller of a converted model asks for: where a flag is set (or no flag is given and the tensor has four dimensions) the converted model takes and gives
channels-last images.
-/

namespace Verif.Spec.IoLayout
open Verif.Spec

variable {α : Type}

/-- A value: an array with four dimensions or anything else. -/
inductive Val (α : Type)
  | img (n c h w : ℕ) (f : Fin n → Fin c → Fin h → Fin w → α)
  | other (t : Tensor α)

instance [Inhabited α] : Inhabited (Val α) := ⟨.other ⟨[], fun _ => default⟩⟩

/-- Channels last. -/
def nhwc : Val α → Val α
  | .img n c h w f => .img n h w c fun i j k l => f i l j k
  | .other t => .other t

/-- Channels first again. -/
def nchw : Val α → Val α
  | .img n h w c f => .img n c h w fun i l j k => f i j k l
  | .other t => .other t

/-- Elementwise. -/
def Val.map (g : α → α) : Val α → Val α
  | .img n c h w f => .img n c h w fun i j k l => g (f i j k l)
  | .other t => .other ⟨t.shape, fun i => g (t.get i)⟩

/-- What an operator computes; `other` gives its results by number. -/
inductive Fn (α : Type)
  | quantize (g : α → α)
  | dequantize (g : α → α)
  | toNhwc
  | toNchw
  | other (f : List (Val α) → ℕ → Val α)

/-- An operator with the names of its operands and results. -/
structure Op (α : Type) where
  fn : Fn α
  ins : List ℕ
  outs : List ℕ

/-- The results of an operator. -/
def exec [Inhabited α] : Fn α → List (Val α) → ℕ → Val α
  | .quantize g, vs, _ => (vs.headD default).map g
  | .dequantize g, vs, _ => (vs.headD default).map g
  | .toNhwc, vs, _ => nhwc (vs.headD default)
  | .toNchw, vs, _ => nchw (vs.headD default)
  | .other f, vs, i => f vs i

/-- Running one operator. -/
def step [Inhabited α] (env : ℕ → Val α) (op : Op α) : ℕ → Val α := fun n => if n ∈ op.outs then exec op.fn (op.ins.map env) (op.outs.idxOf n) else env n

/-- Running operators in order. -/
def run [Inhabited α] (env : ℕ → Val α) (ops : List (Op α)) : ℕ → Val α := ops.foldl step env

/-- Operators are in an order in which they can run given the tensors `K`, and every tensor is made once. -/
def Ordered : Set ℕ → List (Op α) → Prop
  | _, [] => True
  | K, op :: ops => (∀ i ∈ op.ins, i ∈ K) ∧ op.outs.Nodup ∧ (∀ o ∈ op.outs, o ∉ K) ∧ Ordered (K ∪ {n | n ∈ op.outs}) ops

/-- A flag argument of the converter. -/
inductive Arg
  | one (b : Option Bool)
  | list (l : List (Option Bool))
  | tuple (l : List (Option Bool))

/-- Whether the caller wants channels last for tensor number `i`, which has four dimensions or not. -/
def Arg.wants (arg : Arg) (i : ℕ) (four : Bool) : Bool :=
  match arg with
  | .one b => b.getD four
  | .list l | .tuple l => ((l[i]?).getD none).getD four

end Verif.Spec.IoLayout
