import Mathlib.Data.List.Basic
import Mathlib.Logic.Function.Basic

/-!
TorchScript programs with lists: what a model computes, and which of its values depend on its inputs.
-/

namespace Verif.Spec.Frozen

/-- A value: a tensor (or a number), or a list of them. -/
inductive Val (α : Type) where
  | one (a : α)
  | many (l : List α)

/-- Kinds of operators without a converter of their own: those listed as not tracked (`aten::size`, `aten::zeros_like`, `aten::detach`, constants), unknown ones, and unknown ones inside the subgraph of a custom function. -/
inductive Other where
  | listed
  | unknown
  | hidden
deriving DecidableEq

/-- A node. `parts` are the names under which the elements of a resulting list are known to the converter. -/
inductive Node (α : Type) where
  | op (fn : List (Val α) → α) (args : List ℕ) (out : ℕ)
  | listOp (fn : List (Val α) → List α) (args : List ℕ) (out : ℕ) (parts : List ℕ)
  | other (kind : Other) (fn : List (Val α) → Val α) (args : List ℕ) (out : ℕ)
  | construct (args : List ℕ) (out : ℕ)
  | unpack (x : ℕ) (outs : List ℕ)
  | getItem (x i out : ℕ)
  | copy (x out : ℕ)

variable {α S : Type}

/-- The tensors in a value. -/
def Val.items : Val α → List α
  | .one a => [a]
  | .many l => l

/-- A single tensor. -/
def Val.single? : Val α → Option α
  | .one a => some a
  | .many _ => none

/-- Giving several names their values. -/
def assign {β : Type} (env : ℕ → β) : List ℕ → List β → ℕ → β
  | n :: ns, v :: vs => assign (Function.update env n v) ns vs
  | _, _ => env

/-- What a node does; `none` is an exception. -/
def step (env : ℕ → Val α) : Node α → Option (ℕ → Val α)
  | .op fn args out => some (Function.update env out (.one (fn (args.map env))))
  | .listOp fn args out parts => if (fn (args.map env)).length = parts.length then some (assign (Function.update env out (.many (fn (args.map env)))) parts ((fn (args.map env)).map .one)) else none
  | .other _ fn args out => some (Function.update env out (fn (args.map env)))
  | .construct args out => ((args.map env).mapM Val.single?).map fun l => Function.update env out (.many l)
  | .unpack x outs => match env x with
    | .one _ => none
    | .many l => if l.length = outs.length then some (assign env outs (l.map .one)) else none
  | .getItem x i out => match env x with
    | .one _ => none
    | .many l => l[i]?.map fun a => Function.update env out (.one a)
  | .copy x out => match env x with
    | .one a => some (Function.update env out (.one a))
    | .many _ => none

def run (env : ℕ → Val α) : List (Node α) → Option (ℕ → Val α)
  | [] => some env
  | n :: p => (step env n).bind fun env => run env p

/-- The names a node reads, and those it defines. -/
def Node.reads : Node α → List ℕ
  | .op _ args _ => args
  | .listOp _ args _ _ => args
  | .other _ _ args _ => args
  | .construct args _ => args
  | .unpack x _ => [x]
  | .getItem x _ _ => [x]
  | .copy x _ => [x]

def Node.defs : Node α → List ℕ
  | .op _ _ out => [out]
  | .listOp _ _ out parts => out :: parts
  | .other _ _ _ out => [out]
  | .construct _ out => [out]
  | .unpack _ outs => outs
  | .getItem _ _ out => [out]
  | .copy _ out => [out]

/-- Names are defined once and before they are read. -/
def Scoped : List ℕ → List (Node α) → Prop
  | _, [] => True
  | known, n :: p => (∀ m ∈ n.reads, m ∈ known) ∧ n.defs.Nodup ∧ (∀ m ∈ n.defs, m ∉ known) ∧ Scoped (n.defs ++ known) p

/-- The shapes in a value. -/
def Val.shape (shape : α → S) : Val α → Val S
  | .one a => .one (shape a)
  | .many l => .many (l.map shape)

/-- `f` looks only at the shapes of its arguments. -/
def ByShape {β : Type} (shape : α → S) (f : List (Val α) → β) : Prop :=
  ∀ vs vs' : List (Val α), vs.map (Val.shape shape) = vs'.map (Val.shape shape) → f vs = f vs'

/-- Which names depend on the values of inputs, which lists were put together from which names, and that nothing is read from such a value but its shape where the converter does not follow values:
in operators it does not track, in the elements of a list picked by index, in the elements of a list put together and taken apart again. Lists that operators return are not empty. -/
def Clean (shape : α → S) (depends : ℕ → Bool) (made : ℕ → Option (List ℕ)) : List (Node α) → Prop
  | [] => True
  | .op fn args out :: p => ByShape shape (fun vs => shape (fn vs)) ∧ Clean shape (Function.update depends out (args.any depends)) made p
  | .listOp fn args out parts :: p => parts ≠ [] ∧ ByShape shape (fun vs => (fn vs).map shape) ∧ Clean shape (Function.update (assign depends parts (parts.map fun _ => args.any depends)) out (args.any depends)) made p
  | .other _ fn args out :: p => (args.any depends = false ∨ ByShape shape fn) ∧ Clean shape (Function.update depends out false) made p
  | .construct args out :: p => Clean shape (Function.update depends out (args.any depends)) (Function.update made out (some args)) p
  | .unpack x outs :: p => (∀ els, made x = some els → els.all depends = true) ∧ Clean shape (assign depends outs (outs.map fun _ => depends x)) made p
  | .getItem x _ out :: p => depends x = false ∧ Clean shape (Function.update depends out false) made p
  | .copy x out :: p => Clean shape (Function.update depends out (depends x)) made p

end Verif.Spec.Frozen
