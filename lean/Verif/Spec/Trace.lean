/-!
Specification for C81: the `forward` function of a PyTorch model as a straight-line program.

A call returns a tensor, or a list or tuple whose items are tensors or again lists or tuples of tensors. A tensor used later is named by the call that produced it
and its place in the result. Parameters, buffers and literal tensors are constants.
-/

namespace Verif.Spec.Trace

/-- One item of a list or tuple. -/
inductive Item (α : Type) where
  | leaf (a : α)
  | tup (as : List α)
deriving DecidableEq

/-- What a call returns. -/
inductive Out (α : Type) where
  | one (a : α)
  | seq (xs : List (Item α))
deriving DecidableEq

/-- The place of a tensor in a result: `[]` for the result itself, `[i]` and `[i, j]` for items. -/
abbrev Path := List Nat

/-- The tensor at a place. -/
def Out.get {α} : Out α → Path → Option α
  | .one a, [] => some a
  | .seq xs, [i] => match xs[i]? with
    | some (.leaf a) => some a
    | _ => none
  | .seq xs, [i, j] => match xs[i]? with
    | some (.tup as) => as[j]?
    | _ => none
  | _, _ => none

/-- A tensor in the program: a constant, or the tensor at place `p` of definition `d` (the inputs come first, then the calls). -/
inductive Ref (K : Type) where
  | const (c : K)
  | res (d : Nat) (p : Path)

/-- A function (with the name it is listed under and whatever arguments are not tensors) or a submodule. -/
inductive Callee (F M : Type) where
  | func (f : F)
  | module (m : M)

/-- A call. `out` is the form of its result; a place marked `some j` holds the very tensor object passed as argument `j` (dropout in evaluation mode, `contiguous`, …),
a place marked `none` a new tensor. -/
structure Call (F M K : Type) where
  callee : Callee F M
  args : List (Ref K)
  out : Out (Option Nat)

/-- What `forward` returns: tensors and lists of tensors. -/
inductive OutRef (K : Type) where
  | one (r : Ref K)
  | list (rs : List (Ref K))

/-- A `forward` function; `inputs` gives the form of every argument. -/
structure Prog (F M K : Type) where
  inputs : List (Out Unit)
  calls : List (Call F M K)
  outs : List (OutRef K)

/-- The meaning of functions, submodules and constants. -/
structure Sem (F M K T : Type) where
  fn : F → List T → Out T
  mod : M → List T → Out T
  konst : K → T

variable {F M K T : Type}

def Sem.call (s : Sem F M K T) : Callee F M → List T → Out T
  | .func f => s.fn f
  | .module m => s.mod m

def Sem.ref (s : Sem F M K T) (defs : List (Out T)) : Ref K → Option T
  | .const c => some (s.konst c)
  | .res d p => defs[d]?.bind (fun o => o.get p)

/-- Run the calls; `none` when a tensor is used that does not exist. -/
def Sem.run (s : Sem F M K T) : List (Call F M K) → List (Out T) → Option (List (Out T))
  | [], defs => some defs
  | c :: cs, defs => (c.args.mapM (s.ref defs)).bind (fun args => s.run cs (defs ++ [s.call c.callee args]))

def Sem.outRef (s : Sem F M K T) (defs : List (Out T)) : OutRef K → Option (Out T)
  | .one r => (s.ref defs r).map .one
  | .list rs => (rs.mapM (s.ref defs)).map (fun ts => .seq (ts.map .leaf))

/-- The results of `forward` on the arguments `ins`. -/
def Sem.forward (s : Sem F M K T) (p : Prog F M K) (ins : List (Out T)) : Option (List (Out T)) :=
  (s.run p.calls ins).bind (fun defs => p.outs.mapM (s.outRef defs))

/-- The form noted in the program is the form of the result, and an argument returned unchanged has the argument's value. -/
def Fits (o : Out (Option Nat)) (args : List T) (v : Out T) : Prop :=
  (∀ p, (o.get p).isSome = (v.get p).isSome) ∧ ∀ p j, o.get p = some (some j) → v.get p = args[j]?

def Sem.Faithful (s : Sem F M K T) (p : Prog F M K) : Prop :=
  ∀ c ∈ p.calls, ∀ args : List T, args.length = c.args.length → Fits c.out args (s.call c.callee args)

/-- The user's names cannot be confused with names the tracer makes up: none is another one followed by `_1`, `_2`, …, none ends in `_f`, none is `tensor` or `tensor_n`. -/
def NamesOk (U : String → Prop) : Prop :=
  (∀ a b k, U a → U b → a ≠ b ++ "_" ++ toString (k + 1)) ∧ (∀ a s, U a → a ≠ s ++ "_f") ∧
    (∀ a, U a → a ≠ "tensor" ∧ ∀ n : Nat, a ≠ "tensor_" ++ toString n)

end Verif.Spec.Trace
