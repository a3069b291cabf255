import Mathlib.Data.List.Basic

/-!
Specification for C152: what a model returns, and how a caller takes the results out of it.
-/

namespace Verif.Spec.OutShape

/-- The type of a sequence: a list, a tuple, or a class derived from them. -/
inductive Seq
  | list
  | tuple
  | derived
deriving DecidableEq, Repr

/-- Something in a container: a tensor, a sequence of tensors, or anything else (a number, nothing, a deeper container). -/
inductive Item (T : Type)
  | tensor (t : T)
  | seq (k : Seq) (l : List T)
  | else_
deriving DecidableEq, Repr

/-- What a model returns: a tensor, a sequence, a dictionary, an object with attributes, or nothing. -/
inductive Out (T : Type)
  | tensor (t : T)
  | seq (k : Seq) (l : List (Item T))
  | dict (l : List (String × Item T))
  | object (l : List (String × Item T))
  | none
deriving DecidableEq, Repr

/-- One step of a caller: `r[0]`, `r["k"]` or `r.k`. -/
inductive Step
  | pos (i : Nat)
  | key (s : String)
  | attr (s : String)
deriving DecidableEq, Repr

variable {T : Type}

/-- The tensor a caller gets by some steps from an item. A step into a tensor gives a part of it, not a result of the model. -/
def Item.get : Item T → List Step → Option T
  | .tensor t, [] => some t
  | .seq _ l, [.pos i] => l[i]?
  | _, _ => Option.none

/-- The tensor a caller gets by some steps from what was returned. -/
def Out.get : Out T → List Step → Option T
  | .tensor t, [] => some t
  | .seq _ l, .pos i :: p => (l[i]?).bind (fun x => x.get p)
  | .dict l, .key s :: p => (l.lookup s).bind (fun x => x.get p)
  | .object l, .attr s :: p => (l.lookup s).bind (fun x => x.get p)
  | _, _ => Option.none

/-- A caller can use one in place of the other. -/
def SameResults (a b : Out T) : Prop := ∀ p, a.get p = b.get p

/-- The tensors in an item, in order. -/
def Item.tensors : Item T → List T
  | .tensor t => [t]
  | .seq _ l => l
  | .else_ => []

/-- The tensors in what was returned, in order. -/
def Out.tensors : Out T → List T
  | .tensor t => [t]
  | .seq _ l => l.flatMap Item.tensors
  | .dict l => l.flatMap (fun x => x.2.tensors)
  | .object l => l.flatMap (fun x => x.2.tensors)
  | .none => []

end Verif.Spec.OutShape
