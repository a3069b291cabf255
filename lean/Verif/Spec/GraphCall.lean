import Verif.Model.GraphCall
/-!
What it means that the tensors kept in a graph belong to given inputs: every node has as inputs what the nodes before it produce, or the given inputs, and has as outputs what it makes of them.
-/

namespace Verif.Spec.GraphCall
open Verif.Model.GraphCall

variable {V : Type}

/-- A tensor a node produces from the inputs it has. -/
def produces (m : Node V) (ix : Idx) : Option V :=
  match ix, m.f m.prevT with
  | .whole, .one v => some v
  | .item j, .many vs => vs[j]?
  | _, _ => none

/-- The tensors of the arguments, in order, with one level of lists taken apart. -/
def tensors (as : List (Arg V)) : List V := as.flatMap (fun a => match a with
  | .one v => [v]
  | .many vs => vs)

/-- `x` is the tensor that the source of an input stands for; `old` is the tensor stored for a constant. -/
def StandsFor (as : List (Arg V)) (ns : List (Node V)) (s : Src) (old x : V) : Prop :=
  match s with
  | .const => x = old
  | .input i => (tensors as)[i]? = some x
  | .node n ix => ∃ m ∈ ns, m.name = n ∧ produces m ix = some x

/-- The outputs kept in a node begin with what it produces. -/
def Kept (o : Out V) (kept : List V) : Prop :=
  match o with
  | .one v => kept.head? = some v
  | .many vs => vs <+: kept

/-- `b` is the node `a` with tensors that belong to the inputs. -/
structure Updated (as : List (Arg V)) (ns : List (Node V)) (a b : Node V) : Prop where
  same : b.name = a.name ∧ b.order = a.order ∧ b.prev = a.prev ∧ b.f = a.f
  count : b.prevT.length = a.prev.length ∧ a.prevT.length = a.prev.length
  inputs : ∀ (k : Nat) (s : Src) (old x : V), a.prev[k]? = some s → a.prevT[k]? = some old → b.prevT[k]? = some x → StandsFor as ns s old x
  outputs : Kept (b.f b.prevT) b.nextT
  size : b.nextT.length = a.nextT.length

/-- All nodes of `old` are there in `new`, with the right tensors. -/
def Belongs (as : List (Arg V)) (old new : List (Node V)) : Prop :=
  old.length = new.length ∧ ∀ a ∈ old, ∃ b ∈ new, Updated as new a b

/-- The kind of output a node has for all inputs. -/
def FixedShape (n : Node V) : Prop :=
  (n.nextT.length = 1 ∧ ∀ xs, ∃ v, n.f xs = .one v) ∨ (∀ xs, ∃ vs, n.f xs = .many vs ∧ vs.length = n.nextT.length)

/-- An input that can be found: a constant, one of the given inputs, or an output of a node with a smaller number, not inside another list. -/
def Reachable (as : List (Arg V)) (ns : List (Node V)) (order : Nat) (s : Src) : Prop :=
  match s with
  | .const => True
  | .input i => i < (tensors as).length
  | .node n .whole => ∃ m ∈ ns, m.name = n ∧ m.order < order ∧ ∀ xs, ∃ v, m.f xs = .one v
  | .node n (.item j) => ∃ m ∈ ns, m.name = n ∧ m.order < order ∧ ∀ xs, ∃ vs, m.f xs = .many vs ∧ j < vs.length
  | .node _ (.nested _ _) => False

end Verif.Spec.GraphCall
