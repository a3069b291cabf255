import Mathlib.Data.List.Forall2
import Verif.Model.Tracer

/-! What the part of a graph between two sets of nodes computes. -/

namespace Verif.Spec.Trace
open Verif.Model.Tracer

variable {F M K T : Type}

/-- Node `i` lies between the input nodes `ins` and the output nodes `outs`: it is an output node, or it is read by a node in between that is not an input node. -/
inductive Between (st : State F M K) (ins outs : List Nat) : Nat → Prop where
  | out {i : Nat} (h : i ∈ outs) : Between st ins outs i
  | read {i j : Nat} {n : TNode F M K} (hn : st.nodes[i]? = some n) (hi : i ∉ ins) (hj : j ∈ n.prev) (h : Between st ins outs i) : Between st ins outs j

/-- What a node calls. -/
def calls (n : TNode F M K) : Callee F M → Prop
  | .func f => n.kind = .func f
  | .module m => n.kind = .module m

/-- `vals` gives every node in between its value: an input node is called with the given tensors, any other node with the values it reads. -/
structure Computes (s : Sem F M K T) (st : State F M K) (ins outs : List Nat) (given : Nat → List T) (vals : Nat → Out T) : Prop where
  arity : ∀ i ∈ ins, ∀ n : TNode F M K, st.nodes[i]? = some n → (given i).length = n.prev.length
  input : ∀ i ∈ ins, Between st ins outs i → ∀ (n : TNode F M K) (c : Callee F M), st.nodes[i]? = some n → calls n c → vals i = s.call c (given i)
  inner : ∀ i, i ∉ ins → Between st ins outs i → ∀ (n : TNode F M K) (c : Callee F M), st.nodes[i]? = some n → calls n c →
    ∃ args, List.Forall₂ (fun (r : Nat × Path) a => (vals r.1).get r.2 = some a) (n.prev.zip n.idx) args ∧ vals i = s.call c args

/-- `vals` gives every node of the graph the value it has when the model is run on `args`. -/
structure Runs (s : Sem F M K T) (st : State F M K) (args : List (Out T)) (vals : Nat → Out T) : Prop where
  inputs : List.Forall₂ (fun i v => vals i = v) st.inputs args
  consts : ∀ i ∈ st.consts, ∀ (n : TNode F M K) (k : K), st.nodes[i]? = some n → n.kind = .const k → vals i = .one (s.konst k)
  calls : ∀ i ∈ st.forward, ∀ (n : TNode F M K) (c : Callee F M), st.nodes[i]? = some n → calls n c →
    ∃ args, List.Forall₂ (fun (r : Nat × Path) a => (vals r.1).get r.2 = some a) (n.prev.zip n.idx) args ∧ vals i = s.call c args

/-- The results of a call, one by one. -/
def results : Out T → List (Out T)
  | .one a => [.one a]
  | .seq xs => xs.map (fun x => match x with
    | .leaf a => .one a
    | .tup as => .seq (as.map .leaf))

/-- The form of a result. -/
def form : Out T → Out Unit
  | .one _ => .one ()
  | .seq xs => .seq (xs.map (fun x => match x with
    | .leaf _ => .leaf ()
    | .tup as => .tup (as.map (fun _ => ()))))

end Verif.Spec.Trace
