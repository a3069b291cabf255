import Mathlib.Data.List.Forall2
import Verif.Model.GraphEdit

/-!
Specification for C86: what a traced graph computes when single places of it are looked at differently.

`RunsWith` is a run of the graph in which node `j` is given `see j k q` where the graph says that it reads place `q` of the result of node `k`, and in which node `i` calls `what i`
(a node with `what i = none` is not run). The ordinary run is `seeVals` and `whatOf`.
-/

namespace Verif.Spec.Trace
open Verif.Model.Tracer

variable {F M K T : Type}

/-- What a node calls. -/
def calleeOf : Kind F M K → Option (Callee F M)
  | .func f => some (.func f)
  | .module m => some (.module m)
  | _ => none

/-- What node `i` of the graph calls. -/
def whatOf (st : State F M K) (i : Nat) : Option (Callee F M) := (st.nodes[i]?).bind (fun n => calleeOf n.kind)

/-- Every reader gets what is there. -/
def seeVals (vals : Nat → Out T) : Nat → Nat → Path → Option T := fun _ k q => (vals k).get q

/-- Node `j` finds the tensors `as` at the places it reads. -/
def Finds (see : Nat → Nat → Path → Option T) (j : Nat) (n : TNode F M K) (as : List T) : Prop :=
  List.Forall₂ (fun (r : Nat × Path) a => see j r.1 r.2 = some a) (n.prev.zip n.idx) as

/-- A run of the graph on `args`, returning `rets`. -/
structure RunsWith (s : Sem F M K T) (st : State F M K) (what : Nat → Option (Callee F M)) (see : Nat → Nat → Path → Option T) (args rets : List (Out T))
    (vals : Nat → Out T) : Prop where
  inputs : List.Forall₂ (fun i v => vals i = v) st.inputs args
  consts : ∀ i ∈ st.consts, ∀ (n : TNode F M K) (k : K), st.nodes[i]? = some n → n.kind = .const k → vals i = .one (s.konst k)
  calls : ∀ i ∈ st.forward, ∀ (n : TNode F M K) (c : Callee F M), st.nodes[i]? = some n → what i = some c → ∃ as, Finds see i n as ∧ vals i = s.call c as
  outs : List.Forall₂ (fun i r => ∃ (n : TNode F M K) (as : List T), st.nodes[i]? = some n ∧ Finds see i n as ∧
    ((n.rev = true ∧ r = .seq (as.map .leaf)) ∨ (n.rev = false ∧ ∃ a, as = [a] ∧ r = .one a))) st.outputs rets

/-- The ordinary run. -/
def RunsTo (s : Sem F M K T) (st : State F M K) (args rets : List (Out T)) (vals : Nat → Out T) : Prop := RunsWith s st (whatOf st) (seeVals vals) args rets vals

/-- Everything that is read at node `i` goes through the call `c` first; `v` is the tensor returned by node `i`. -/
def seeAfter (s : Sem F M K T) (vals : Nat → Out T) (i : Nat) (c : Callee F M) (v : T) : Nat → Nat → Path → Option T :=
  fun _ k q => if k = i then (s.call c [v]).get q else (vals k).get q

/-- What node `r` reads at place `p` of node `i` goes through the call `c` first; `v` is the tensor at that place. -/
def seeBetween (s : Sem F M K T) (vals : Nat → Out T) (i : Nat) (p : Path) (r : Nat) (c : Callee F M) (v : T) : Nat → Nat → Path → Option T :=
  fun j k q => if j = r ∧ k = i ∧ q = p then (s.call c [v]).get [] else (vals k).get q

/-- Whoever reads node `x` gets place `p` of node `i` instead. -/
def seeInstead (vals : Nat → Out T) (x i : Nat) (p : Path) : Nat → Nat → Path → Option T := fun _ k q => if k = x then (vals i).get p else (vals k).get q

/-- Whoever reads node `x` gets node `i` instead. -/
def seeOther (vals : Nat → Out T) (x i : Nat) : Nat → Nat → Path → Option T := fun _ k q => if k = x then (vals i).get q else (vals k).get q

/-- How a place of a node is written in the code. -/
def refAt (nodes : List (TNode F M K)) (j : Nat) (p : Path) : NameRef :=
  match nodes[j]? with
  | some pn => ⟨isConst pn.kind, pn.name, p⟩
  | none => ⟨false, "", []⟩

/-- The invariants of a traced graph: names are distinct, the lists hold nodes of the right kind, functions carry the names of what they read, and everything is computed before it
is read. Tracing establishes them (`C86_traced`). -/
structure WellFormed (st : State F M K) : Prop where
  uniq : ∀ i ∈ order st ++ st.consts, ∀ j ∈ order st ++ st.consts, ∀ n m : TNode F M K, st.nodes[i]? = some n → st.nodes[j]? = some m → n.name = m.name → i = j
  nodup : (order st).Nodup
  cnodup : st.consts.Nodup
  inp : ∀ i ∈ st.inputs, ∃ n : TNode F M K, st.nodes[i]? = some n ∧ n.kind = .input
  fwd : ∀ i ∈ st.forward, ∃ (n : TNode F M K) (c : Callee F M), st.nodes[i]? = some n ∧ n.kind = kindFor c
  out : ∀ i ∈ st.outputs, ∃ n : TNode F M K, st.nodes[i]? = some n ∧ n.kind = .output
  con : ∀ i ∈ st.consts, ∃ (n : TNode F M K) (k : K), st.nodes[i]? = some n ∧ n.kind = .const k
  wires : ∀ i ∈ st.forward ++ st.outputs, ∀ n : TNode F M K, st.nodes[i]? = some n → n.prev.length = n.idx.length ∧
    ∀ f, n.kind = .func f → n.names = List.zipWith (refAt st.nodes) n.prev n.idx
  before : ∀ i ∈ st.forward ++ st.outputs, ∀ n : TNode F M K, st.nodes[i]? = some n → ∀ j ∈ n.prev,
    j ∈ st.consts ∨ j ∈ st.inputs ∨ (j ∈ st.forward ∧ (i ∈ st.forward → [j, i].Sublist st.forward))

/-- No node of the graph has this name. -/
def FreshName (st : State F M K) (x : String) : Prop := ∀ i ∈ order st ++ st.consts, ∀ n : TNode F M K, st.nodes[i]? = some n → n.name ≠ x

end Verif.Spec.Trace
