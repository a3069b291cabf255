import Verif.Model.Tracer

/-!
Model of the edits of a traced graph, tinynn/graph/tracer.py 2610-2950 and 3027-3200.

Simplified as in `Verif.Model.TracerSub`: a tensor object is the node that produced it and its place in the result, and `next_nodes` is recomputed from what the nodes read. A failed
assertion or exception is `none`. `move_idx` is true, as in all calls but one.
-/

namespace Verif.Model.Tracer
open Verif.Spec.Trace

variable {F M K : Type}

def kindFor : Callee F M → Kind F M K
  | .func f => .func f
  | .module m => .module m

/-- The name of a new node: `TraceFunction`, 418-427, with its prefix, or `module_unique_name_dict`; then 237-242. -/
def newName (nm : Naming F M K) (pre : String) (st : State F M K) : Callee F M → String × State F M K
  | .func f =>
    let b := bump st (nm.kind f)
    number b.2 (pre ++ fnName (nm.kind f) b.1)
  | .module m => number st (nm.mod m)

/-- 3365-3374 `tensor_name_from_parts` for a node of the graph. -/
def nameAt (n : TNode F M K) (p : Path) : NameRef := ⟨isConst n.kind, n.name, p⟩

/-- `tensor_names` of a new function with one tensor argument; a module has none. -/
def newNames (c : Callee F M) (r : NameRef) : List NameRef := match c with
  | .func _ => [r]
  | .module _ => []

/-- 698-702 `replace_tensor_name`. -/
def replaceName (old new : NameRef) (names : List NameRef) : List NameRef := names.map (fun r => if r = old then new else r)

/-- Several of them, one after the other. -/
def replaceNames (rs : List (NameRef × NameRef)) (names : List NameRef) : List NameRef := rs.foldl (fun l r => replaceName r.1 r.2 l) names

/-- Change the nodes in a list. -/
def editNodes (nodes : List (TNode F M K)) (js : List Nat) (f : TNode F M K → TNode F M K) : List (TNode F M K) :=
  nodes.mapIdx (fun j n => if j ∈ js then f n else n)

/-- 2645-2670: a reader of node `i` is connected to node `x` with name `name`. -/
def moveReader (i x : Nat) (ni : TNode F M K) (name : String) (n : TNode F M K) : TNode F M K :=
  { n with
    prev := n.prev.map (fun k => if k = i then x else k)
    names := replaceNames (((n.prev.zip n.idx).filter (fun e => e.1 = i)).map (fun e => (nameAt ni e.2, ⟨false, name, e.2⟩))) n.names }

/-- Put `x` right after `i`. -/
def insertRight (x i : Nat) (l : List Nat) : List Nat := l.flatMap (fun k => if k = i then [k, x] else [k])

/-- Put `x` right before `i`. -/
def insertLeft (x i : Nat) (l : List Nat) : List Nat := l.flatMap (fun k => if k = i then [x, k] else [k])

/-- 2610-2670 `insert_after`, for a node that returns one tensor. -/
def insertAfter (nm : Naming F M K) (pre : String) (st : State F M K) (i : Nat) (c : Callee F M) : Option (State F M K) := do
  let ni ← st.nodes[i]?
  if i ∈ st.outputs then none
  else
    let r := newName nm pre st c
    let x := st.nodes.length
    let nodes := editNodes st.nodes (nextNodes st i) (moveReader i x ni r.1)
    some { r.2 with
      nodes := nodes ++ [⟨r.1, kindFor c, [i], [[]], newNames c (nameAt ni []), false⟩]
      nodesMap := upd r.2.nodesMap r.1 (some x)
      forward := if i ∈ st.inputs ∨ i ∈ st.consts then x :: st.forward else insertRight x i st.forward }

/-- 2752-2774: whether a tensor of the reader is one of those handed to `insert_between` (`only = none` when no `tensor_ptrs` are given). -/
def chosen (i : Nat) (only : Option Path) (e : Nat × Path) : Bool := decide (e.1 = i) && (match only with
  | none => true
  | some p => decide (e.2 = p))

/-- 2752-2774 `remaining_count`. -/
def remaining (i : Nat) (only : Option Path) (n : TNode F M K) : Nat := ((n.prev.zip n.idx).filter (fun e => decide (e.1 = i) && !chosen i only e)).length

/-- 2789-2792: all entries of `prev_nodes` but the last `remaining_count` are looked at. -/
def betweenPrev (i x k : Nat) (prev : List Nat) : List Nat := prev.mapIdx (fun j p => if j < prev.length - k ∧ p = i then x else p)

/-- 2787-2828: the reader of an inserted node `x`. -/
def moveBetween (i x : Nat) (ni : TNode F M K) (name : String) (only : Option Path) (n : TNode F M K) : TNode F M K :=
  { n with
    prev := betweenPrev i x (remaining i only n) n.prev
    idx := (n.prev.zip n.idx).map (fun e => if chosen i only e then [] else e.2)
    names := replaceNames (((n.prev.zip n.idx).filter (chosen i only)).map (fun e => (nameAt ni e.2, ⟨false, name, []⟩))) n.names }

/-- 2710-2828 `insert_between`. The new node gets one entry of `prev_indices` per tensor, but only the first is used, because it has one previous node. -/
def insertBetween (nm : Naming F M K) (pre : String) (st : State F M K) (i r : Nat) (c : Callee F M) (only : Option Path) : Option (State F M K) := do
  let ni ← st.nodes[i]?
  let nr ← st.nodes[r]?
  if i ∈ nr.prev ∧ r ∈ st.forward then do
    let e ← ((nr.prev.zip nr.idx).filter (chosen i only)).head?
    let w := newName nm pre st c
    let x := st.nodes.length
    some { w.2 with
      nodes := editNodes st.nodes [r] (moveBetween i x ni w.1 only) ++ [⟨w.1, kindFor c, [i], [e.2], newNames c (nameAt ni e.2), false⟩]
      nodesMap := upd w.2.nodesMap w.1 (some x)
      forward := insertLeft x r st.forward }
  else none

/-- 2876-2900: an output node whose place `k` is read from the new node `x`. -/
def moveOutput (k x : Nat) (n : TNode F M K) : TNode F M K := { n with prev := n.prev.set k x, idx := n.idx.set k [] }

/-- 2831-2949 `insert_before` for an output node: the new node reads what the output node reads at place `k` (0 unless the output is a list). -/
def insertOutput (nm : Naming F M K) (pre : String) (st : State F M K) (o k : Nat) (c : Callee F M) : Option (State F M K) := do
  let no ← st.nodes[o]?
  if o ∈ st.outputs then do
    let i ← no.prev[k]?
    let p ← no.idx[k]?
    let ni ← st.nodes[i]?
    let w := newName nm pre st c
    let x := st.nodes.length
    some { w.2 with
      nodes := editNodes st.nodes [o] (moveOutput k x) ++ [⟨w.1, kindFor c, [i], [p], newNames c (nameAt ni p), false⟩]
      nodesMap := upd w.2.nodesMap w.1 (some x)
      forward := st.forward ++ [x] }
  else none

/-- 3166-3192: a reader of node `x` is connected to place `p` of node `i`. -/
def moveRemoved (x i : Nat) (nx ni : TNode F M K) (p : Path) (n : TNode F M K) : TNode F M K :=
  { n with
    prev := n.prev.map (fun k => if k = x then i else k)
    idx := (n.prev.zip n.idx).map (fun e => if e.1 = x then p else e.2)
    names := replaceNames (((n.prev.zip n.idx).filter (fun e => e.1 = x)).map (fun e => (nameAt nx e.2, nameAt ni p))) n.names }

/-- 3137-3200 `remove_node`, for a node with one input and one output tensor of the same shape. -/
def removeNode (st : State F M K) (x : Nat) : Option (State F M K) := do
  let nx ← st.nodes[x]?
  if x ∈ st.forward then
    match nx.prev, nx.idx with
    | [i], [p] => do
      let ni ← st.nodes[i]?
      some { st with
        nodes := editNodes st.nodes (nextNodes st x) (moveRemoved x i nx ni p)
        nodesMap := upd st.nodesMap nx.name none
        forward := st.forward.filter (fun k => k ≠ x) }
    | _, _ => none
  else none

/-- 3049-3064: the names in the functions that read node `x`. -/
def renameReader (x : Nat) (nx : TNode F M K) (name : String) (n : TNode F M K) : TNode F M K :=
  { n with names := replaceNames (((n.prev.zip n.idx).filter (fun e => e.1 = x)).map (fun e => (nameAt nx e.2, ⟨false, name, e.2⟩))) n.names }

/-- 3027-3064 `replace_node_module`: the new name is used as it is. `names` are the tensor names of a new function. -/
def replaceModule (st : State F M K) (x : Nat) (c : Callee F M) (name : String) (names : List NameRef) : Option (State F M K) := do
  let nx ← st.nodes[x]?
  some { st with
    nodes := (editNodes st.nodes (nextNodes st x) (renameReader x nx name)).set x { nx with name := name, kind := kindFor c, names := names }
    nodesMap := upd (upd st.nodesMap nx.name none) name (some x) }

/-- 3110-3128: a reader of the last fused node `l` is connected to the first one `x`. -/
def moveFused (l x : Nat) (nl nx : TNode F M K) (n : TNode F M K) : TNode F M K :=
  { n with
    prev := n.prev.map (fun k => if k = l then x else k)
    names := replaceNames (((n.prev.zip n.idx).filter (fun e => e.1 = l)).map (fun e => (⟨false, nl.name, e.2⟩, ⟨false, nx.name, e.2⟩))) n.names }

/-- 3068-3128 `fuse_nodes_to_func`: the function `f` takes the place of node `x` and of the nodes `rest`, the last of which is `l`. -/
def fuseNodes (st : State F M K) (x : Nat) (rest : List Nat) (l : Nat) (f : F) : Option (State F M K) := do
  let nx ← st.nodes[x]?
  let nl ← st.nodes[l]?
  match nx.kind with
  | .func _ => some { st with
      nodes := (editNodes st.nodes (nextNodes st l) (moveFused l x nl nx)).modify x (fun n => { n with kind := .func f })
      forward := st.forward.filter (fun k => k ∉ rest) }
  | _ => none

end Verif.Model.Tracer
