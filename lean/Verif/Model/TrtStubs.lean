import Verif.Spec.TrtStubs

/-!
Model of the preparation for TensorRT, tinynn/graph/quantization/quantizer.py 1468-1527 (with `insert_between`, tinynn/graph/tracer.py 2710-2828) and 1054-1073.

Simplified: tensor objects are the node that made them and their place in its result (the id of a tensor is unique while the graph exists), and the nodes are visited in the order of
`forward_nodes`. `next_nodes`, the order of execution and the names of the stubs are not modelled. A failed assertion is `none`.
-/

namespace Verif.Model.Trt
open Verif.Spec.Trt

/-- An entry of `prev_nodes`: a node of the traced model or a stub. -/
inductive Src
  | node (p : Nat)
  | stub (k : Nat)
deriving DecidableEq, Repr

/-- An entry of `prev_tensors`: a tensor of the traced model or the result of a stub. -/
inductive Tn
  | place (t : Place)
  | stub (k : Nat)
deriving DecidableEq, Repr

/-- `prev_nodes`, `prev_tensors` and `prev_indices` of a node, and whether its kind is in `TENSORRT_OBSERVED_NODES` (1471-1482). -/
structure Reader where
  observed : Bool
  nodes : List Src
  tensors : List Tn
  idx : List (Option Nat)
deriving DecidableEq, Repr

/-- What tracing leaves: one entry per tensor (tracer.py 1540-1600). -/
def traced (op : Op) : Reader := ⟨op.observed, op.slots.map (fun t => .node t.1), op.slots.map .place, op.slots.map Prod.snd⟩

/-- tracer.py 2753-2775 `remaining_count`: the tensors of the node that are not among `tensor_ptrs`. -/
def remaining (t : Place) (r : Reader) : Nat := (r.tensors.filter (fun u => match u with
  | .place v => decide (v.1 = t.1) && !decide (v = t)
  | .stub _ => false)).length

/-- tracer.py 2782-2809 with `move_idx`: the reader is connected to stub `k`. 2793-2795 looks at all entries of `prev_nodes` but the last `remaining_count`. -/
def redirect (t : Place) (k : Nat) (r : Reader) : Reader :=
  { r with
    nodes := r.nodes.mapIdx (fun j s => if j < r.nodes.length - remaining t r ∧ s = .node t.1 then .stub k else s)
    tensors := r.tensors.map (fun u => if u = .place t then .stub k else u)
    idx := List.zipWith (fun u i => if u = .place t then none else i) r.tensors r.idx }

/-- 1493-1505 `prev_tensor_ptrs`: the tensors of node `p` that the reader reads, without repetitions. -/
def places (p : Nat) (r : Reader) : List Place := (r.tensors.filterMap (fun u => match u with
  | .place v => if v.1 = p then some v else none
  | .stub _ => none)).eraseDups

/-- 1507-1524: one tensor. `stubs` are the tensors that have a stub (`node_map`), in the order in which the stubs were made. A new stub is inserted between nodes that must be connected
(tracer.py 2727-2729), an old one is just connected. -/
def stepTensor (st : List Place × Reader) (t : Place) : Option (List Place × Reader) :=
  match st.1.idxOf? t with
  | some k => some (st.1, redirect t k st.2)
  | none => if Src.node t.1 ∈ st.2.nodes then some (st.1 ++ [t], redirect t st.1.length st.2) else none

/-- 1488-1524: one node of `prev_nodes`; those of kind shape, device, size and dtype are passed over. -/
def stepNode (skip : Nat → Bool) (st : List Place × Reader) (p : Nat) : Option (List Place × Reader) :=
  if skip p = true then some st else (places p st.2).foldlM stepTensor st

/-- 1487: the nodes in `prev_nodes`, by name. -/
def producers (r : Reader) : List Nat := (r.nodes.filterMap (fun s => match s with
  | .node p => some p
  | .stub _ => none)).eraseDups

/-- 1484-1524: one node. -/
def stepReader (skip : Nat → Bool) (stubs : List Place) (r : Reader) : Option (List Place × Reader) :=
  if r.observed = true then (producers r).foldlM (stepNode skip) (stubs, r) else some (stubs, r)

/-- 1482-1524: all nodes. -/
def prepare (skip : Nat → Bool) : List Place → List Reader → Option (List Place × List Reader)
  | stubs, [] => some (stubs, [])
  | stubs, r :: rs => do
    let (s1, r1) ← stepReader skip stubs r
    let (s2, rs2) ← prepare skip s1 rs
    some (s2, r1 :: rs2)

/-- What the generated code hands to a node: the result of the node in `prev_nodes`, indexed with `prev_indices` (tracer.py 3365-3374). The tensors stand for `stubs` when they come from
a stub. -/
def handed (stubs : List Place) (s : Src) (i : Option Nat) : Arg := match s, i with
  | .node p, i => .raw (p, i)
  | .stub k, none => match stubs[k]? with
    | some t => .quantized t
    | none => .other
  | .stub _, some _ => .other

def reads (stubs : List Place) (r : Reader) : List Arg := List.zipWith (handed stubs) r.nodes r.idx

/-- 1054-1073: which quantizers are switched on. The queue holds modules whose results do not depend on the order, so it is a recursion on the children. -/
def switches : Mod → Mod
  | .mk s a w cs =>
    if s = true then .mk s (a.map (fun _ => Switch.on)) w cs
    else if a.isSome then .mk s (a.map (fun _ => Switch.off)) (w.map (fun _ => Switch.on)) cs
    else .mk s a w (cs.attach.map (fun c => switches c.1))
termination_by m => sizeOf m
decreasing_by
  have := List.sizeOf_lt_of_mem c.2
  simp
  omega

end Verif.Model.Trt
