import Verif.Spec.OnnxRepeat

/-!
Model of the repeated quantizers of ONNX models, tinynn/graph/quantization/quantizer.py 1109-1155 (which ones) and 3456-3510 (the hooks).

Simplified: `next_nodes` are the readers in the order of the graph; the places of a functional module are counted without the module itself (3497-3498 subtract one); modules are called with
positional arguments. The search runs for a given number of steps; the theorems hold for any number.
-/

namespace Verif.Model.OnnxRepeat
open Verif.Spec.OnnxRepeat

/-- An entry of the queue, 1112 and 1155: node, last module, whether an operator without quantizer was passed, place among the inputs of the node. -/
structure Item where
  node : Nat
  prev : Option Nat
  state : Bool
  idx : Nat
deriving DecidableEq, Repr

/-- An entry of `swap_nodes`, 1150. -/
structure Swap where
  start : Nat
  stop : Nat
  idx : Nat
deriving DecidableEq, Repr

/-- 1122-1142: the module after the node. -/
def modAfter (nd : Node) (it : Item) : Option Nat := match nd.kind with
  | .obs q => some q
  | .deq q => some q
  | _ => it.prev

/-- 1139-1147: whether an operator without quantizer was passed; `nn.Identity` and unquantized nodes do not count. -/
def passed (nd : Node) (it : Item) : Bool := match nd.kind with
  | .plain => true
  | _ => it.state

/-- 1149-1151; unquantized nodes are never looked at (1123). -/
def found (nd : Node) (it : Item) : Option Swap := match nd.kind, it.prev, modAfter nd it with
  | .float, _, _ => none
  | _, some a, some b => if passed nd it = true ∧ b ≠ a then some ⟨a, b, it.idx⟩ else none
  | _, _, _ => none

/-- `next_nodes`. -/
def nexts (nodes : List Node) (n : Nat) : List Nat := (List.range nodes.length).filter (fun j => match nodes[j]? with
  | some nd => decide (n ∈ nd.prevs)
  | none => false)

/-- 1153-1155: `prev_nodes.index(n)` is the first place. -/
def follow (nodes : List Node) (nd : Node) (it : Item) : List Item := (nexts nodes it.node).map (fun j =>
  ⟨j, modAfter nd it, if (found nd it).isSome then false else passed nd it, ((nodes[j]?.map Node.prevs).getD []).idxOf it.node⟩)

/-- 1114-1155. -/
def search (nodes : List Node) : Nat → List Item → List (Nat × Nat) → List Swap → List Swap
  | 0, _, _, sw => sw
  | _ + 1, [], _, sw => sw
  | k + 1, it :: q, vis, sw =>
    if (it.node, it.idx) ∈ vis then search nodes k q vis sw
    else match nodes[it.node]? with
      | none => search nodes k q ((it.node, it.idx) :: vis) sw
      | some nd => search nodes k (q ++ follow nodes nd it) ((it.node, it.idx) :: vis) (sw ++ (found nd it).toList)

/-- 1109-1112. -/
def swaps (nodes : List Node) (steps : Nat) (inputs : List Nat) : List Swap := search nodes steps (inputs.map (fun n => ⟨n, none, false, 0⟩)) [] []

/-- 3480-3493: the quantizers of the modules that are repeated; a `DeQuantStub` has none, which is an AttributeError. -/
def exported (acp : Nat → Bool) (sw : List Swap) : Option (List Swap) := if sw.all (fun s => acp s.start) then some sw else none

variable {V : Type}

/-- 3456-3478, 3495-3510: the hook of a module applies the quantizers recorded for it, one after the other. It belongs to the module, so it works in every call. -/
def hooks (Q : Nat → V → V) (sw : List Swap) (nd : Node) (i : Nat) (x : V) : V := match nd.kind.mod with
  | none => x
  | some b => (sw.filter (fun s => decide (s.stop = b ∧ s.idx = i))).foldl (fun x s => Q s.start x) x

end Verif.Model.OnnxRepeat
