import Verif.Spec.SizeReads
/-!
Model of `new_getattr_gen`, tinynn/graph/tracer.py 906-973, for the attribute `shape` of tensors.
Simplifications: nodes are named by the tensor whose size they compute.  All other objects the graph knows by address are kept alive by its nodes (1575-1576, 1501), so only addresses of `torch.Size` objects, which nothing
keeps (the tuple of tensors made of it is returned instead, 948-959), are used again.
-/

namespace Verif.Model.SizeReads
open Verif.Spec.SizeReads

/-- `tensor_pre_node_dict` and `original_values_for_tracked_objects` at the addresses of sizes. -/
structure State where
  preNode : Nat → Option Nat
  original : Nat → Option (List Nat)

/-- 1761, 1877: a new graph. -/
def start : State := ⟨fun _ => none, fun _ => none⟩

/-- 942-968: a new node, recorded under the address of the size. -/
def newNode (traced : Nat → List Nat) (s : State) (r : Read) : State × Nat :=
  (⟨fun a => if a = r.address then some r.tensor else s.preNode a, fun a => if a = r.address then some (traced r.tensor) else s.original a⟩, r.tensor)

/-- 914-968: the state afterwards and the tensor whose size the node read computes. -/
def readShape (traced : Nat → List Nat) (s : State) (r : Read) : State × Nat :=
  match s.preNode r.address, s.original r.address with
  | some n, some o => if o = traced r.tensor then (s, n) else newNode traced s r
  | _, _ => newNode traced s r

/-- The nodes read, one after another. -/
def nodes (traced : Nat → List Nat) : State → List Read → List Nat
  | _, [] => []
  | s, r :: rs => (readShape traced s r).2 :: nodes traced (readShape traced s r).1 rs

/-- What the traced graph reads, if the sizes of the tensors are `sizes`. -/
def readBack (traced sizes : Nat → List Nat) (rs : List Read) : List (List Nat) := (nodes traced start rs).map sizes

end Verif.Model.SizeReads
