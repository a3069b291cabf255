import Verif.Spec.QuantFc

/-!
Model of `quant_fc` (without `fuse_qkv`), tinynn/llm_quant/modules.py 207-237, with `get_submodule_with_parent_from_name`, tinynn/llm_quant/util.py 34-49, and what `QLinear.__init__`, 63-95,
does to the layer it is given.

Simplified: `named_modules` is listed before the loop; in the code it is a generator, but an iteration only changes the entry of the module just listed. An exception sets `raised`.
-/

namespace Verif.Model.QuantFc
open Verif.Spec.QuantFc

variable {W : Type}

structure St (W : Type) where
  heap : Heap W
  fresh : Nat
  raised : Bool

/-- 66 and 83-86: whether the constructor of the quantized layer passes its assertions, by the mode and the number of input features. -/
def makes (mode : String) (features : Nat) : Bool := decide (mode ∈ ["weight4", "weight8", "dynamic"]) && (decide (mode ≠ "weight4") || decide (features % 2 = 0))

/-- `setattr(parent_mod, last_name, quantized_fc)`. -/
def setChild (s : String) (f : Nat) (l : List (String × Nat)) : List (String × Nat) := l.map (fun e => if e.1 = s then (e.1, f) else e)

/-- 227-237 for the layer `i` with weights `w` whose parent is `parent`: the new layer becomes object `f`, and the weight and bias of the old one are set to None (94-95). -/
def replaced (H : Heap W) (parent i f : Nat) (s : String) (w : W) : Heap W := fun j =>
  if j = f then ⟨.quantized w, []⟩
  else if j = parent then { H j with children := setChild s f (H j).children }
  else if j = i then { H j with kind := .dead }
  else H j

/-- 224-237: one entry of `named_modules`. `skip` is whether the name contains `lm_head`; `ok` is whether the layer can be made (66 and 83-86 assert the mode and, with four bits, an even
number of features). The root has the name `''`, and `getattr(model, '')` raises. -/
def step (skip : Path → Bool) (ok : W → Bool) (root : Nat) (st : St W) (e : Path × Nat) : St W :=
  if st.raised = true then st
  else if skip e.1 = true then st
  else match (st.heap e.2).kind with
    | .linear w =>
      match e.1.getLast?, resolve st.heap root e.1.dropLast with
      | some s, some parent => if ok w = true then ⟨replaced st.heap parent e.2 st.fresh s w, st.fresh + 1, false⟩ else { st with raised := true }
      | _, _ => { st with raised := true }
    | _ => st

/-- 224-237. -/
def quantFc (skip : Path → Bool) (ok : W → Bool) (root : Nat) (L : List (Path × Nat)) (st : St W) : St W := L.foldl (step skip ok root) st

end Verif.Model.QuantFc
