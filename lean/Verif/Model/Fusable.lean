import Verif.Spec.FuseNet

/-!
Model of the search for runs of modules that are fused before quantization-aware training (tinynn/graph/quantization/quantizer.py).
-/

namespace Verif.Model.Fusable

open Verif.Spec.FuseNet

/-- The nested dictionary of rules (quantizer.py 4158-4168): a sequence of entries `class ↦ [has_key, child_nodes]`. -/
inductive Trie where
  | nil
  | cons (k : String) (hasKey : Bool) (child : Trie) (rest : Trie)
deriving DecidableEq

/-- `current_rules[cur_class]` (quantizer.py 3034). -/
def Trie.find : Trie → String → Option (Bool × Trie)
  | .nil, _ => none
  | .cons k f c r, x => if x = k then some (f, c) else r.find x

/-- `setdefault(module_cls, [False, {}])` followed by an update of the entry (quantizer.py 4163-4167). -/
def Trie.update (k : String) (f : Bool → Trie → Bool × Trie) : Trie → Trie
  | .nil => .cons k (f false .nil).1 (f false .nil).2 .nil
  | .cons k' b c r => if k = k' then .cons k' (f b c).1 (f b c).2 r else .cons k' b c (r.update k f)

/-- The body of the loop over `rules` (quantizer.py 4160-4167) for a rule that is already reversed. -/
def Trie.insert (t : Trie) : List String → Trie
  | [] => t
  | k :: ks => t.update k (fun b c => (b || ks.isEmpty, c.insert ks))

/-- `get_dict_from_rules` (quantizer.py 4158-4168). -/
def getDict (rules : List (List String)) : Trie := rules.foldl (fun t r => t.insert r.reverse) .nil

/-- The kinds of the first `m` nodes met when following `next_nodes[0]` (quantizer.py 3047-3051). Python raises an error where a node has no reader; the model stops. -/
def nextKinds (g : Net) : Nat → Nat → List String
  | 0, _ => []
  | m + 1, i =>
    match (g[i]?).bind (fun n => n.next.head?) with
    | none => []
    | some j => ((g[j]?).map (·.kind)).toList ++ nextKinds g m j

/-- The `while True` loop of `is_fusable` (quantizer.py 3006-3054) with `check_node_quantized=True`; `used` is `custom_data[1]`. The result is `final_names` before it is
reversed. The first argument bounds the number of steps; every step goes to an earlier node. -/
def walk (g : Net) (used : List String) : Nat → Nat → Trie → List String → List String → List String
  | 0, _, _, _, final => final
  | fuel + 1, i, rules, names, final =>
    match g[i]? with
    | none => final
    | some n =>
      if !n.quantized then final
      else match rules.find n.kind with
        | some (state, rules') =>
          if n.name ∈ used then final
          else if n.prev = [] then final
          else
            let final' := if state then names ++ [n.name] else final
            match n.prev with
            | [p] => walk g used fuel p rules' (names ++ [n.name]) final'
            | _ => final'
        | none =>
          if n.kind = "Identity" then
            if n.name ∈ used then final
            else match n.prev with
              | [p] => walk g used fuel p rules names final
              | _ => final
          else if n.kind = "ConvTranspose2d" ∧ final ≠ [] ∧ nextKinds g final.length i = ["BatchNorm2d", "ReLU"] then []
          else final

/-- `is_fusable` (quantizer.py 2989-3062) for node `i`: `final_names`, empty when it returns `False`. -/
def isFusable (g : Net) (used : List String) (rules : Trie) (i : Nat) : List String := (walk g used (i + 1) i rules [] []).reverse

/-- `filter_forward_nodes(is_fusable, custom_data, reverse=True)` (quantizer.py 699-701, 3056-3062, tracer.py 2599-2608): the runs found (`custom_data[0]`) and the names used
so far (`custom_data[1]`); the list holds the forward nodes from the last to the first. -/
def scan (g : Net) (rules : Trie) : List Nat → List (List String) × List String → List (List String) × List String
  | [], d => d
  | i :: is, (found, used) =>
    let names := isFusable g used rules i
    if names = [] then scan g rules is (found, used) else scan g rules is (found ++ [names], used ++ names)

/-- `quant_list` (quantizer.py 699-701) for the forward nodes `fwd`. -/
def quantList (g : Net) (rules : List (List String)) (fwd : List Nat) : List (List String) :=
  (scan g (getDict rules) fwd.reverse ([], [])).1

/-- `FUSE_RULE_LIST` (quantizer.py 72-86), the rules for quantization-aware training. -/
def qatRules : List (List String) :=
  [["Conv1d", "BatchNorm1d"], ["Conv1d", "BatchNorm1d", "ReLU"], ["Conv2d", "BatchNorm2d"], ["Conv2d", "BatchNorm2d", "ReLU"],
   ["Conv3d", "BatchNorm3d"], ["Conv3d", "BatchNorm3d", "ReLU"], ["Conv1d", "ReLU"], ["Conv2d", "ReLU"], ["Conv3d", "ReLU"], ["Linear", "ReLU"],
   ["BatchNorm2d", "ReLU"], ["BatchNorm3d", "ReLU"], ["ConvTranspose2d", "BatchNorm2d"]]

/-- `FUSE_RULE_LIST` and `FUSE_RULE_LIST_PTQ_ONLY` (quantizer.py 72-95), the rules for post-training quantization. -/
def ptqRules : List (List String) :=
  qatRules ++ [["Linear", "BatchNorm1d"], ["ConvTranspose1d", "BatchNorm1d"], ["ConvTranspose3d", "BatchNorm3d"], ["BatchNorm2d", "Conv2d"],
   ["BatchNorm2d", "Conv2d", "ReLU"]]

end Verif.Model.Fusable
