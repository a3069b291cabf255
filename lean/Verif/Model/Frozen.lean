import Verif.Spec.Frozen

/-!
Model of how the converter walks the TorchScript graph (`/repo/tinynn/converter/base.py` 397-491, 493-497, 524-580; `operators/torch/base.py` 186-219, 791-831; `operators/torch/prim.py`; `operators/graph.py` 52-96).
Every node is run on the dummy input; nodes that read no tracked tensor leave nothing but their value of that run.
Simplifications: one TFLite operator per node, computing the same function of its operands; in-place operators are left out (see `Model/Inplace.lean`); a constant is written into an operator where it is read, and is not known by name afterwards;
the subgraph of a custom function is written out in place, with copies for its parameters and results; `prim::If`, which is accepted only without results, is left out.
-/

namespace Verif.Model.Frozen
open Verif.Spec.Frozen

/-- An operand: a tensor of the graph, a constant, or a tensor that has neither a producer nor a buffer. -/
inductive Src (α : Type) where
  | name (n : ℕ)
  | const (a : α)
  | absent

inductive Arg (α : Type) where
  | one (s : Src α)
  | many (l : List (Src α))

/-- A TFLite operator. -/
structure GOp (α : Type) where
  fn : List (Val α) → List α
  args : List (Arg α)
  outs : List ℕ

/-- `tensor_map` of the converter, names in the graph's `tensor_map` without a buffer, `iterable_map`, the operators, and whether an unsupported operator was seen. -/
structure Conv (α : Type) where
  dummy : ℕ → Val α
  tracked : ℕ → Bool
  iter : ℕ → Option (List ℕ)
  ops : List (GOp α)
  bad : Bool

variable {α : Type} [Inhabited α]

/-- The check of `init_operations` for one input (`base.py` 427-436). -/
def Conv.tracks (c : Conv α) (n : ℕ) : Bool :=
  match c.iter n with
  | some names => names.any c.tracked
  | none => c.tracked n

/-- An element of a list as an operand (`to_tfl_tensors` with `non_existent_as_buffer`, `torch/base.py` 186-208). -/
def Conv.source (c : Conv α) (n : ℕ) : Src α :=
  if c.tracked n then .name n else match c.dummy n with
    | .one a => .const a
    | .many _ => .absent

/-- An operand (`find_or_create_input`, `torch/base.py` 210-219, and the uses of `get_list_expanded_names` in `torch/aten.py`). -/
def Conv.operand (c : Conv α) (n : ℕ) : Arg α :=
  match c.iter n with
  | some names => .many (names.map c.source)
  | none => if c.tracked n then .one (.name n) else match c.dummy n with
    | .one a => .one (.const a)
    | .many l => .many (l.map .const)

/-- An element of a list that is taken apart (`PrimListUnpackConverter`, `prim.py` 44-65; `to_tfl_tensors` without `non_existent_as_buffer`). -/
def Conv.unpacked (c : Conv α) (n : ℕ) : Src α := if c.tracked n then .name n else .absent

/-- One round of `init_operations` (`base.py` 402-489). -/
def Conv.step (c : Conv α) (n : Node α) : Option (Conv α) :=
  (Verif.Spec.Frozen.step c.dummy n).map fun dummy =>
    match n with
    | .op fn args out =>
      if args.any c.tracks then { c with dummy, tracked := Function.update c.tracked out true, ops := c.ops ++ [⟨fun vs => [fn vs], args.map c.operand, [out]⟩] }
      else { c with dummy }
    | .listOp fn args out parts =>
      if args.any c.tracks then { c with dummy, tracked := assign c.tracked parts (parts.map fun _ => true), iter := Function.update c.iter out (some parts), ops := c.ops ++ [⟨fn, args.map c.operand, parts⟩] }
      else { c with dummy }
    | .other kind _ _ _ => { c with dummy, bad := c.bad || decide (kind = .unknown) }
    | .construct args out => { c with dummy, iter := Function.update c.iter out (some args) }
    | .unpack x outs =>
      match c.iter x with
      | none => { c with dummy }
      | some names => { c with dummy, tracked := assign c.tracked outs (outs.map fun _ => true)
                               ops := c.ops ++ List.zipWith (fun m o => ⟨fun vs => (vs.map Val.items).flatten, [.one (c.unpacked m)], [o]⟩) names outs }
    | .getItem _ _ _ => { c with dummy }
    | .copy x out =>
      if c.tracked x then { c with dummy, tracked := Function.update c.tracked out true, ops := c.ops ++ [⟨fun vs => (vs.map Val.items).flatten, [.one (.name x)], [out]⟩] }
      else { c with dummy }

def Conv.walk (c : Conv α) : List (Node α) → Option (Conv α)
  | [] => some c
  | n :: p => (c.step n).bind fun c => c.walk p

/-- `init_common_graph`, `init_inputs` (`base.py` 350-376), `init_operations`, and the check for unsupported operators (524-527), which looks at the nodes of the graph itself only. -/
def convert (inputs : List ℕ) (env : ℕ → Val α) (p : List (Node α)) : Option (Conv α) :=
  match (⟨env, fun n => inputs.contains n, fun _ => none, [], false⟩ : Conv α).walk p with
  | some c => if c.bad then none else some c
  | none => none

/-- Running the converted model. -/
def Src.eval (g : ℕ → α) : Src α → α
  | .name n => g n
  | .const a => a
  | .absent => default

def Arg.eval (g : ℕ → α) : Arg α → Val α
  | .one s => .one (s.eval g)
  | .many l => .many (l.map (Src.eval g))

def exec (g : ℕ → α) : List (GOp α) → ℕ → α
  | [] => g
  | o :: ops => exec (assign g o.outs (o.fn (o.args.map (Arg.eval g)))) ops

/-- What the converted model returns for an output: lists are taken apart (`output_list_unpack_pass`, `optimize.py` 3426-3441), what is not tracked is a constant (`missing_outputs_as_constants`, `base.py` 567-580). -/
def Conv.result (c : Conv α) (g : ℕ → α) (o : ℕ) : List α := ((c.operand o).eval (exec g c.ops)).items

end Verif.Model.Frozen
