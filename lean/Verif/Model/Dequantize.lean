import Verif.Spec.Dequantize
/-!
Model of `DeQuantizer.rewrite_quantize_graph`, tinynn/graph/quantization/quantizer.py 4038-4146.
Simplifications: every node has one result (places in results: C86); `remove_node` and `insert_after` are what C86 proves of them: the readers of the node read its input, or the new node.  A node for an
object `FloatFunctional` and the object are one; the lines the generated code has are the nodes (C81, C135).
-/

namespace Verif.Model.Dequantize
open Verif.Spec.Dequantize

variable {T : Type}

def Arg.subst (n s : ℕ) : Arg → Arg
  | .tensor k => .tensor (if k = n then s else k)
  | .tensors ks => .tensors (ks.map fun k => if k = n then s else k)
  | .num q => .num q

def Args.subst (n s : ℕ) (a : Args) : Args := ⟨a.pos.map (Arg.subst n s), a.kw.map fun k => (k.1, Arg.subst n s k.2)⟩

def Op.subst (n s : ℕ) : Op T → Op T
  | .stub k => .stub (if k = n then s else k)
  | .meth o m a => .meth o m (Args.subst n s a)
  | .fn f a => .fn f (Args.subst n s a)
  | .other ks f => .other (ks.map fun k => if k = n then s else k) f

/-- The readers of `n` read `s` (tracer.py 3171-3192, 2645-2670). -/
def Node.subst (n s : ℕ) (x : Node T) : Node T := ⟨x.name, Op.subst n s x.op⟩

/-- 4044-4060: whether there is anything to do. -/
def quantized (g : Net T) : Bool := g.nodes.any (fun n => match n.op with
  | .stub _ => true
  | _ => false) || !g.objs.isEmpty

/-- 4065-4067 for one name: `nodes_map[name]`, and `remove_node` if it is a stub. -/
def removeStub (g : Net T) (name : ℕ) : Net T := match g.nodes.find? fun n => n.name = name with
  | some ⟨_, .stub s⟩ => { g with nodes := (g.nodes.filter fun n => n.name ≠ name).map (Node.subst name s), outs := g.outs.map fun k => if k = name then s else k }
  | _ => g

/-- 4063-4067. -/
def removeStubs (g : Net T) : Net T := (g.nodes.map Node.name).foldl removeStub g

/-- `len(node.prev_nodes) > 1`: there is a tensor besides the object. -/
def hasTensor (a : Args) : Bool := !(a.pos.flatMap Arg.reads ++ a.kw.flatMap fun k => k.2.reads).isEmpty

/-- 4069-4077. -/
def isAddRelu (n : Node T) : Bool := match n.op with
  | .meth _ .addRelu a => hasTensor a
  | _ => false

/-- 4081-4091 for one node: the call becomes one of `add`, and `torch.relu` is inserted behind it. -/
def splitAddRelu (g : Net T) (name fresh : ℕ) : Net T := match g.nodes.find? fun n => n.name = name with
  | some ⟨_, .meth o .addRelu a⟩ =>
    { g with
      nodes := g.nodes.flatMap fun n => if n.name = name then [⟨name, .meth o .add a⟩, ⟨fresh, .fn .relu ⟨[.tensor name], []⟩⟩] else [Node.subst name fresh n]
      outs := g.outs.map fun k => if k = name then fresh else k }
  | _ => g

/-- 4080-4091; `names` are the numbers of new nodes. -/
def splitAddRelus (g : Net T) (first : ℕ) : Net T :=
  (((g.nodes.filter isAddRelu).map Node.name).foldl (fun (s : Net T × ℕ) name => (splitAddRelu s.1 name s.2, s.2 + 1)) (g, first)).1

/-- 4093-4110. -/
def scalarOp : Op T → Op T
  | .meth o m a => if hasTensor a then match m with
    | .addScalar => .meth o .add a
    | .mulScalar => .meth o .mul a
    | m => .meth o m a
    else .meth o m a
  | op => op

/-- 4112-4135: the object is dropped from the arguments. -/
def torchOp : Op T → Op T
  | .meth o m a => if hasTensor a then match m with
    | .add => .fn .add a
    | .mul => .fn .mul a
    | .cat => .fn .cat a
    | m => .meth o m a
    else .meth o m a
  | op => op

/-- `rewrite_quantize_graph`; 4137-4143 removes the objects. -/
def rewrite (g : Net T) (first : ℕ) : Net T :=
  if quantized g then
    let g := splitAddRelus (removeStubs g) first
    ⟨[], g.nodes.map fun n => ⟨n.name, torchOp (scalarOp n.op)⟩, g.outs⟩
  else g

end Verif.Model.Dequantize
