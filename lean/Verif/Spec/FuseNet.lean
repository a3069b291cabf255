/-!
Specification for C85: a network as a list of nodes, its meaning, and what it means to replace a run of modules by one fused module.

A node is a call of a module or function on the results of earlier nodes. Inputs are nodes without predecessors, returned tensors are nodes that read the tensor.
-/

namespace Verif.Spec.FuseNet

/-- `kind` is the class of the module (or the kind of the function), `name` the module's name in the model (every function call has its own name), `prev` the nodes read,
`next` the nodes reading it in the order in which they were recorded, `quantized` whether the node belongs to a quantized region. -/
structure Node where
  kind : String
  name : String
  quantized : Bool
  prev : List Nat
  next : List Nat
deriving DecidableEq

abbrev Net := List Node

/-- A name denotes one module, so it has one class. -/
def Net.Named (g : Net) : Prop := ∀ n ∈ g, ∀ m ∈ g, Node.name n = Node.name m → Node.kind n = Node.kind m

/-- Nodes only read earlier nodes. -/
def Net.Ordered (g : Net) : Prop := ∀ i (n : Node), g[i]? = some n → ∀ p ∈ n.prev, p < i

/-- How often the result of node `i` is read. -/
def Net.readers (g : Net) (i : Nat) : Nat := (List.flatMap Node.prev g).count i

/-- How many nodes call the module named `a`. -/
def Net.uses (g : Net) (a : String) : Nat := (List.map Node.name g).count a

variable {V : Type} [Inhabited V]

/-- The results of all nodes, for a meaning of the modules and functions (an input is a function without arguments). -/
def Net.eval (g : Net) (sem : String → List V → V) : List V :=
  List.foldl (fun vs (n : Node) => vs ++ [sem n.name (n.prev.map (fun p => vs.getD p default))]) [] g

/-- `nn.Identity` returns its argument. -/
def Net.IdentityOk (g : Net) (sem : String → List V → V) : Prop :=
  ∀ n ∈ g, n.kind = "Identity" → ∀ v, sem n.name [v] = v

/-- Replace the modules `a, b, c, …` by one module at the place of `a` that computes all of them in turn, and `nn.Identity` at the other places. -/
def fuse (sem : String → List V → V) : List String → String → List V → V
  | [], a, xs => sem a xs
  | c :: cs, a, xs =>
    if a = c then cs.foldl (fun v b => sem b [v]) (sem c xs)
    else if a ∈ cs then xs.headD default
    else sem a xs

/-- Replace several runs one after another. -/
def fuseAll (sem : String → List V → V) (chains : List (List String)) : String → List V → V :=
  chains.foldl fuse sem

/-- The nodes whose result is no longer available once the run `c` is fused: all its nodes but the last, and the `nn.Identity` nodes after them. -/
inductive Inner (g : Net) (c : List String) : Nat → Prop
  | mod {i n} : g[i]? = some n → n.name ∈ c.dropLast → Inner g c i
  | ident {i n p} : g[i]? = some n → n.kind = "Identity" → n.prev = [p] → Inner g c p → Inner g c i

/-- Going backwards from node `i` along nodes with a single predecessor and leaving out `nn.Identity`, one meets modules of the classes `ks` with the names `as`, all of
them quantized and none in `used`. -/
inductive Back (g : Net) (used : List String) : Nat → List String → List String → Prop
  | stop {i n} : g[i]? = some n → n.quantized → n.name ∉ used → n.kind ≠ "Identity" → n.prev ≠ [] → Back g used i [n.kind] [n.name]
  | step {i n p ks as} : g[i]? = some n → n.quantized → n.name ∉ used → n.kind ≠ "Identity" → n.prev = [p] → Back g used p ks as →
      Back g used i (n.kind :: ks) (n.name :: as)
  | skip {i n p ks as} : g[i]? = some n → n.quantized → n.name ∉ used → n.kind = "Identity" → n.prev = [p] → Back g used p ks as →
      Back g used i ks as

end Verif.Spec.FuseNet
