/-!
Running a traced graph again on other inputs.

Modelled code: tinynn/graph/tracer.py
  TraceGraph.__call__   (2954-3025)
Simplifications: the module or function of a node is a function from its input tensors to one tensor or a list of tensors (including the treatment of `shape` and `size`, 3003-3008); keyword arguments are ignored
there as here; the name `input_{i}_f` is the key `inp i`.
-/

namespace Verif.Model.GraphCall

/-- What a node computes: one tensor, or a list or tuple of tensors. -/
inductive Out (V : Type) where
  | one (v : V)
  | many (vs : List V)

/-- `prev_indices`: the whole output, an item of it, or an item of an item (1621-1624). -/
inductive Idx where
  | whole
  | item (j : Nat)
  | nested (i j : Nat)
  deriving DecidableEq

/-- Where an input of a node comes from. -/
inductive Src where
  | const
  | input (i : Nat)
  | node (n : Nat) (ix : Idx)
  deriving DecidableEq

/-- `TraceNode` of a forward node. -/
structure Node (V : Type) where
  name : Nat
  order : Nat
  prev : List Src
  prevT : List V
  nextT : List V
  f : List V → Out V

/-- An argument of the call. -/
inductive Arg (V : Type) where
  | one (v : V)
  | many (vs : List V)

/-- The keys of `tensors_map`. -/
inductive Key where
  | inp (i : Nat)
  | out (n : Nat) (j : Option Nat)
  deriving DecidableEq

variable {V : Type}

/-- The tensors of the arguments in the order in which they are numbered, 2960-2967. -/
def flat : List (Arg V) → List V
  | [] => []
  | .one v :: r => v :: flat r
  | .many vs :: r => vs ++ flat r

/-- `tensors_map` after 2967. -/
def start (as : List (Arg V)) : Key → Option V
  | .inp i => (flat as)[i]?
  | .out _ _ => none

/-- An input of a node, 2985-2994; `none`: the AssertionError of line 2994, or the TypeError of the `in` of line 2991 when the index is a list. -/
def fetch (env : Key → Option V) (s : Src) (old : V) : Option V :=
  match s with
  | .const => some old
  | .input i => env (.inp i)
  | .node n .whole => env (.out n none)
  | .node n (.item j) => env (.out n (some j))
  | .node _ (.nested _ _) => none

/-- All inputs of a node, 2981-2994; `none` also for the assertion of line 2982. -/
def fetchAll (env : Key → Option V) : List Src → List V → Option (List V)
  | [], [] => some []
  | s :: ss, v :: vs =>
    match fetch env s v, fetchAll env ss vs with
    | some x, some r => some (x :: r)
    | _, _ => none
  | _, _ => none

/-- `tensors_map` with the outputs of a node, 3014-3019. -/
def record (env : Key → Option V) (n : Nat) (o : Out V) : Key → Option V := fun k =>
  match k, o with
  | .out m none, .one v => if m = n then some v else env k
  | .out m (some j), .many vs => if m = n ∧ j < vs.length then vs[j]? else env k
  | _, _ => env k

/-- `node.next_tensors` with the outputs of the node, 3014-3020; `none`: IndexError. -/
def store (nextT : List V) (o : Out V) : Option (List V) :=
  match o with
  | .one v => if nextT.length = 0 then none else some (nextT.set 0 v)
  | .many vs => if vs.length ≤ nextT.length then some (vs ++ nextT.drop vs.length) else none

/-- One node, 2972-3020. -/
def runNode (env : Key → Option V) (n : Node V) : Option ((Key → Option V) × Node V) :=
  match fetchAll env n.prev n.prevT with
  | none => none
  | some xs =>
    match store n.nextT (n.f xs) with
    | none => none
    | some ys => some (record env n.name (n.f xs), { n with prevT := xs, nextT := ys })

/-- All nodes in the given order. -/
def runAll (env : Key → Option V) : List (Node V) → Option (List (Node V))
  | [] => some []
  | n :: r =>
    match runNode env n with
    | none => none
    | some (env', n') =>
      match runAll env' r with
      | none => none
      | some r' => some (n' :: r')

/-- `TraceGraph.__call__`: the nodes afterwards, in the order in which they ran. -/
def run (as : List (Arg V)) (ns : List (Node V)) : Option (List (Node V)) :=
  runAll (start as) (ns.mergeSort (fun a b => decide (a.order ≤ b.order)))

end Verif.Model.GraphCall
