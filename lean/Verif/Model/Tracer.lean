import Verif.Spec.Trace

/-!
Model of tracing a model and generating code from the trace, tinynn/graph/tracer.py.

Modelled: numbering of nodes, constants, the tables from tensor objects to nodes, the recording of function and module calls, inputs and outputs, `recompute_forward_order`,
and the generated `__init__` and `forward`. Simplified: the text of a line is kept as the names it assigns, calls and reads (the text of the arguments is C85); objects of type
`FloatFunctional`, tensor properties (`x.shape`, `x.dtype`, …), parameters of hooked submodules read from outside and the special call of an LSTM with states are left out,
in-place operators are in C82. An exception is `none`.
-/

namespace Verif.Model.Tracer
open Verif.Spec.Trace

/-- A tensor object: a constant, or the object created for place `p` of definition `d`. -/
inductive Obj (K : Type) where
  | const (k : K)
  | tmp (d : Nat) (p : Path)
deriving DecidableEq

/-- The `module` of a `TraceNode`, 184-190. -/
inductive Kind (F M K : Type) where
  | input
  | output
  | const (k : K)
  | func (f : F)
  | module (m : M)

/-- A tensor as it is written in the code: with or without `self.`, the name of the node, the index. -/
structure NameRef where
  self : Bool
  name : String
  path : Path
deriving DecidableEq

/-- `TraceNode`, 172-242. `prev` holds positions in the list of all nodes, `names` is `tensor_names` of a `TraceFunction`. -/
structure TNode (F M K : Type) where
  name : String
  kind : Kind F M K
  prev : List Nat
  idx : List Path
  names : List NameRef
  rev : Bool

/-- `TraceGraph`, 1817-1905. -/
structure State (F M K : Type) where
  nodes : List (TNode F M K)
  inputs : List Nat
  forward : List Nat
  outputs : List Nat
  consts : List Nat
  nodesMap : String → Option Nat
  preNode : Obj K → Option String
  preIdx : Obj K → Path
  gf : String → Option Nat
  gn : String → Option Nat

def init (F M K : Type) : State F M K := ⟨[], [], [], [], [], fun _ => none, fun _ => none, fun _ => [], fun _ => none, fun _ => none⟩

/-- The user's model, as far as names go: `TraceFunction.kind` (402-416), `is_class`, `module_unique_name_dict` and `parameter_unique_name_dict` (1930-1961). -/
structure Naming (F M K : Type) where
  kind : F → String
  isClass : F → Bool
  mod : M → String
  const : K → Option String

/-- The names taken from the user's model. -/
def Naming.user {F M K : Type} (nm : Naming F M K) (x : String) : Prop := (∃ m, nm.mod m = x) ∨ ∃ k, nm.const k = some x

variable {F M K : Type} [DecidableEq M] [DecidableEq K]

def upd {α β : Type} [DecidableEq α] (f : α → β) (a : α) (b : β) : α → β := fun x => if x = a then b else f x

/-- 418-422, also 333-337: the number of a function or constant. -/
def bump (st : State F M K) (kind : String) : Nat × State F M K :=
  let n := match st.gf kind with
    | none => 0
    | some k => k + 1
  (n, { st with gf := upd st.gf kind (some n) })

/-- 427: the unique name of a function (`prefix` is empty). -/
def fnName (kind : String) (n : Nat) : String := kind ++ "_" ++ toString n ++ "_f"

/-- 237-242: the numbering of nodes. -/
def number (st : State F M K) (base : String) : String × State F M K :=
  match st.gn base with
  | some k => (base ++ "_" ++ toString (k + 1), { st with gn := upd st.gn base (some (k + 1)) })
  | none => (base, { st with gn := upd st.gn base (some 0) })

/-- Record a node in `nodes_map`. -/
def push (st : State F M K) (n : TNode F M K) : State F M K :=
  { st with nodes := st.nodes ++ [n], nodesMap := upd st.nodesMap n.name (some st.nodes.length) }

/-- 333-342, 880-900, 1521-1534 `add_constant_node`. -/
def addConst (nm : Naming F M K) (st : State F M K) (k : K) : State F M K :=
  let b := bump st "tensor"
  let r := number b.2 ((nm.const k).getD ("tensor_" ++ toString b.1))
  let st1 := push r.2 ⟨r.1, .const k, [], [], [], false⟩
  { st1 with preNode := upd st1.preNode (.const k) (some r.1), consts := st1.consts ++ [st.nodes.length] }

/-- 848-903 `constant_handler`: the new state and whether a constant was added. -/
def constantHandler (nm : Naming F M K) (st : State F M K) (o : Obj K) : Option (State F M K × Bool) :=
  if (st.preNode o).isSome then some (st, false) else
    match o with
    | .const k => some (addConst nm st k, true)
    | .tmp _ _ => none

def isConst : Kind F M K → Bool
  | .const _ => true
  | _ => false

/-- 531-556 `_tensor_name`. -/
def tensorName (nm : Naming F M K) (st : State F M K) (o : Obj K) : Option (State F M K × NameRef) := do
  let r ← constantHandler nm st o
  let name ← r.1.preNode o
  if r.2 then some (r.1, ⟨true, name, r.1.preIdx o⟩)
  else do
    let i ← r.1.nodesMap name
    let n ← r.1.nodes[i]?
    some (r.1, ⟨isConst n.kind, name, r.1.preIdx o⟩)

/-- 565-583, 639-641 `parse_args`, for the tensors among the arguments. -/
def parseArgs (nm : Naming F M K) : State F M K → List (Obj K) → Option (State F M K × List NameRef)
  | st, [] => some (st, [])
  | st, o :: os => do
    let r ← tensorName nm st o
    let rs ← parseArgs nm r.1 os
    some (rs.1, r.2 :: rs.2)

/-- Apply a function to every tensor of a result and its place. -/
def mapPath {α β : Type} (f : Path → α → β) : Out α → Out β
  | .one a => .one (f [] a)
  | .seq xs => .seq (xs.mapIdx (fun i x => match x with
    | .leaf a => .leaf (f [i] a)
    | .tup as => .tup (as.mapIdx (fun j a => f [i, j] a))))

/-- The objects the original call returns. -/
def rawOuts (d : Nat) (args : List (Obj K)) (out : Out (Option Nat)) : Out (Obj K) :=
  mapPath (fun p l => match l with
    | some j => args.getD j (.tmp d p)
    | none => .tmp d p) out

/-- 1473-1502 `noop_handler`: tensors that are already known are replaced by new objects, except in nested lists. -/
def noopHandler (st : State F M K) (d : Nat) (outs : Out (Obj K)) : Out (Obj K) :=
  mapPath (fun p o => if p.length < 2 ∧ (st.preNode o).isSome then .tmp d p else o) outs

/-- 1571-1602: the nodes and indices a node reads. -/
def readArgs (nm : Naming F M K) : State F M K → List (Obj K) → Option (State F M K × List Nat × List Path)
  | st, [] => some (st, [], [])
  | st, o :: os => do
    let r ← constantHandler nm st o
    let name ← r.1.preNode o
    let i ← r.1.nodesMap name
    let rs ← readArgs nm r.1 os
    some (rs.1, i :: rs.2.1, r.1.preIdx o :: rs.2.2)

/-- The tensors of a result with their places, in order. -/
def leaves {α : Type} : Out α → List (Path × α)
  | .one a => [([], a)]
  | .seq xs => (xs.mapIdx (fun i x => match x with
    | .leaf a => [([i], a)]
    | .tup as => as.mapIdx (fun j a => ([i, j], a)))).flatten

/-- 1604-1633: the tables for the results. -/
def setOuts (st : State F M K) (name : String) (ls : List (Path × Obj K)) : State F M K :=
  ls.foldl (fun st l => { st with
    preNode := upd st.preNode l.2 (some name)
    preIdx := if l.1 = [] then st.preIdx else upd st.preIdx l.2 l.1 }) st

/-- 1557-1637 `add_forward_node`. -/
def addForward (nm : Naming F M K) (st : State F M K) (name : String) (kind : Kind F M K) (names : List NameRef) (args : List (Obj K))
    (outs : Out (Obj K)) : Option (State F M K) := do
  let r ← readArgs nm st args
  let st1 := setOuts r.1 name (leaves outs)
  let st2 := push st1 ⟨name, kind, r.2.1, r.2.2, names, false⟩
  some { st2 with forward := st2.forward ++ [st1.nodes.length] }

/-- The object a reference of the program denotes. -/
def resolve (objs : List (Out (Obj K))) : Ref K → Option (Obj K)
  | .const c => some (.const c)
  | .res d p => objs[d]?.bind (fun o => o.get p)

/-- 1057-1090 (`new_func_gen`) for a function and 1649-1665 (`_submodule_tracer`) for a module. -/
def step (nm : Naming F M K) (st : State F M K) (objs : List (Out (Obj K))) (c : Call F M K) : Option (State F M K × List (Out (Obj K))) := do
  let args ← c.args.mapM (resolve objs)
  let raw := rawOuts objs.length args c.out
  match c.callee with
  | .func f => do
    let b := bump st (nm.kind f)
    let r ← parseArgs nm b.2 args
    let n := number r.1 (fnName (nm.kind f) b.1)
    let outs := noopHandler n.2 objs.length raw
    let st' ← addForward nm n.2 n.1 (.func f) r.2 args outs
    some (st', objs ++ [outs])
  | .module m => do
    let n := number st (nm.mod m)
    let outs := noopHandler n.2 objs.length raw
    let st' ← addForward nm n.2 n.1 (.module m) [] args outs
    some (st', objs ++ [outs])

/-- 1698-1702, 1504-1518 `add_input_node`: all tensors of a list are recorded without an index. -/
def addInput (st : State F M K) (os : Out (Obj K)) : State F M K :=
  let b := bump st "input"
  let n := number b.2 (fnName "input" b.1)
  let st1 := (leaves os).foldl (fun st l => { st with preNode := upd st.preNode l.2 (some n.1) }) n.2
  let st2 := push st1 ⟨n.1, .input, [], [], [], false⟩
  { st2 with inputs := st2.inputs ++ [st1.nodes.length] }

/-- The objects passed in. -/
def inputObjs (inputs : List (Out Unit)) : List (Out (Obj K)) := inputs.mapIdx (fun d o => mapPath (fun p _ => .tmp d p) o)

/-- 1548-1551: the node and index of a tensor that is returned; no constant is added here. -/
def readOut (st : State F M K) (o : Obj K) : Option (Nat × Path) := do
  let name ← st.preNode o
  let i ← st.nodesMap name
  some (i, st.preIdx o)

/-- The tensors of one returned value. -/
def outRefs : OutRef K → List (Ref K)
  | .one r => [r]
  | .list rs => rs

/-- 1711 `rev_index`: whether the returned value is a list. -/
def outRev : OutRef K → Bool
  | .one _ => false
  | .list _ => true

/-- 1704-1712, 1537-1555 `add_output_node`. -/
def addOutput (st : State F M K) (objs : List (Out (Obj K))) (r : OutRef K) : Option (State F M K) := do
  let b := bump st "output"
  let n := number b.2 (fnName "output" b.1)
  let os ← (outRefs r).mapM (resolve objs)
  let ps ← os.mapM (readOut n.2)
  let st1 := push n.2 ⟨n.1, .output, ps.map (·.1), ps.map (·.2), [], outRev r⟩
  some { st1 with outputs := st1.outputs ++ [st.nodes.length] }

def steps (nm : Naming F M K) : State F M K → List (Out (Obj K)) → List (Call F M K) → Option (State F M K × List (Out (Obj K)))
  | st, objs, [] => some (st, objs)
  | st, objs, c :: cs => (step nm st objs c).bind (fun r => steps nm r.1 r.2 cs)

/-- 2016-2055 `init` without dead-graph elimination. -/
def trace (nm : Naming F M K) (p : Prog F M K) : Option (State F M K) := do
  let objs := inputObjs p.inputs
  let r ← steps nm (objs.foldl addInput (init F M K)) objs p.calls
  p.outs.foldlM (fun st o => addOutput st r.2 o) r.1

/-! ### Code generation -/

/-- What is called in a line of `forward`. -/
inductive Fn (F : Type) where
  | func (f : F)
  | selfMod (name : String)

inductive Line (F : Type) where
  | assign (target : String) (fn : Fn F) (args : List NameRef)
  | free (name : String)

inductive RetExpr where
  | one (r : NameRef)
  | list (rs : List NameRef)

structure Code (F M K : Type) where
  attrs : List (String × (K ⊕ M))
  params : List String
  body : List (Line F)
  ret : List RetExpr

/-- 2254-2318 `__gen_init_code`: the state of the loop is `generated_node`, `mod_ids` and the attributes set so far. -/
def genInit (st : State F M K) : List (String × (K ⊕ M)) :=
  ((st.consts ++ st.forward).foldl (fun (acc : List String × List M × List (String × (K ⊕ M))) i =>
    match st.nodes[i]? with
    | none => acc
    | some n =>
      if n.name ∈ acc.1 then acc else
      match n.kind with
      | .module m => if m ∈ acc.2.1 then acc else (acc.1 ++ [n.name], acc.2.1 ++ [m], acc.2.2 ++ [(n.name, .inr m)])
      | .const k => (acc.1 ++ [n.name], acc.2.1, acc.2.2 ++ [(n.name, .inl k)])
      | _ => (acc.1 ++ [n.name], acc.2.1, acc.2.2)) ([], [], [])).2.2

/-- 276-310 `prev_node_unique_name`. -/
def prevName (st : State F M K) (n : TNode F M K) (i : Nat) : NameRef :=
  match n.prev[i]?, n.idx[i]? with
  | some j, some p => match st.nodes[j]? with
    | some pn => ⟨isConst pn.kind, pn.name, p⟩
    | none => ⟨false, "", []⟩
  | _, _ => ⟨false, "", []⟩

/-- The nodes that get a forward order, 2413. -/
def order (st : State F M K) : List Nat := st.inputs ++ st.forward ++ st.outputs

def forwardOrder (st : State F M K) (i : Nat) : Nat := (order st).idxOf i

/-- `next_nodes`, 2416-2418. -/
def nextNodes (st : State F M K) (i : Nat) : List Nat :=
  (order st).filter (fun j => match st.nodes[j]? with
    | some n => i ∈ n.prev
    | none => false)

def isMod (m : M) (n : TNode F M K) : Bool := match n.kind with
  | .module m' => decide (m' = m)
  | _ => false

/-- 2338-2361: the name of a module is that of the first node calling it. -/
def modName (st : State F M K) (m : M) : String :=
  ((st.forward.filterMap (fun i => st.nodes[i]?)).find? (isMod m)).elim "" (fun n => n.name)

/-- `{pn.unique_name: pn for pn in node.prev_nodes}.values()`, 2375. -/
def distinctPrev (st : State F M K) (prev : List Nat) : List Nat :=
  prev.foldl (fun acc i =>
    let nm := fun j => (st.nodes[j]?).map (·.name)
    if acc.any (fun j => decide (nm j = nm i)) then acc.map (fun j => if nm j = nm i then i else j) else acc ++ [i]) []

/-- 2375-2378: the names dropped after the line of node `i`. -/
def frees (st : State F M K) (i : Nat) (n : TNode F M K) : List (Line F) :=
  (distinctPrev st n.prev).filterMap (fun j =>
    match st.nodes[j]? with
    | none => none
    | some pn =>
      if forwardOrder st i = ((nextNodes st j).map (forwardOrder st)).foldl max 0 ∧ isConst pn.kind = false then some (.free pn.name) else none)

/-- 2325-2337, 446-464 `extra_expr`: the first argument of a method is the name of the first previous node, the others are those recorded. -/
def funcArgs (nm : Naming F M K) (st : State F M K) (n : TNode F M K) (f : F) : List NameRef :=
  match n.names with
  | [] => []
  | a :: as => (if nm.isClass f then prevName st n 0 else a) :: as

/-- 2325-2378: the lines for one node. -/
def genNode (nm : Naming F M K) (st : State F M K) (i : Nat) : List (Line F) :=
  match st.nodes[i]? with
  | none => []
  | some n =>
    let line := match n.kind with
      | .func f => [Line.assign n.name (.func f) (funcArgs nm st n f)]
      | .module m => [Line.assign n.name (.selfMod (modName st m)) ((List.range n.prev.length).map (prevName st n))]
      | _ => []
    line ++ frees st i n

/-- 2380-2385. -/
def genRet (st : State F M K) (i : Nat) : RetExpr :=
  match st.nodes[i]? with
  | none => .one ⟨false, "", []⟩
  | some n => if n.rev then .list ((List.range n.prev.length).map (prevName st n)) else .one (prevName st n 0)

/-- 2320-2389 `__gen_forward_code`, with 2254-2318. -/
def generate (nm : Naming F M K) (st : State F M K) : Code F M K :=
  ⟨genInit st, st.inputs.map (fun i => (st.nodes[i]?).elim "" (·.name)), (st.forward.map (genNode nm st)).flatten, st.outputs.map (genRet st)⟩

/-! ### Running the generated code -/

/-- The local variables; a name that is unbound or `None` has no value. -/
abbrev Env (T : Type) := String → Option (Out T)

def attr (attrs : List (String × (K ⊕ M))) (name : String) : Option (K ⊕ M) := (attrs.find? (fun a => a.1 = name)).map (·.2)

variable {T : Type}

def readName (s : Sem F M K T) (code : Code F M K) (env : Env T) (r : NameRef) : Option T :=
  if r.self then
    match attr code.attrs r.name with
    | some (.inl k) => (Out.one (s.konst k)).get r.path
    | _ => none
  else (env r.name).bind (fun o => o.get r.path)

def callFn (s : Sem F M K T) (code : Code F M K) : Fn F → List T → Option (Out T)
  | .func f, args => some (s.fn f args)
  | .selfMod name, args => match attr code.attrs name with
    | some (.inr m) => some (s.mod m args)
    | _ => none

def execLine (s : Sem F M K T) (code : Code F M K) (env : Env T) : Line F → Option (Env T)
  | .assign t fn args => do
    let vs ← args.mapM (readName s code env)
    let v ← callFn s code fn vs
    some (upd env t (some v))
  | .free name => some (upd env name none)

def execRet (s : Sem F M K T) (code : Code F M K) (env : Env T) : RetExpr → Option (Out T)
  | .one r => (readName s code env r).map .one
  | .list rs => (rs.mapM (readName s code env)).map (fun ts => .seq (ts.map .leaf))

/-- Call the generated model. -/
def exec (s : Sem F M K T) (code : Code F M K) (ins : List (Out T)) : Option (List (Out T)) :=
  if ins.length = code.params.length then do
    let env := (code.params.zip ins).foldl (fun env a => upd env a.1 (some a.2)) (fun _ => none)
    let env ← code.body.foldlM (execLine s code) env
    code.ret.mapM (execRet s code env)
  else none

end Verif.Model.Tracer
