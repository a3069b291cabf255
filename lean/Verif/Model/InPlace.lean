import Verif.Spec.InPlace

/-!
Model of tracing a model with in-place operations and of the code generated for it (`tinynn/graph/tracer.py`).  Only what in-place operations add: arguments, modules, constants and the dropping of
variables are C81 and C92.  A tensor object is named by the node recorded for it and, if the node has several results, an index.
-/

namespace Verif.Model.InPlace
open Verif.Spec.InPlace

variable {F V : Type}

/-- The name of a tensor in generated code (tracer.py:506-532, 279-316). -/
structure Name where
  node : ℕ
  index : Option ℕ
  deriving DecidableEq

/-- Lines of the generated `forward`; each defines the next node. -/
inductive Line (F V : Type)
  | call (f : F) (args : List Name)
  | view (l : Lens V) (a : Name)
  | split (ls : List (Lens V)) (a : Name)
  /-- `a = n = a.__add__(...)` (tracer.py:2337-2352). -/
  | rebind (f : F) (a : Name) (args : List Name)
  | meth (f : F) (a : Name) (args : List Name)

/-- Names of the arguments. -/
def names (tbl : List Name) : List ℕ → Option (List Name)
  | [] => some []
  | a :: as =>
    match tbl[a]?, names tbl as with
    | some n, some ns => some (n :: ns)
    | _, _ => none

/-- One statement while tracing (tracer.py:1018-1078, 1557-1638): the recorded line, if any, and the names of all tensors so far.  The result of an operation in place is an object that is already known,
and `noop_handler` (1473-1501) gives a new object for it; `__setitem__` returns nothing and is not recorded (1061-1078, 3337-3346). -/
def record (node : ℕ) (tbl : List Name) : Stmt F V → Option (List (Line F V) × List Name)
  | .call f args => (names tbl args).map fun ns => ([.call f ns], tbl ++ [⟨node, none⟩])
  | .view l a => (tbl[a]?).map fun n => ([.view l n], tbl ++ [⟨node, none⟩])
  | .split ls a => (tbl[a]?).map fun n => ([.split ls n], tbl ++ (List.range ls.length).map fun i => ⟨node, some i⟩)
  | .iop f a args =>
    match tbl[a]?, names tbl args with
    | some n, some ns => some ([.rebind f n ns], tbl ++ [⟨node, none⟩])
    | _, _ => none
  | .meth f a args =>
    match tbl[a]?, names tbl args with
    | some n, some ns => some ([.meth f n ns], tbl ++ [⟨node, none⟩])
    | _, _ => none
  | .setitem _ _ _ => some ([], tbl)

/-- Tracing a program. -/
def trace : ℕ → List Name → List (Stmt F V) → Option (List (Line F V) × List Name)
  | _, tbl, [] => some ([], tbl)
  | node, tbl, s :: ss =>
    match record node tbl s with
    | none => none
    | some (ls, tbl') =>
      match trace (node + ls.length) tbl' ss with
      | none => none
      | some (rest, tbl'') => some (ls ++ rest, tbl'')

/-- What a node is bound to: a tensor or a tuple. -/
inductive Entry (V : Type)
  | one (r : Ref V)
  | many (rs : List (Ref V))

/-- State of the generated code. -/
structure State (V : Type) where
  store : List V
  env : List (Entry V)

/-- Evaluating a name. -/
def lookup (env : List (Entry V)) (n : Name) : Option (Ref V) :=
  match env[n.node]?, n.index with
  | some (.one r), none => some r
  | some (.many rs), some i => rs[i]?
  | _, _ => none

/-- Values of names. -/
def State.values (m : State V) : List Name → Option (List V)
  | [] => some []
  | a :: as =>
    match lookup m.env a with
    | none => none
    | some r =>
      match value m.store r, m.values as with
      | some v, some vs => some (v :: vs)
      | _, _ => none

/-- One line; assigning to an element of a tuple is an error. -/
def step (sem : F → List V → V) (m : State V) : Line F V → Option (State V)
  | .call f args => (m.values args).map fun vs => ⟨m.store ++ [sem f vs], m.env ++ [.one ⟨m.store.length, Lens.whole⟩]⟩
  | .view l a => (lookup m.env a).map fun r => ⟨m.store, m.env ++ [.one ⟨r.storage, r.lens.comp l⟩]⟩
  | .split ls a => (lookup m.env a).map fun r => ⟨m.store, m.env ++ [.many (ls.map fun l => ⟨r.storage, r.lens.comp l⟩)]⟩
  | .rebind f a args =>
    match a.index, m.values (a :: args) with
    | none, some vs => some ⟨m.store ++ [sem f vs], m.env.set a.node (.one ⟨m.store.length, Lens.whole⟩) ++ [.one ⟨m.store.length, Lens.whole⟩]⟩
    | _, _ => none
  | .meth f a args =>
    match lookup m.env a, m.values (a :: args) with
    | some r, some vs => (write m.store r (sem f vs)).map fun st => ⟨st, m.env ++ [.one r]⟩
    | _, _ => none

/-- The generated code. -/
def steps (sem : F → List V → V) : List (Line F V) → State V → Option (State V)
  | [], m => some m
  | l :: ls, m => (step sem m l).bind (steps sem ls)

/-- The inputs of the generated code. -/
def begin_ (xs : List V) : State V := ⟨xs, (List.range xs.length).map fun i => .one ⟨i, Lens.whole⟩⟩

/-- Names of the inputs. -/
def inputNames (k : ℕ) : List Name := (List.range k).map fun i => ⟨i, none⟩

/-- Tracing, generating and running: the values returned and the storages of the caller afterwards. -/
def generated (sem : F → List V → V) (ss : List (Stmt F V)) (outs : List ℕ) (xs : List V) : Option (List V × List V) :=
  match trace xs.length (inputNames xs.length) ss with
  | none => none
  | some (ls, tbl) =>
    match names tbl outs, steps sem ls (begin_ xs) with
    | some ns, some m => (m.values ns).map fun vs => (vs, m.store.take xs.length)
    | _, _ => none

/-- The original: the values returned and the storages of the caller afterwards. -/
def original (sem : F → List V → V) (ss : List (Stmt F V)) (outs : List ℕ) (xs : List V) : Option (List V × List V) :=
  match run sem ss (start xs) with
  | none => none
  | some m => (m.values outs).map fun vs => (vs, m.store.take xs.length)

/-- Nodes a line reads. -/
def Line.reads : Line F V → List ℕ
  | .call _ args => args.map Name.node
  | .view _ a | .split _ a => [a.node]
  | .rebind _ a args | .meth _ a args => a.node :: args.map Name.node

/-- `eliminate_dead_graph_pass` (tracer.py:2057-2076) for the lines from node `n` on: lines no output depends on do nothing; the place of a dropped line is kept so that nodes keep their numbers. -/
def live (outs : List ℕ) : ℕ → List (Line F V) → List (Option (Line F V)) × List ℕ
  | _, [] => ([], outs)
  | n, l :: ls =>
    let (rest, need) := live outs (n + 1) ls
    if need.contains n then (some l :: rest, l.reads ++ need) else (none :: rest, need)

/-- Running what is left. -/
def stepsLive (sem : F → List V → V) : List (Option (Line F V)) → State V → Option (State V)
  | [], m => some m
  | some l :: ls, m => (step sem m l).bind (stepsLive sem ls)
  | none :: ls, m => stepsLive sem ls ⟨m.store, m.env ++ [.many []]⟩

/-- The generated code with `eliminate_dead_graph`. -/
def generatedLive (sem : F → List V → V) (ss : List (Stmt F V)) (outs : List ℕ) (xs : List V) : Option (List V) :=
  match trace xs.length (inputNames xs.length) ss with
  | none => none
  | some (ls, tbl) =>
    match names tbl outs with
    | none => none
    | some ns => (stepsLive sem (live (ns.map Name.node) xs.length ls).1 (begin_ xs)).bind fun m => m.values ns

end Verif.Model.InPlace
