/-!
The constructor lines the tracer remembers for modules, by the address of the module.

Modelled code: tinynn/graph/tracer.py
  new_init_gen                 (995-1036)
  new_setattr_gen              (764-795)
  register_submodule_tracer    (1673-1692, which modules become nodes)
  TraceGraph.__gen_init_code   (2267-2278 and 2305-2314, which line a node gets)
Simplifications: `m.id` is a natural number; the tracing lock is free whenever user code runs and held while a constructor runs, so attributes set by a constructor are not seen by the wrapper (770-771);
the text of the line is replaced by the class and the arguments it is made of.
-/

namespace Verif.Model.CtorLines

/-- An object: a number that is never used twice, its class, and the values of its attributes. -/
structure Obj (K V : Type) where
  serial : Nat
  cls : K
  get : String → V

/-- `module_constructor_traced`, `module_constructor_lines`, `module_constructor_weakrefs` (lines 149-151), and the objects that are alive. -/
structure St (K V C : Type) where
  traced : Nat → Bool
  lines : Nat → Option (K × C)
  refs : Nat → Option Nat
  heap : Nat → Option (Obj K V)
  next : Nat

/-- Storing a value under a key. -/
def upd {A : Type} (f : Nat → A) (i : Nat) (a : A) : Nat → A := fun j => if j = i then a else f j

/-- Nothing constructed yet. -/
def St.empty {K V C : Type} : St K V C := ⟨fun _ => false, fun _ => none, fun _ => none, fun _ => none, 0⟩

/-- What is known of the classes: `__constants__`, whether it is one of PyTorch's classes the tracer wraps or a subclass of one, and what a constructor does to a new object. -/
structure World (K V C : Type) where
  constants : K → List String
  overridable : K → Bool
  build : K → C → String → V

variable {K V C : Type}

/-- `module_constructor_weakrefs[id(obj)]() is None`. -/
def refDead (st : St K V C) (i : Nat) : Bool :=
  match st.refs i, st.heap i with
  | some s, some o => o.serial != s
  | some _, none => true
  | none, _ => false

/-- `new_init` (998-1033) around the constructor of class `k`, for an object already allocated at address `i`; `exact`: the object is of that class, not of a subclass; `ok`: the types of all arguments are supported. -/
def newInit (st : St K V C) (i : Nat) (exact ok : Bool) (k : K) (c : C) : St K V C :=
  let st1 := { st with traced := upd st.traced i true }
  if (st1.lines i).isNone || refDead st1 i then
    if exact then
      if ok then
        match st1.heap i with
        | some o => { st1 with lines := upd st1.lines i (some (k, c)), refs := upd st1.refs i (some o.serial) }
        | none => st1
      else st1
    else { st1 with traced := upd st1.traced i false }
  else st1

/-- Things a program does. -/
inductive Ev (K V C : Type) where
  /-- an object of a wrapped class is constructed at address `i` -/
  | create (i : Nat) (k : K) (c : C) (ok : Bool)
  /-- an object of a subclass is constructed, whose constructor calls that of the wrapped class -/
  | createSub (i : Nat) (k : K) (g : String → V) (c : C) (ok : Bool)
  /-- an object comes into being without its constructor: by copying or unpickling -/
  | appear (i : Nat) (k : K) (g : String → V)
  /-- the constructor is called again -/
  | reinit (i : Nat) (c : C) (ok : Bool)
  /-- an attribute is set -/
  | set (i : Nat) (n : String) (v : V)
  /-- the object is freed -/
  | die (i : Nat)

/-- Setting an attribute, 768-793; `none` is the `KeyError` of line 791. -/
def setAttr (w : World K V C) (st : St K V C) (i : Nat) (o : Obj K V) (n : String) (v : V) : Option (St K V C) :=
  let heap := upd st.heap i (some { o with get := fun m => if m = n then v else o.get m })
  if st.traced i && (w.constants o.cls).contains n then
    match st.lines i with
    | some _ => some { st with traced := upd st.traced i false, lines := upd st.lines i none, heap := heap }
    | none => none
  else some { st with heap := heap }

/-- One thing happening.  Objects are only allocated at free addresses, and only live ones are used: otherwise nothing happens. -/
def step (w : World K V C) (st : St K V C) (e : Ev K V C) : Option (St K V C) :=
  match e with
  | .create i k c ok =>
    if (st.heap i).isNone then
      some (newInit { st with heap := upd st.heap i (some ⟨st.next, k, w.build k c⟩), next := st.next + 1 } i true ok k c)
    else some st
  | .createSub i k g c ok =>
    if (st.heap i).isNone then
      some (newInit { st with heap := upd st.heap i (some ⟨st.next, k, g⟩), next := st.next + 1 } i false ok k c)
    else some st
  | .appear i k g => if (st.heap i).isNone then some { st with heap := upd st.heap i (some ⟨st.next, k, g⟩), next := st.next + 1 } else some st
  | .reinit i c ok =>
    match st.heap i with
    | some o => some (newInit { st with heap := upd st.heap i (some { o with get := w.build o.cls c }) } i true ok o.cls c)
    | none => some st
  | .set i n v =>
    match st.heap i with
    | some o => setAttr w st i o n v
    | none => some st
  | .die i => some { st with heap := upd st.heap i none }

/-- A whole program. -/
def run (w : World K V C) : St K V C → List (Ev K V C) → Option (St K V C)
  | st, [] => some st
  | st, e :: r => match step w st e with
    | some s => run w s r
    | none => none

/-- What the generated code does for a module: call the remembered constructor, call one written from what the module looks like now, or do without the module and spell out its forward function. -/
inductive Emit (K C : Type) where
  | recorded (k : K) (c : C)
  | fromState
  | inlined
  deriving DecidableEq

/-- `related`, 1673-1687. -/
def related (w : World K V C) (st : St K V C) (i : Nat) (o : Obj K V) : Bool :=
  if st.traced i then (st.lines i).isSome && (st.refs i).isSome && !refDead st i else w.overridable o.cls

/-- The line a module gets, 2267-2314. -/
def emit (w : World K V C) (st : St K V C) (i : Nat) (o : Obj K V) : Emit K C :=
  if related w st i o then
    match st.lines i with
    | some (k, c) => .recorded k c
    | none => .fromState
  else .inlined

end Verif.Model.CtorLines
