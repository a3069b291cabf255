import Verif.Spec.CodeFiles
/-!
The files `generate_code` writes, and its check.

Modelled code: tinynn/graph/tracer.py
  ConstantNode, ConstantNode.parse           (320-389)
  the creation of constants                  (883-900)
  TraceGraph.__gen_init_code                 (2254-2318)
  TraceGraph.generate_code                   (2439-2456 the weights, 2484-2510 the check)
and tinynn/util/util.py tensors2ndarray (189-213).
Simplifications: names of entries of a state dictionary are pairs instead of strings with a dot; a constructor line gives a module with the parameters of the traced one in the same shapes (C128) and arbitrary
numbers in them; names and their uniqueness are C81; code of `forward` is C81.
-/

namespace Verif.Model.CodeFiles
open Verif.Spec Verif.Spec.CodeFiles

/-- A module: its identity and its state dictionary. -/
structure Mod where
  id : Nat
  state : List (String × Arr)

/-- A tensor of the model that is no result: `data` is what `tolist` gave while tracing (892), `now` what the model has when code is generated. -/
structure Const where
  name : String
  isParam : Bool
  traced : Arr
  now : Arr

/-- 890-891. -/
def Const.persistent (c : Const) : Bool := decide (c.traced.data.length > 50)

/-- A node that may need a line in `__init__`. -/
inductive Item where
  | const (c : Const)
  | mod (name : String) (m : Mod)
  | fn (name : String)

def Item.name : Item → String
  | .const c => c.name
  | .mod n _ => n
  | .fn n => n

def Item.modId : Item → Option Nat
  | .mod _ m => some m.id
  | _ => none

/-- What the graph holds: constants, nodes of `forward` and other modules needed. -/
structure Graph where
  consts : List Const
  forward : List Item
  others : List (String × Mod)

/-- A line of `__init__`. -/
inductive Line where
  | mod (name : String) (m : Mod)
  | param (name : String) (shape : List Nat)
  | buffer (name : String) (shape : List Nat)
  | literal (name : String) (n : Nat) (l : Nested n)

/-- The line for a node, 2267-2314; functions get none. -/
def lineFor : Item → List Line
  | .const c =>
    if c.isParam then [.param c.name c.traced.shape]
    else if c.persistent then [.buffer c.name c.traced.shape]
    else [.literal c.name _ (toList c.traced.shape c.traced.data)]
  | .mod n m => [.mod n m]
  | .fn _ => []

/-- 2260-2266: names and modules that had their line already are skipped. -/
def initLines (names : List String) (ids : List Nat) : List Item → List Line
  | [] => []
  | it :: rest =>
    if it.name ∈ names ∨ ∃ i, it.modId = some i ∧ i ∈ ids then initLines names ids rest
    else lineFor it ++ initLines (names ++ [it.name]) (ids ++ it.modId.toList) rest

/-- `__gen_init_code`. -/
def genInit (g : Graph) : List Line := initLines [] [] (g.consts.map Item.const ++ g.forward ++ g.others.map fun o => Item.mod o.1 o.2)

/-- 2441-2444: the modules put into the model whose state is saved. -/
def savedMods (ids : List Nat) : List Item → List (String × Mod)
  | [] => []
  | .mod n m :: rest => if m.id ∈ ids then savedMods ids rest else (n, m) :: savedMods (ids ++ [m.id]) rest
  | _ :: rest => savedMods ids rest

/-- The entries of a module. -/
def entries (p : String × Mod) : List (Key × Arr) := p.2.state.map fun e => ((p.1, some e.1), e.2)

/-- 2446-2456: the saved state dictionary. -/
def saved (g : Graph) : List (Key × Arr) :=
  (savedMods [] g.forward).flatMap entries ++
  (g.consts.filter fun c => c.isParam || c.persistent).map fun c => ((c.name, none), ofList _ (toList c.traced.shape c.traced.data))

/-- Evaluating a literal: `_stringify_list` (369-380) writes numbers as `str` does, and `inf` and `nan` are names Python does not know in the generated file; `none` is the NameError. -/
def evalLiteral (n : Nat) (l : Nested n) : Option Arr :=
  if (flatten n l).all fun e => match e with | .num _ => true | _ => false then some (ofList n l) else none

/-- An object of the generated class: what is in its state dictionary, and its other constants. -/
structure Inst where
  state : List (Key × Arr)
  literals : List (String × Arr)

/-- Running a line; `junk` are the numbers of `torch.empty` and of initialisations. -/
def runLine (junk : Key → List Nat → List Elt) (o : Inst) : Line → Option Inst
  | .mod n m => some { o with state := o.state ++ m.state.map fun e => ((n, some e.1), ⟨e.2.shape, junk (n, some e.1) e.2.shape⟩) }
  | .param n s => some { o with state := o.state ++ [((n, none), ⟨s, junk (n, none) s⟩)] }
  | .buffer n s => some { o with state := o.state ++ [((n, none), ⟨s, junk (n, none) s⟩)] }
  | .literal n d l => (evalLiteral d l).map fun a => { o with literals := o.literals ++ [(n, a)] }

/-- `Model()` of the generated file. -/
def construct (junk : Key → List Nat → List Elt) (ls : List Line) : Option Inst := ls.foldlM (runLine junk) ⟨[], []⟩

/-- The names `named_parameters` gives for the model itself, without its submodules: what `register_parameter` got (2276-2284); a buffer or a literal is none. -/
def params (ls : List Line) : List String := ls.filterMap fun l => match l with
  | .param n _ => some n
  | _ => none

/-- Importing the generated file, creating the model and loading the weights (2493-2496, and what users do). -/
def restore (junk : Key → List Nat → List Elt) (g : Graph) : Option Inst :=
  (construct junk (genInit g)).bind fun o => (load o.state (saved g)).map fun st => { o with state := st }

/-- The constant `self.name` of the restored model. -/
def Inst.const (o : Inst) (name : String) : Option Arr := match o.state.lookup (name, none) with
  | some a => some a
  | none => o.literals.lookup name

/-- The results of a model, as far as the check cares. -/
inductive Out where
  | tensor (t : Tensor Elt)
  | seq (l : List Out)
  | scalar
  | object

/-- `tensors2ndarray`; `none`: for any other object with members line 210 reads `v` before it is assigned, an UnboundLocalError. -/
def ndarrays : Out → Option (List (Tensor Elt))
  | .tensor t => some [t]
  | .seq l => l.attach.foldr (fun o acc => (ndarrays o.1).bind fun a => acc.map fun b => a ++ b) (some [])
  | .scalar => some []
  | .object => none
termination_by o => sizeOf o
decreasing_by
  have := List.sizeOf_lt_of_mem o.2
  simp only [Out.seq.sizeOf_spec]
  omega

/-- 2500-2506: every output is compared with the new one at its position. -/
def checkPasses (orig new : List (Tensor Elt)) : Prop := ∀ i (h : i < orig.length), ∃ n p, new[i]? = some n ∧ allclose orig[i] n = some p ∧ p

/-- The training flags of the model (first) and its submodules after the check: 2485, 2489, 2508-2509. -/
def flagsAfter (flags : List Bool) : List Bool :=
  let evaled := flags.map fun _ => false
  if flags.headD false then evaled.map fun _ => true else evaled

end Verif.Model.CodeFiles
