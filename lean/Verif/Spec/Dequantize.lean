import Mathlib.Data.Rat.Defs
import Mathlib.Logic.Function.Basic
/-!
Models that use `FloatFunctional` objects and stubs, and what they compute.  Independent of the code in `/repo`; the signatures are those of PyTorch.
-/

namespace Verif.Spec.Dequantize

/-- What an argument of a call can be. -/
inductive Val (T : Type) where
  | one (t : T)
  | many (ts : List T)
  | num (q : ℚ)
  deriving DecidableEq

/-- Functions of `torch`. -/
inductive Fn where
  | add | mul | cat | relu | matmul
  deriving DecidableEq

/-- Methods of `torch.nn.quantized.FloatFunctional`. -/
inductive Meth where
  | add | mul | cat | addRelu | addScalar | mulScalar | matmul
  deriving DecidableEq

/-- A parameter: the names it can be given by, and its default. -/
structure Param (T : Type) where
  names : List String
  default : Option (Val T)

/-- Binding of the arguments of a call in Python; `none` is the TypeError. -/
def bindArgs {T : Type} : List (Param T) → List (Val T) → List (String × Val T) → Option (List (Val T))
  | [], [], [] => some []
  | [], _, _ => none
  | p :: ps, v :: vs, kw => if kw.any fun e => p.names.contains e.1 then none else (bindArgs ps vs kw).map (v :: ·)
  | p :: ps, [], kw => match kw.find? (fun e => p.names.contains e.1) with
    | some e => (bindArgs ps [] (kw.filter fun e => !p.names.contains e.1)).map (e.2 :: ·)
    | none => match p.default with
      | some v => (bindArgs ps [] kw).map (v :: ·)
      | none => none

/-- The parameters of the functions; PyTorch accepts NumPy's names too. -/
def Fn.params {T : Type} : Fn → List (Param T)
  | .add | .mul | .matmul => [⟨["input", "x", "a", "x1"], none⟩, ⟨["other", "x2"], none⟩]
  | .cat => [⟨["tensors"], none⟩, ⟨["dim", "axis"], some (.num 0)⟩]
  | .relu => [⟨["input", "x", "a", "x1"], none⟩]

/-- The parameters of the methods. -/
def Meth.params {T : Type} : Meth → List (Param T)
  | .cat => [⟨["x"], none⟩, ⟨["dim"], some (.num 0)⟩]
  | _ => [⟨["x"], none⟩, ⟨["y"], none⟩]

/-- What the functions compute. -/
abbrev Torch (T : Type) := Fn → List (Val T) → Option T

/-- A call of a function. -/
def callFn {T : Type} (t : Torch T) (f : Fn) (pos : List (Val T)) (kw : List (String × Val T)) : Option T := (bindArgs f.params pos kw).bind (t f)

/-- What the methods compute when nothing is quantized. -/
def Meth.compute {T : Type} (t : Torch T) (m : Meth) (vs : List (Val T)) : Option T := match m with
  | .add | .addScalar => t .add vs
  | .mul | .mulScalar => t .mul vs
  | .cat => t .cat vs
  | .matmul => t .matmul vs
  | .addRelu => (t .add vs).bind fun r => t .relu [.one r]

/-- A call of a method. -/
def callMeth {T : Type} (t : Torch T) (m : Meth) (pos : List (Val T)) (kw : List (String × Val T)) : Option T := (bindArgs m.params pos kw).bind (m.compute t)

/-- An argument in the text of a model. -/
inductive Arg where
  | tensor (n : ℕ)
  | tensors (ns : List ℕ)
  | num (q : ℚ)
  deriving DecidableEq

/-- Arguments: by place and by name. -/
structure Args where
  pos : List Arg
  kw : List (String × Arg)
  deriving DecidableEq

/-- An operation: stubs, calls of methods of the object `self.obj`, functions of `torch`, and anything else. -/
inductive Op (T : Type) where
  | stub (src : ℕ)
  | meth (obj : ℕ) (m : Meth) (args : Args)
  | fn (f : Fn) (args : Args)
  | other (srcs : List ℕ) (f : List T → Option T)

/-- A line `name = op` of a model. -/
structure Node (T : Type) where
  name : ℕ
  op : Op T

/-- A model: the `FloatFunctional` objects made in `__init__`, the lines of `forward`, and what is returned. -/
structure Net (T : Type) where
  objs : List ℕ
  nodes : List (Node T)
  outs : List ℕ

/-- The values of variables. -/
abbrev Env (T : Type) := ℕ → Option T

def Arg.value {T : Type} (e : Env T) : Arg → Option (Val T)
  | .tensor n => (e n).map .one
  | .tensors ns => (ns.mapM e).map .many
  | .num q => some (.num q)

def kwValue {T : Type} (e : Env T) (k : String × Arg) : Option (String × Val T) := (k.2.value e).map fun v => (k.1, v)

/-- Running a line; a stub returns its input, and a method needs its object. -/
def Op.eval {T : Type} (t : Torch T) (objs : List ℕ) (e : Env T) : Op T → Option T
  | .stub s => e s
  | .meth o m a => if o ∈ objs then (a.pos.mapM (Arg.value e)).bind fun pos => (a.kw.mapM (kwValue e)).bind fun kw => callMeth t m pos kw else none
  | .fn f a => (a.pos.mapM (Arg.value e)).bind fun pos => (a.kw.mapM (kwValue e)).bind fun kw => callFn t f pos kw
  | .other srcs f => (srcs.mapM e).bind f

def runNodes {T : Type} (t : Torch T) (objs : List ℕ) : List (Node T) → Env T → Option (Env T)
  | [], e => some e
  | n :: ns, e => (n.op.eval t objs e).bind fun v => runNodes t objs ns (Function.update e n.name (some v))

/-- What a model returns for values of its inputs and constants; `none` is an exception. -/
def Net.run {T : Type} (t : Torch T) (g : Net T) (inputs : Env T) : Option (List T) := (runNodes t g.objs g.nodes inputs).bind fun e => g.outs.mapM e

def Arg.reads : Arg → List ℕ
  | .tensor n => [n]
  | .tensors ns => ns
  | .num _ => []

/-- The variables an operation reads. -/
def Op.reads {T : Type} : Op T → List ℕ
  | .stub s => [s]
  | .meth _ _ a | .fn _ a => a.pos.flatMap Arg.reads ++ a.kw.flatMap fun k => k.2.reads
  | .other srcs _ => srcs

/-- Every line reads what was there before it, and gives a new name. -/
def Ordered {T : Type} : List ℕ → List (Node T) → Prop
  | _, [] => True
  | seen, n :: ns => n.op.reads ⊆ seen ∧ n.name ∉ seen ∧ Ordered (seen ++ [n.name]) ns

/-- A model as tracing gives it, with given names of inputs and constants. -/
structure Net.Ok {T : Type} (g : Net T) (ins : List ℕ) : Prop where
  ordered : Ordered ins g.nodes
  outs : g.outs ⊆ ins ++ g.nodes.map Node.name
  objs : ∀ n ∈ g.nodes, ∀ o m a, n.op = .meth o m a → o ∈ g.objs

end Verif.Spec.Dequantize
