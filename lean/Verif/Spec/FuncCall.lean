import Mathlib.Data.Rat.Cast.Defs
import Mathlib.Data.Real.Basic
import Verif.Spec.Activation
import Verif.Spec.AxisOps

/-!
Specification for C87: what the calls of a straight-line PyTorch program compute, over the real numbers.

A call has tensor operands and further arguments, which are literals given by position or by keyword. Only values are modelled: `inplace=True` changes nothing here.
-/

namespace Verif.Spec.FuncCall

/-- A Python literal. `dot` tells whether Python prints the float with a decimal point (`0.5`, `1.5e-05`) or without (`1e-05`). -/
inductive Lit
  | none
  | bool (b : Bool)
  | int (z : ℤ)
  | float (q : ℚ) (dot : Bool)
  deriving DecidableEq

/-- The number a literal stands for. -/
def Lit.num : Lit → Option ℚ
  | .none => .none
  | .bool b => some (if b then 1 else 0)
  | .int z => some z
  | .float q _ => some q

/-- The arguments of a call after its tensor operands. -/
structure Args where
  pos : List Lit
  kw : List (String × Lit)
  deriving DecidableEq

def Args.empty : Args := ⟨[], []⟩

/-- Python's rule for the parameters one after the other: the next positional argument, which excludes a keyword for the same parameter, or the keyword, or the default. -/
def bindParams : List (String × Option Lit) → List Lit → List (String × Lit) → Option (List Lit)
  | [], _, _ => some []
  | (n, _) :: ps, v :: pos, kw => if kw.any (fun k => k.1 = n) then none else (bindParams ps pos kw).map (v :: ·)
  | (n, d) :: ps, [], kw => match kw.lookup n with
    | some v => (bindParams ps [] kw).map (v :: ·)
    | none => match d with
      | some v => (bindParams ps [] kw).map (v :: ·)
      | none => none

/-- Python's binding of arguments to parameters, with an optional default each; `none` is the TypeError. With `*args, **kwargs` (`extra`) further arguments are accepted. -/
def bindArgs (params : List (String × Option Lit)) (extra : Bool) (a : Args) : Option (List Lit) :=
  if extra ∨ (a.pos.length ≤ params.length ∧ ∀ k ∈ a.kw, k.1 ∈ params.map Prod.fst) then bindParams params a.pos a.kw else none

/-- Functions of PyTorch; `other k` is any function not listed. `rdiv`, `rsub`, `radd`, `rmul` are the reflected operators, as in `1 - x`. -/
inductive Fn
  | neg | div | rdiv | sub | rsub | add | radd | mul | rmul | stack | cat | unsqueeze | clamp | clampMin | clampMax
  | relu | relu6 | leakyRelu | elu | glu | sigmoid | tanh | hardswish | silu | dropout | other (k : Nat)
  deriving DecidableEq

/-- The methods of `torch.nn.quantized.FloatFunctional`. -/
inductive FF
  | add | mul | addScalar | mulScalar | cat | addRelu
  deriving DecidableEq

/-- The modules of `torch.nn` with their parameters. -/
inductive Mod
  | relu | relu6 | leakyRelu (slope : ℚ) | elu (alpha : ℚ) | glu (dim : ℤ) | sigmoid | tanh | hardswish | silu | dropout (p : ℚ) | identity
  deriving DecidableEq

/-- An operation of a program; `missing` is a function that does not exist. -/
inductive Op
  | fn (f : Fn) (a : Args)
  | ff (f : FF) (a : Args)
  | mod (m : Mod)
  | missing
  deriving DecidableEq

/-- What is left open: whether the model is in training mode, what dropout of a given probability does, and the functions not listed. -/
structure World where
  training : Bool
  drop : ℚ → Tensor ℝ → Tensor ℝ
  other : Nat → Args → List (Tensor ℝ) → Option (Tensor ℝ)

/-- A dimension counted from the front or, if negative, from the end. -/
def dimOf (rank : Nat) (d : ℤ) : Option Nat :=
  if 0 ≤ d ∧ d < rank then some d.toNat else if -rank ≤ d ∧ d < 0 then some (d + rank).toNat else none

/-- `F.relu`. -/
noncomputable def reluR (x : ℝ) : ℝ := max x 0

/-- `F.hardswish`. -/
noncomputable def hardswishR (x : ℝ) : ℝ := x * (min (max (x + 3) 0) 6 / 6)

/-- `F.leaky_relu`. -/
noncomputable def leaky (s x : ℝ) : ℝ := if 0 < x then x else s * x

/-- `torch.unsqueeze(x, d)`. -/
def unsqueezeT (d : ℤ) (t : Tensor ℝ) : Option (Tensor ℝ) :=
  (dimOf (t.shape.length + 1) d).map (fun a => ⟨t.shape.insertIdx a 1, fun idx => t.get (idx.eraseIdx a)⟩)

/-- `torch.stack(ts, d)`: tensors of one shape along a new axis. -/
noncomputable def stackT (d : ℤ) (ts : List (Tensor ℝ)) : Option (Tensor ℝ) :=
  match ts with
  | [] => none
  | t :: _ => (dimOf (t.shape.length + 1) d).bind (fun a =>
      if ∀ u ∈ ts, u.shape = t.shape then
        some ⟨t.shape.insertIdx a ts.length, fun idx => ((ts.map (fun u => u.get (idx.eraseIdx a)))[idx.getD a 0]?).getD 0⟩
      else none)

/-- `torch.cat(ts, d)`: the sizes agree off the axis. -/
noncomputable def catT (d : ℤ) (ts : List (Tensor ℝ)) : Option (Tensor ℝ) :=
  match ts with
  | [] => none
  | t :: _ => (dimOf t.shape.length d).bind (fun a =>
      if ∀ u ∈ ts, u.shape.set a 0 = t.shape.set a 0 then some (concat a ts) else none)

/-- An integer literal. -/
def Lit.toInt : Lit → Option ℤ
  | .int z => some z
  | _ => Option.none

/-- A Boolean literal. -/
def Lit.toBool : Lit → Option Bool
  | .bool b => some b
  | _ => Option.none

/-- A scalar operation `x ∘ c` on the first operand, with the second one a literal. -/
noncomputable def withScalar (f : ℝ → ℝ → ℝ) (l : Lit) (t : Tensor ℝ) : Option (Tensor ℝ) := l.num.map (fun c : ℚ => mapTensor (fun x => f x (c : ℝ)) t)

/-- `dim`, also accepted under NumPy's name `axis`, with default 0. -/
def dimArg (a : Args) : Option ℤ :=
  (bindArgs [("dim", some (.int 0))] false ⟨a.pos, a.kw.map (fun k => (if k.1 = "axis" then "dim" else k.1, k.2))⟩).bind (fun l => match l with
    | [d] => d.toInt
    | _ => none)

/-- Bounds of `torch.clamp`; at least one must be given. -/
noncomputable def clampBy (lo hi : Lit) (t : Tensor ℝ) : Option (Tensor ℝ) :=
  if lo = .none ∧ hi = .none then none
  else some (mapTensor (Activation.clamp (lo.num.map (fun q : ℚ => (q : ℝ))) (hi.num.map (fun q : ℚ => (q : ℝ)))) t)

/-- `F.glu(x, dim)`: the axis has an even size. -/
noncomputable def gluBy (d : ℤ) (t : Tensor ℝ) : Option (Tensor ℝ) :=
  (dimOf t.shape.length d).bind (fun a => if 2 ∣ t.shape.getD a 0 then some (Activation.glu a t) else none)

/-- Parameters of `F.dropout`. -/
def dropoutParams : List (String × Option Lit) := [("p", some (.float (1 / 2) true)), ("training", some (.bool true)), ("inplace", some (.bool false))]

/-- PyTorch's functions, with their signatures. `none` is an exception. -/
noncomputable def Fn.sem (w : World) (f : Fn) (a : Args) (ts : List (Tensor ℝ)) : Option (Tensor ℝ) :=
  match f, ts with
  | .neg, [x] => (bindArgs [] false a).map (fun _ => mapTensor (fun v => -v) x)
  | .div, [x] => match bindArgs [("other", none)] false a with
    | some [c] => if c.num = some 0 then none else withScalar (· / ·) c x
    | _ => none
  | .div, [x, y] => if a = .empty then elementwise (· / ·) x y else none
  | .rdiv, [x] => match bindArgs [("other", none)] false a with
    | some [c] => withScalar (fun v k => k / v) c x
    | _ => none
  | .sub, [x] => match bindArgs [("other", none)] false ⟨a.pos, a.kw.filter (fun k => k.1 ≠ "alpha")⟩, bindArgs [("alpha", some (.int 1))] false ⟨[], a.kw.filter (fun k => k.1 = "alpha")⟩ with
    | some [c], some [al] => al.num.bind (fun al : ℚ => withScalar (fun v k => v - al * k) c x)
    | _, _ => none
  | .sub, [x, y] => match bindArgs [("alpha", some (.int 1))] false ⟨[], a.kw⟩ with
    | some [al] => if a.pos = [] then al.num.bind (fun al : ℚ => elementwise (fun v k => v - al * k) x y) else none
    | _ => none
  | .rsub, [x] => match bindArgs [("other", none)] false a with
    | some [c] => withScalar (fun v k => k - v) c x
    | _ => none
  | .rsub, [x, y] => if a = .empty then elementwise (fun v k => k - v) x y else none
  | .add, [x] => match bindArgs [("other", none)] false ⟨a.pos, a.kw.filter (fun k => k.1 ≠ "alpha")⟩, bindArgs [("alpha", some (.int 1))] false ⟨[], a.kw.filter (fun k => k.1 = "alpha")⟩ with
    | some [c], some [al] => al.num.bind (fun al : ℚ => withScalar (fun v k => v + al * k) c x)
    | _, _ => none
  | .add, [x, y] => match bindArgs [("alpha", some (.int 1))] false ⟨[], a.kw⟩ with
    | some [al] => if a.pos = [] then al.num.bind (fun al : ℚ => elementwise (fun v k => v + al * k) x y) else none
    | _ => none
  | .radd, [x] => match bindArgs [("other", none)] false a with
    | some [c] => withScalar (fun v k => k + v) c x
    | _ => none
  | .radd, [x, y] => if a = .empty then elementwise (fun v k => k + v) x y else none
  | .mul, [x] => match bindArgs [("other", none)] false a with
    | some [c] => withScalar (fun v k => v * k) c x
    | _ => none
  | .mul, [x, y] => if a = .empty then elementwise (fun v k => v * k) x y else none
  | .rmul, [x] => match bindArgs [("other", none)] false a with
    | some [c] => withScalar (fun v k => k * v) c x
    | _ => none
  | .rmul, [x, y] => if a = .empty then elementwise (fun v k => k * v) x y else none
  | .stack, ts => (dimArg a).bind (fun d => stackT d ts)
  | .cat, ts => (dimArg a).bind (fun d => catT d ts)
  | .unsqueeze, [x] => match bindArgs [("dim", none)] false a with
    | some [d] => d.toInt.bind (fun d => unsqueezeT d x)
    | _ => none
  | .clamp, [x] => match bindArgs [("min", some .none), ("max", some .none)] false a with
    | some [lo, hi] => clampBy lo hi x
    | _ => none
  | .clampMin, [x] => match bindArgs [("min", none)] false a with
    | some [lo] => clampBy lo .none x
    | _ => none
  | .clampMax, [x] => match bindArgs [("max", none)] false a with
    | some [hi] => clampBy .none hi x
    | _ => none
  | .relu, [x] => (bindArgs [("inplace", some (.bool false))] false a).map (fun _ => mapTensor reluR x)
  | .relu6, [x] => (bindArgs [("inplace", some (.bool false))] false a).map (fun _ => mapTensor (fun v => min (reluR v) 6) x)
  | .leakyRelu, [x] => match bindArgs [("negative_slope", some (.float (1 / 100) true)), ("inplace", some (.bool false))] false a with
    | some [s, _] => s.num.map (fun s : ℚ => mapTensor (leaky s) x)
    | _ => none
  | .elu, [x] => match bindArgs [("alpha", some (.float 1 true)), ("inplace", some (.bool false))] false a with
    | some [s, _] => s.num.map (fun s : ℚ => mapTensor (Activation.elu s 1 1) x)
    | _ => none
  | .glu, [x] => match bindArgs [("dim", some (.int (-1)))] false a with
    | some [d] => d.toInt.bind (fun d => gluBy d x)
    | _ => none
  | .sigmoid, [x] => (bindArgs [] false a).map (fun _ => mapTensor Activation.sigmoid x)
  | .tanh, [x] => (bindArgs [] false a).map (fun _ => mapTensor Real.tanh x)
  | .hardswish, [x] => (bindArgs [("inplace", some (.bool false))] false a).map (fun _ => mapTensor hardswishR x)
  | .silu, [x] => (bindArgs [("inplace", some (.bool false))] false a).map (fun _ => mapTensor Activation.silu x)
  | .dropout, [x] => match bindArgs dropoutParams false a with
    | some [p, tr, _] => p.num.bind (fun p : ℚ => tr.toBool.map (fun tr => if tr then w.drop p x else x))
    | _ => none
  | .other k, ts => w.other k a ts
  | _, _ => none

/-- The methods of `FloatFunctional`: two tensors, or a tensor and a number, and nothing else. -/
noncomputable def FF.sem (f : FF) (a : Args) (ts : List (Tensor ℝ)) : Option (Tensor ℝ) :=
  match f, ts with
  | .add, [x, y] => if a = .empty then elementwise (· + ·) x y else none
  | .mul, [x, y] => if a = .empty then elementwise (· * ·) x y else none
  | .addRelu, [x, y] => if a = .empty then (elementwise (· + ·) x y).map (mapTensor reluR) else none
  | .addScalar, [x] => match bindArgs [("y", none)] false a with
    | some [c] => withScalar (· + ·) c x
    | _ => none
  | .mulScalar, [x] => match bindArgs [("y", none)] false a with
    | some [c] => withScalar (· * ·) c x
    | _ => none
  | .cat, ts => match bindArgs [("dim", some (.int 0))] false a with
    | some [d] => d.toInt.bind (fun d => catT d ts)
    | _ => none
  | _, _ => none

/-- The modules; `nn.Dropout` follows the training mode of the model. -/
noncomputable def Mod.sem (w : World) (m : Mod) (ts : List (Tensor ℝ)) : Option (Tensor ℝ) :=
  match ts with
  | [x] => match m with
    | .relu => some (mapTensor reluR x)
    | .relu6 => some (mapTensor (fun v => min (reluR v) 6) x)
    | .leakyRelu s => some (mapTensor (leaky s) x)
    | .elu s => some (mapTensor (Activation.elu s 1 1) x)
    | .glu d => gluBy d x
    | .sigmoid => some (mapTensor Activation.sigmoid x)
    | .tanh => some (mapTensor Real.tanh x)
    | .hardswish => some (mapTensor hardswishR x)
    | .silu => some (mapTensor Activation.silu x)
    | .dropout p => some (if w.training then w.drop p x else x)
    | .identity => some x
  | _ => none

noncomputable def Op.sem (w : World) (o : Op) (ts : List (Tensor ℝ)) : Option (Tensor ℝ) :=
  match o with
  | .fn f a => f.sem w a ts
  | .ff f a => f.sem a ts
  | .mod m => m.sem w ts
  | .missing => none

/-- Names of tensors: those of the traced program, and the names a rewrite derives from the name `n`. -/
inductive Name
  | out (n : Nat)
  | aux (n : Name) (j : Nat)
  deriving DecidableEq

/-- One call. `on`: the user left quantization of the layer enabled. `float`: its tensors have a floating-point type. -/
structure Instr where
  out : Name
  op : Op
  ins : List Name
  on : Bool
  float : Bool
  deriving DecidableEq

/-- Values of the names defined so far. -/
abbrev Env := Name → Option (Tensor ℝ)

def Env.set (e : Env) (n : Name) (t : Tensor ℝ) : Env := fun m => if m = n then some t else e m

/-- Execute one call. -/
noncomputable def Instr.exec (w : World) (i : Instr) (e : Env) : Option Env := do
  let ts ← i.ins.mapM e
  let t ← i.op.sem w ts
  some (e.set i.out t)

/-- Execute a program. -/
noncomputable def run (w : World) : List Instr → Env → Option Env
  | [], e => some e
  | i :: p, e => (i.exec w e).bind (run w p)

/-- A traced program: every name is written once, after the names it is computed from; `known` are the names defined before. -/
def WellFormed : (Name → Prop) → List Instr → Prop
  | _, [] => True
  | known, i :: p => (∀ n ∈ i.ins, known n) ∧ ¬ known i.out ∧ WellFormed (fun n => known n ∨ n = i.out) p

/-- Calls whose meaning the rewriting keeps: for the layers that are to be quantized,
* sums, differences and products have no keyword arguments (`alpha`, `other`), and sums of two tensors are sums of floats;
* the reflected difference has a number as its second operand;
* `cat` is not called with `axis`;
* the slope of `leaky_relu` is given by position, or no argument is given at all;
* `dropout` was called with the training mode the model is in. -/
def Supported (w : World) (i : Instr) : Prop := i.on = true → match i.op with
  | .fn .sub a | .fn .mul a | .fn .rmul a => a.kw = []
  | .fn .add a | .fn .radd a => a.kw = [] ∧ (i.ins.length = 2 → i.float = true)
  | .fn .rsub _ => i.ins.length = 1
  | .fn .cat a => ∀ k ∈ a.kw, k.1 ≠ "axis"
  | .fn .leakyRelu a => a.pos ≠ [] ∨ a = .empty
  | .fn .dropout a => ∀ p tr ip, bindArgs dropoutParams false a = some [p, tr, ip] → tr = .bool w.training
  | _ => True

/-- Calls the rewriting can read: for the layers that are to be quantized, the number in `x / c`, `x - c` and `c - x` is an integer or a float given by position (for `/` and the reflected
difference one that Python prints with a decimal point), and `stack` has at most one further argument. -/
def Readable (i : Instr) : Prop := i.on = true → match i.op with
  | .fn .div a | .fn .rsub a => i.ins.length = 1 → (∃ z, a = ⟨[.int z], []⟩) ∨ ∃ q, a = ⟨[.float q true], []⟩
  | .fn .sub a => i.ins.length = 1 → (∃ z, a = ⟨[.int z], []⟩) ∨ ∃ q dot, a = ⟨[.float q dot], []⟩
  | .fn .stack a => a.pos.length + a.kw.length ≤ 1
  | _ => True

end Verif.Spec.FuncCall
