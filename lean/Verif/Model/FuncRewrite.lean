import Verif.Spec.FuncCall

/-!
Model of the rewriting of functional operations before quantization, tinynn/graph/quantization/quantizer.py 1684-2290 (`rewrite_quantize_graph`).

Simplified: a call is an instruction of a straight-line program, and its arguments are literals instead of text. The passes filter nodes by layer configuration and by the types of the
tensors; `on` and `float` stand for the outcomes of these tests. `inplace` is ignored (only values matter), and so is `prelu`. The rewiring of inserted nodes (`insert_between`,
`fuse_nodes_to_func`) is the subject of C86; here a new call gets a new name. A Python exception or failed assertion is `none`.
-/

namespace Verif.Model.FuncRewrite
open Verif.Spec.FuncCall

/-- 1740-1745: `float(args)` if the text has a dot, `int(args)` otherwise. `e = true` for the variants that also look for the letter e (1777-1782). The text has to be a single number. -/
def parseNumber (e : Bool) (a : Args) : Option ℚ := match a with
  | ⟨[.int z], []⟩ => some (z : ℚ)
  | ⟨[.float q dot], []⟩ => if dot ∨ e then some q else none
  | _ => none

/-- Change the operation of an instruction. -/
def withOp (i : Instr) (o : Op) : Option (List Instr) := some [{ i with op := o }]

/-- 1690-1711: `-x` becomes `x * -1.0`. -/
def negPass (i : Instr) : Option (List Instr) := match i.op with
  | .fn .neg _ => if i.on ∧ i.float then withOp i (.fn .mul ⟨[.float (-1) true], []⟩) else some [i]
  | _ => some [i]

/-- 1713-1748: `x / c` becomes `x * (1.0 / c)`. -/
def divPass (i : Instr) : Option (List Instr) := match i.op with
  | .fn .div a =>
    if i.on ∧ i.float ∧ i.ins.length = 1 then do
      let c ← parseNumber false a
      if c = 0 then none else withOp i (.fn .mul ⟨[.float (1 / c) true], []⟩)
    else some [i]
  | _ => some [i]

/-- 1788-1811: `x - y` becomes `x + (y * -1)`, whatever the arguments and for `__rsub__` as well. -/
def subTensors (i : Instr) (x y : Name) : List Instr :=
  [⟨.aux i.out 0, .fn .mul ⟨[.int (-1)], []⟩, [y], i.on, i.float⟩, { i with op := .fn .add .empty, ins := [x, .aux i.out 0] }]

/-- 1750-1837: `x - c` becomes `x + (-c)`, `c - x` becomes `(x * -1) + c`. -/
def subPass (i : Instr) : Option (List Instr) := match i.op with
  | .fn .sub a =>
    if i.on ∧ i.float then match i.ins with
      | [_] => do
        let c ← parseNumber true a
        withOp i (.fn .add ⟨[.float (-c) true], []⟩)
      | [x, y] => some (subTensors i x y)
      | _ => some [i]
    else some [i]
  | .fn .rsub a =>
    if i.on ∧ i.float then match i.ins with
      | [x] => do
        let _ ← parseNumber false a
        some [⟨.aux i.out 0, .fn .mul ⟨[.int (-1)], []⟩, [x], i.on, i.float⟩, { i with op := .fn .radd a, ins := [.aux i.out 0] }]
      | [x, y] => some (subTensors i x y)
      | _ => some [i]
    else some [i]
  | _ => some [i]

/-- 1853-1868: the dimension of `torch.stack`, and the arguments with `axis` renamed. -/
def stackDim (a : Args) : Option (ℤ × Args) := match a with
  | ⟨[], []⟩ => some (0, a)
  | ⟨[.int d], []⟩ => some (d, a)
  | ⟨[], [(k, .int d)]⟩ => if k = "axis" ∨ k = "dim" then some (d, ⟨[], [("dim", .int d)]⟩) else none
  | _ => none

/-- 1839-1890: `torch.stack(ts, d)` becomes `torch.unsqueeze(t, d)` for every distinct tensor, and `torch.cat` of the results. -/
def stackPass (i : Instr) : Option (List Instr) := match i.op with
  | .fn .stack a =>
    if i.on ∧ i.float then do
      let (d, a') ← stackDim a
      let u := i.ins.dedup
      some (u.mapIdx (fun j x => ⟨.aux i.out (j + 1), .fn .unsqueeze ⟨[.int d], []⟩, [x], i.on, i.float⟩) ++
        [{ i with op := .fn .cat a', ins := i.ins.map (fun x => .aux i.out (u.idxOf x + 1)) }])
    else some [i]
  | _ => some [i]

/-- 1920-1934: `add`, `add_scalar`, `mul` or `mul_scalar`, by the number of tensors. -/
def binary (i : Instr) (two one : FF) (a : Args) : Option (List Instr) := match i.ins with
  | [_, _] => withOp i (.ff two a)
  | [_] => withOp i (.ff one a)
  | _ => none

/-- 1893-1973: `add`, `mul` and `cat` become methods of a `FloatFunctional`, with the arguments they have. The treatment of reflected and in-place operators below (1940-1973) is never
reached, because `func_type` is replaced before it is looked at. -/
def convertPass (i : Instr) : Option (List Instr) :=
  if i.on ∧ i.float then match i.op with
    | .fn .add a => binary i .add .addScalar a
    | .fn .radd a => binary i .add .addScalar a
    | .fn .mul a => binary i .mul .mulScalar a
    | .fn .rmul a => binary i .mul .mulScalar a
    | .fn .cat a => withOp i (.ff .cat a)
    | _ => some [i]
  else some [i]

/-- `x == 0.0` and `x == 6.0` in Python. -/
def isNum (l : Lit) (q : ℚ) : Bool := decide (l.num = some q)

/-- 1975-2010: `clamp_min(x, 0)` becomes `clamp(x, 0)`. -/
def clampMinPass (i : Instr) : Option (List Instr) := match i.op with
  | .fn .clampMin a => if i.on ∧ i.float then match bindArgs [("min", none)] true a with
      | some [v] => if isNum v 0 then withOp i (.fn .clamp ⟨[v], []⟩) else some [i]
      | _ => none
    else some [i]
  | .fn .clampMax a => if i.on ∧ i.float then match bindArgs [("max", none)] true a with
      | some [_] => some [i]
      | _ => none
    else some [i]
  | _ => some [i]

/-- 2012-2072: `clamp` becomes `relu`, `relu6`, `clamp_min`, `clamp_max` or `clamp_with_fusion` (for float tensors `torch.clamp`, quantization/utils.py 76-79). -/
def clampPass (i : Instr) : Option (List Instr) := match i.op with
  | .fn .clamp a => if i.on ∧ i.float then match bindArgs [("min", some .none), ("max", some .none)] true a with
      | some [lo, hi] =>
        if isNum lo 0 ∧ hi = .none then withOp i (.fn .relu .empty)
        else if isNum lo 0 ∧ isNum hi 6 then withOp i (.fn .relu6 .empty)
        else if hi = .none then withOp i (.fn .clampMin ⟨[lo], []⟩)
        else if lo = .none then withOp i (.fn .clampMax ⟨[hi], []⟩)
        else withOp i (.fn .clamp ⟨[lo, hi], []⟩)
      | _ => none
    else some [i]
  | _ => some [i]

/-- How often a tensor is read by calls and handed out: `next_nodes`. -/
def readers (p : List Instr) (outs : List Name) (n : Name) : Nat := (p.map (fun i => i.ins.count n)).sum + outs.count n

/-- The call that reads a tensor. -/
def reader (p : List Instr) (n : Name) : Option Instr := p.find? (fun i => n ∈ i.ins)

/-- 2108-2119: past modules `Identity`, each with one reader, to a module `ReLU`; the names on the way and the name of the result. -/
def pastIdentities (p : List Instr) (outs : List Name) : Nat → Name → Option (List Name × Name)
  | 0, _ => none
  | fuel + 1, n => if readers p outs n ≠ 1 then none else match reader p n with
    | some r => match r.op with
      | .mod .identity => (pastIdentities p outs fuel r.out).map (fun q => (n :: q.1, q.2))
      | .mod .relu => some ([n], r.out)
      | _ => none
    | none => none

/-- The kind of the node is `add`. -/
def isAdd : Op → Bool
  | .ff .add _ | .fn .add _ | .fn .radd _ => true
  | _ => false

/-- 2083-2147 `_is_add_relu_fusable_node`: an addition of two tensors read once, by `relu` or, past identities, by a module `ReLU`. The names that disappear, and the name of the result. -/
def addRelu (p : List Instr) (outs : List Name) (i : Instr) : Option (List Name × Name) :=
  if i.on ∧ isAdd i.op ∧ i.ins.length = 2 ∧ readers p outs i.out = 1 then
    match reader p i.out with
    | some r => match r.op with
      | .fn .relu _ => some ([i.out], r.out)
      | _ => pastIdentities p outs (p.length + 1) i.out
    | none => none
  else none

/-- 2151-2153: `full_name.replace('add', 'add_relu')`. Only `FloatFunctional` has such a method; `torch.add_relu` does not exist. -/
def fusedOp : Op → Op
  | .ff .add a => .ff .addRelu a
  | _ => .missing

/-- The names that disappear. -/
def gone (p : List Instr) (outs : List Name) : List Name := p.flatMap (fun i => match addRelu p outs i with
  | some q => q.1
  | none => [])

/-- 2149-2176: the additions become `add_relu`, under the name of the last call; the calls in between and the last one disappear. -/
def fusePass (p : List Instr) (outs : List Name) : List Instr := p.filterMap (fun i => match addRelu p outs i with
  | some q => some { i with op := fusedOp i.op, out := q.2 }
  | none => if i.ins.any (fun n => n ∈ gone p outs) then none else some i)

/-- 2195-2275: functions become modules. -/
def modulePass (i : Instr) : Option (List Instr) :=
  if i.on then match i.op with
    | .fn .relu _ => withOp i (.mod .relu)
    | .fn .relu6 _ => withOp i (.mod .relu6)
    | .fn .silu _ => withOp i (.mod .silu)
    | .fn .hardswish _ => withOp i (.mod .hardswish)
    | .fn .sigmoid _ => withOp i (.mod .sigmoid)
    | .fn .tanh _ => withOp i (.mod .tanh)
    | .fn .elu a =>
      if a = .empty then withOp i (.mod (.elu 1))
      else match bindArgs [("alpha", some (.float 1 true))] true a with
        | some [v] => v.num.bind (fun q => withOp i (.mod (.elu q)))
        | _ => none
    | .fn .leakyRelu a =>
      if a = .empty then withOp i (.mod (.leakyRelu (1 / 100)))
      else match bindArgs [("alpha", some (.float 1 true))] true a with
        | some [v] => v.num.bind (fun q => withOp i (.mod (.leakyRelu q)))
        | _ => none
    | .fn .glu a =>
      if a = .empty then withOp i (.mod (.glu (-1)))
      else match bindArgs [("dim", some (.int (-1)))] true a with
        | some [v] => v.toInt.bind (fun d => withOp i (.mod (.glu d)))
        | _ => none
    | _ => some [i]
  else some [i]

/-- 2277-2312: `F.dropout` becomes `nn.Dropout`; the argument `training` is dropped. -/
def dropoutPass (i : Instr) : Option (List Instr) := match i.op with
  | .fn .dropout a => if i.on then match bindArgs [("p", some (.float (1 / 2) true)), ("training", some (.bool true)), ("inplace", some (.bool false))] false a with
      | some [p, _, _] => p.num.bind (fun p => withOp i (.mod (.dropout p)))
      | _ => none
    else some [i]
  | _ => some [i]

/-- A pass over all nodes. -/
def pass (f : Instr → Option (List Instr)) (p : List Instr) : Option (List Instr) := (p.mapM f).map List.flatten

/-- 1684-2312 in order. -/
def rewrite (outs : List Name) (p : List Instr) : Option (List Instr) := do
  let p ← pass negPass p
  let p ← pass divPass p
  let p ← pass subPass p
  let p ← pass stackPass p
  let p ← pass convertPass p
  let p ← pass clampMinPass p
  let p ← pass clampPass p
  let p ← pass modulePass (fusePass p outs)
  pass dropoutPass p

end Verif.Model.FuncRewrite
